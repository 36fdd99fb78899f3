import Verif.Model.Float64
/-!
# Values, readers and decoder state shared by AMF0 and AMF3 (amf/helper.go)
-/
namespace Verif.Amf

/-- A Go value as seen by the encoders (through `reflect`) or produced by the decoders.

* `int`/`uint`: any value of an `int*`/`uint*` kind; the flag says whether the kind is exactly
  `int64`/`uint64`, which amf3.go:583-586 treats differently.
* `f64`: `float64` (or `float32`, widened exactly) by bit pattern.
* `arr`: `amf.Array` or any other slice or array, `bytes`: `[]byte`.
* `obj`: `amf.Object`; the entries are listed in the order in which `range` visits the map.
* `time`: a `time.Time` by its `Unix()` seconds (the only method the encoders call).
* `ecma`: `EcmaArrayAMF3`.
* `shared n`: the very map stored in entry `n` of the AMF0 reference table (Go aliasing); produced only by
  the AMF0 decoder; its encoding is in `Model/Amf0Shared.lean`.
* `other`: a value of any other kind. -/
inductive Val where
  | nil
  | bool (b : Bool)
  | f64 (bits : UInt64)
  | int (is64 : Bool) (i : Int)
  | uint (is64 : Bool) (n : Nat)
  | str (s : Bytes)
  | arr (xs : List Val)
  | bytes (b : Bytes)
  | obj (kvs : List (Bytes × Val))
  | typed (type : Bytes) (kvs : List (Bytes × Val))
  | time (unix : Int)
  | ecma (dense : List Val) (assoc : List (Bytes × Val))
  | shared (n : Nat)
  | other
  deriving Repr

mutual
def Val.decEq : (a b : Val) → Decidable (a = b)
  | .nil, b => by cases b <;> first | exact isTrue rfl | exact isFalse (by simp)
  | .bool x, b => by
      cases b with
      | bool y => exact decidable_of_iff (x = y) (by simp)
      | _ => exact isFalse (by simp)
  | .f64 x, b => by
      cases b with
      | f64 y => exact decidable_of_iff (x = y) (by simp)
      | _ => exact isFalse (by simp)
  | .int w x, b => by
      cases b with
      | int w' y => exact decidable_of_iff (w = w' ∧ x = y) (by simp)
      | _ => exact isFalse (by simp)
  | .uint w x, b => by
      cases b with
      | uint w' y => exact decidable_of_iff (w = w' ∧ x = y) (by simp)
      | _ => exact isFalse (by simp)
  | .str x, b => by
      cases b with
      | str y => exact decidable_of_iff (x = y) (by simp)
      | _ => exact isFalse (by simp)
  | .arr x, b => by
      cases b with
      | arr y => exact match Val.decEqL x y with | isFalse h => isFalse (by simp [h]) | isTrue h => isTrue (by simp [h])
      | _ => exact isFalse (by simp)
  | .bytes x, b => by
      cases b with
      | bytes y => exact decidable_of_iff (x = y) (by simp)
      | _ => exact isFalse (by simp)
  | .obj x, b => by
      cases b with
      | obj y => exact match Val.decEqF x y with | isFalse h => isFalse (by simp [h]) | isTrue h => isTrue (by simp [h])
      | _ => exact isFalse (by simp)
  | .typed t x, b => by
      cases b with
      | typed t' y =>
        exact match Val.decEqF x y with
          | isFalse h => isFalse (by simp [h])
          | isTrue h => decidable_of_iff (t = t') (by simp [h])
      | _ => exact isFalse (by simp)
  | .time x, b => by
      cases b with
      | time y => exact decidable_of_iff (x = y) (by simp)
      | _ => exact isFalse (by simp)
  | .ecma d x, b => by
      cases b with
      | ecma d' y =>
        exact match Val.decEqF x y, Val.decEqL d d' with
          | isFalse h, _ => isFalse (by simp [h])
          | _, isFalse h => isFalse (by simp [h])
          | isTrue h, isTrue h' => isTrue (by simp [h, h'])
      | _ => exact isFalse (by simp)
  | .shared x, b => by
      cases b with
      | shared y => exact decidable_of_iff (x = y) (by simp)
      | _ => exact isFalse (by simp)
  | .other, b => by cases b <;> first | exact isTrue rfl | exact isFalse (by simp)
def Val.decEqL : (a b : List Val) → Decidable (a = b)
  | [], [] => isTrue rfl
  | [], _ :: _ => isFalse (by simp)
  | _ :: _, [] => isFalse (by simp)
  | x :: xs, y :: ys =>
    match Val.decEq x y, Val.decEqL xs ys with
    | isFalse h, _ => isFalse (by simp [h])
    | _, isFalse h => isFalse (by simp [h])
    | isTrue h, isTrue h' => isTrue (by simp [h, h'])
def Val.decEqF : (a b : List (Bytes × Val)) → Decidable (a = b)
  | [], [] => isTrue rfl
  | [], _ :: _ => isFalse (by simp)
  | _ :: _, [] => isFalse (by simp)
  | (k, x) :: xs, (l, y) :: ys =>
    if hk : k = l then
      match Val.decEq x y, Val.decEqF xs ys with
      | isFalse h, _ => isFalse (by simp [h])
      | _, isFalse h => isFalse (by simp [h])
      | isTrue h, isTrue h' => isTrue (by simp [hk, h, h'])
    else isFalse (by simp [hk])
end
instance : DecidableEq Val := Val.decEq

/-- `m[k] = v` on a Go map. -/
def mapSet (m : List (Bytes × Val)) (k : Bytes) (v : Val) : List (Bytes × Val) :=
  if m.any (fun e => e.1 == k) then m.map (fun e => if e.1 = k then (k, v) else e) else m ++ [(k, v)]

/-- An entry of `EnDecAMF0.deRefCache` (amf0.go:35).  `decodeObject` stores the map itself (amf0.go:149),
represented by its current contents, which keep changing while the object is being decoded;
`decodeStrictArray` stores a nil `Array` (amf0.go:219-220) and `decodeTypedObject` a zero `TypedObject`
(amf0.go:269-270). -/
inductive Ref0 where
  | object (kvs : List (Bytes × Val))
  | nilArray
  | zeroTyped
  deriving DecidableEq, Repr

/-- amf3.go:36-41 `TraitAMF3`. -/
structure Trait where
  type : Bytes
  externalizable : Bool
  dynamic : Bool
  properties : List Bytes
  deriving DecidableEq, Repr

/-- Decoder state: the reader and the tables of `EnDecAMF0` (amf0.go:34-37) and the embedded `EnDecAMF3`
(amf3.go:53-58; the handler map is a separate parameter).

The reader is in-memory: `data` is what remains.  `eofOnEmpty` tells `bytes.Reader` (true) from
`bytes.Buffer` (false): at the end of the data a zero-length `Read` returns `io.EOF` for the former and
`0, nil` for the latter.  `lim r` bounds how much one `Read` returns when `r` bytes remain (at least one
byte is returned); both standard readers return as much as they can, see `Contig`. -/
structure St where
  data : Bytes
  eofOnEmpty : Bool
  lim : Nat → Nat
  refs0 : List Ref0
  strTab : List Bytes
  objTab : List Val
  traits : List Trait

/-- A reader that never returns short reads. -/
def St.Contig (s : St) : Prop := ∀ r, r ≤ s.lim r

/-- A fresh decoder on a `bytes.Buffer`. -/
def St.buffer (data : Bytes) : St := ⟨data, false, id, [], [], [], []⟩
/-- A fresh decoder on a `bytes.Reader`. -/
def St.reader (data : Bytes) : St := ⟨data, true, id, [], [], [], []⟩

/-- Number of bytes one `r.Read` of an `n`-byte slice returns on non-empty data. -/
def St.got (s : St) (n : Nat) : Nat := min n (min s.data.length (max 1 (s.lim s.data.length)))

/-- `r.Read(buf)` with `len(buf) = n`: the bytes copied (possibly fewer than `n`) or `io.EOF`. -/
def rawRead (n : Nat) : GoM St Bytes := fun s =>
  if s.data.isEmpty then
    if n = 0 ∧ s.eofOnEmpty = false then (.ok [], s) else (.err .eof, s)
  else (.ok (s.data.take (s.got n)), { s with data := s.data.drop (s.got n) })

/-- amf/helper.go:64-76 `readBytes`: a single `Read`; fewer bytes than asked for is an error. -/
def readBytes (n : Nat) : GoM St Bytes := do
  let b ← rawRead n
  if b.length ≠ n then GoM.fail .other else pure b

/-- amf/helper.go:54-61 `readByte`. -/
def readByte : GoM St UInt8 := do
  let b ← readBytes 1
  GoM.lift (goIndex b 0)

/-- amf/helper.go:79-91 `nextByteMustBe`. -/
def nextByteMustBe (target : UInt8) : GoM St Unit := do
  let marker ← readByte
  if marker ≠ target then GoM.fail .other else pure ()

/-- `binary.Read(r, binary.BigEndian, &x)` for an `n`-byte `x`, `n > 0` (`io.ReadFull`): `io.EOF` if nothing
is left, `io.ErrUnexpectedEOF` if it ends early; short reads are retried. -/
def readFull (n : Nat) : GoM St Bytes := fun s =>
  if s.data.isEmpty then (.err .eof, s)
  else if s.data.length < n then (.err .unexpectedEof, { s with data := [] })
  else (.ok (s.data.take n), { s with data := s.data.drop n })

/-- Big-endian value of a byte string. -/
def beNat (b : Bytes) : Nat := b.foldl (fun a x => a * 256 + x.toNat) 0

/-- amf/helper.go:33-51 `writeByte`/`writeBytes`. -/
def writeByte (b : UInt8) : GoM Sink Unit := Sink.write [b]

end Verif.Amf
