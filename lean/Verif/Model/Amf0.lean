import Verif.Model.Amf3
/-!
# AMF0 codec (amf/amf0.go) and the metadata header helpers (amf/metadata.go)

Same conventions as `Verif.Model.Amf3`.
-/
namespace Verif.Amf0
open Verif.Amf

/-! ## Decoder -/

/-- `binary.Read(r, binary.BigEndian, &length)` for a `uint16` (amf0.go:132-133, 179-180). -/
def readU16 : GoM St Nat := do
  let b ← readFull 2
  pure (beNat b)

/-- The same for a `uint32` (amf0.go:194-195, 212-213, 253-254). -/
def readU32 : GoM St Nat := do
  let b ← readFull 4
  pure (beNat b)

/-- amf0.go:130-145 `decodeString`. -/
def decodeString : GoM St Bytes := do
  let n ← readU16
  readBytes n

/-- amf0.go:251-265 `decodeLongString`. -/
def decodeLongString : GoM St Bytes := do
  let n ← readU32
  readBytes n

/-- `ed.deRefCache = append(ed.deRefCache, v)`; returns the index of the new entry. -/
def pushRef (v : Ref0) : GoM St Nat := fun s =>
  (.ok s.refs0.length, { s with refs0 := s.refs0 ++ [v] })

/-- `result[key] = value` (amf0.go:174): the cached map with index `id` now has contents `kvs`. -/
def setRef (id : Nat) (kvs : List (Bytes × Val)) : GoM St Unit :=
  GoM.modify (fun s => { s with refs0 := s.refs0.set id (.object kvs) })

/-- amf0.go:151-175: the entries of an object; `acc` are the entries so far. -/
def objLoop (dec : GoM St Val) (id : Nat) : Nat → List (Bytes × Val) → GoM St (List (Bytes × Val))
  | 0, _ => GoM.diverge
  | fuel + 1, acc => do
    let key ← decodeString
    if key = [] then do
      nextByteMustBe 0x09
      pure acc
    else do
      let v ← dec
      let acc := mapSet acc key v
      setRef id acc
      objLoop dec id fuel acc

/-- amf0.go:147-176 `decodeObject`. -/
def decodeObject (dec : GoM St Val) (fuel : Nat) : GoM St (List (Bytes × Val)) := do
  let id ← pushRef (.object [])
  objLoop dec id fuel []

/-- amf0.go:178-190 `decodeReference`: the bound check on line 185 lets an index equal to the length
through. -/
def decodeReference : GoM St Val := do
  let ref ← readU16
  let s ← GoM.get
  if ref > s.refs0.length then GoM.fail .other
  else do
    let r ← GoM.lift (goIndex s.refs0 ref)
    match r with
    | .object _ => pure (.shared ref)
    | .nilArray => pure (.arr [])
    | .zeroTyped => pure (.typed [] [])

/-- amf0.go:192-209 `decodeEcmaArray`. -/
def decodeEcmaArray (dec : GoM St Val) (fuel : Nat) : GoM St (List (Bytes × Val)) := do
  let _ ← readU32
  decodeObject dec fuel

/-- amf0.go:223-230: the elements of a strict array (no fuel: the length bounds the loop). -/
def arrLoop (dec : GoM St Val) : Nat → List Val → GoM St (List Val)
  | 0, acc => pure acc
  | n + 1, acc => do
    let v ← dec
    arrLoop dec n (acc ++ [v])

/-- amf0.go:211-233 `decodeStrictArray`. -/
def decodeStrictArray (dec : GoM St Val) : GoM St (List Val) := do
  let n ← readU32
  let _ ← pushRef .nilArray
  arrLoop dec n []

/-- amf0.go:235-249 `decodeDate`. -/
def decodeDate : GoM St UInt64 := do
  let b ← readFull 8
  let _ ← readBytes 2
  pure (UInt64.ofNat (beNat b))

/-- amf0.go:267-291 `decodeTypedObject`. -/
def decodeTypedObject (dec : GoM St Val) (fuel : Nat) : GoM St (Bytes × List (Bytes × Val)) := do
  let _ ← pushRef .zeroTyped
  let t ← decodeString
  let o ← decodeObject dec fuel
  pure (t, o)

/-- The embedded AMF3 decoder of `NewEnDecAMF0` has no external handlers (amf0.go:41). -/
def noHandlers : Amf3.Handlers := fun _ => none

/-- amf0.go:45-109 `Decode`, with recursion depth and object loops bounded by the fuel. -/
def dec : Nat → GoM St Val
  | 0 => GoM.diverge
  | fuel + 1 => do
    let marker ← readByte
    if marker = 0x00 then do
      let b ← readFull 8
      pure (.f64 (UInt64.ofNat (beNat b)))
    else if marker = 0x01 then do
      let flag ← readByte
      pure (.bool (flag == 1))
    else if marker = 0x02 then do
      let s ← decodeString
      pure (.str s)
    else if marker = 0x03 then do
      let o ← decodeObject (dec fuel) fuel
      pure (.obj o)
    else if marker = 0x04 then GoM.fail .other
    else if marker = 0x05 ∨ marker = 0x06 ∨ marker = 0x0d then pure .nil
    else if marker = 0x07 then decodeReference
    else if marker = 0x08 then do
      let o ← decodeEcmaArray (dec fuel) fuel
      pure (.obj o)
    else if marker = 0x0a then do
      let a ← decodeStrictArray (dec fuel)
      pure (.arr a)
    else if marker = 0x0b then do
      let f ← decodeDate
      pure (.f64 f)
    else if marker = 0x0c then do
      let s ← decodeLongString
      pure (.str s)
    else if marker = 0x0e then GoM.fail .other
    else if marker = 0x0f then do
      let s ← decodeLongString
      pure (.str s)
    else if marker = 0x10 then do
      let (t, o) ← decodeTypedObject (dec fuel) fuel
      pure (.typed t o)
    else if marker = 0x11 then Amf3.decode noHandlers
    else GoM.fail .other

/-- amf0.go:45-109 `EnDecAMF0.Decode`; fuel `len + 1` is enough (`Verif.Props.C23_terminates`). -/
def decode : GoM St Val := fun s => dec (s.data.length + 1) s

/-- amf0.go:112-126 `EnDecAMF0.DecodeBatch`. -/
def decodeBatch : GoM St (List Val × Option Err) := fun s =>
  Amf3.batchLoop decode (s.data.length + 1) [] s

/-! ## Encoder -/

/-- amf0.go:451-465 `encodeNumber`. -/
def encodeNumber (val : UInt64) : GoM Sink Nat := do
  writeByte 0x00
  Sink.write (be64 val)
  pure (1 + 8)

/-- amf0.go:467-488 `encodeBoolean`. -/
def encodeBoolean (val : Bool) : GoM Sink Nat := do
  writeByte 0x01
  Sink.write [if val then 1 else 0]
  pure (1 + 1)

/-- amf0.go:494-500 and its copies: the optional marker. -/
def optMarker (m : UInt8) (encodeMarker : Bool) : GoM Sink Nat :=
  if encodeMarker then do
    writeByte m
    pure 1
  else pure 0

/-- amf0.go:490-516 `encodeString`; the length is truncated to 16 bits but all bytes are written. -/
def encodeString (val : Bytes) (encodeMarker : Bool) : GoM Sink Nat := do
  let n ← optMarker 0x02 encodeMarker
  let length := UInt16.ofNat val.length
  Sink.write (be16 length)
  Sink.write val
  pure (n + 2 + length.toNat)

/-- amf0.go:624-652 `encodeLongString`. -/
def encodeLongString (val : Bytes) (encodeMarker : Bool) : GoM Sink Nat := do
  let n ← optMarker 0x0c encodeMarker
  Sink.write (be32 (UInt32.ofNat val.length))
  Sink.write val
  pure (n + 4 + val.length)

/-- amf0.go:564-571 `encodeNull`, 430-447 `EncodeUndefined`, `EncodeUnsupported`. -/
def encodeOnlyMarker (m : UInt8) : GoM Sink Nat := do
  writeByte m
  pure 1

/-- amf0.go:601-622 `encodeDate`: writes a complete number (marker included) after the date marker. -/
def encodeDate (unix : Int) : GoM Sink Nat := do
  writeByte 0x0b
  let m ← encodeNumber (F64.mul1000 (F64.ofInt unix))
  Sink.write (be16 0)
  pure (1 + m + 2)

mutual
/-- amf0.go:298-341 `Encode`; for values with `shared` see `Model/Amf0Shared.lean`; `other` and `ecma` (a struct) are rejected. -/
def enc : Val → GoM Sink Nat
  | .nil => encodeOnlyMarker 0x05
  | .bool b => encodeBoolean b
  | .f64 f => encodeNumber f
  | .int _ i => encodeNumber (F64.ofInt i)
  | .uint _ n => encodeNumber (F64.ofInt n)
  | .str s => if s.length ≤ 65535 then encodeString s true else encodeLongString s true
  | .arr xs => do
    -- amf0.go:573-599 encodeStrictArray
    writeByte 0x0a
    Sink.write (be32 (UInt32.ofNat xs.length))
    let m ← encL xs
    pure (1 + 4 + m)
  | .bytes b => do
    -- the same, every element being a uint8
    writeByte 0x0a
    Sink.write (be32 (UInt32.ofNat b.length))
    let m ← encBytes b
    pure (1 + 4 + m)
  | .obj kvs => do
    let n ← optMarker 0x03 true
    let m ← encObj kvs
    pure (n + m)
  | .typed t kvs => do
    -- amf0.go:654-675 encodeTypeObject
    writeByte 0x10
    let m ← encodeString t false
    let m' ← encObj kvs
    pure (1 + m + m')
  | .time t => encodeDate t
  | .ecma _ _ => GoM.fail .other
  | .shared _ => GoM.fail .other
  | .other => GoM.fail .other
/-- amf0.go:590-596: the elements of an array. -/
def encL : List Val → GoM Sink Nat
  | [] => pure 0
  | v :: vs => do
    let m ← enc v
    let k ← encL vs
    pure (m + k)
/-- amf0.go:590-596 for a byte slice. -/
def encBytes : Bytes → GoM Sink Nat
  | [] => pure 0
  | b :: bs => do
    let m ← encodeNumber (F64.ofInt b.toNat)
    let k ← encBytes bs
    pure (m + k)
/-- amf0.go:518-562 `encodeObject` without the marker: the entries in `range` order, then the end. -/
def encObj : List (Bytes × Val) → GoM Sink Nat
  | [] => do
    let m ← encodeString [] false
    writeByte 0x09
    pure (m + 1)
  | (k, v) :: r => do
    let m ← encodeString k false
    let m' ← enc v
    let m'' ← encObj r
    pure (m + m' + m'')
end

/-- amf0.go:298-341 `EnDecAMF0.Encode`. -/
def encode : Val → GoM Sink Nat := enc

/-- amf0.go:344-354 `EncodeBatch`. -/
def encodeBatch : List Val → GoM Sink Unit
  | [] => pure ()
  | v :: vs => do
    let _ ← encode v
    encodeBatch vs

/-- `err := writeByte(w, m); if err != nil { return 0, nil }` (amf0.go:358-361, 373-376): the error of the
marker write is dropped and the call reports success with count 0. -/
def swallowMarker (m : UInt8) (rest : GoM Sink Nat) : GoM Sink Nat := fun w =>
  match writeByte m w with
  | (.ok _, w') => rest w'
  | (.err _, w') => (.ok 0, w')
  | (.panic, w') => (.panic, w')
  | (.diverge, w') => (.diverge, w')

/-- amf0.go:357-369 `EncodeWithAMF3`. -/
def encodeWithAMF3 (v : Val) : GoM Sink Nat :=
  swallowMarker 0x11 do
    let n ← Amf3.encode v
    pure (n + 1)

/-- amf0.go:372-384 `EncodeXmlDocument`. -/
def encodeXmlDocument (s : Bytes) : GoM Sink Nat :=
  swallowMarker 0x0f do
    let n ← encodeLongString s false
    pure (n + 1)

/-- amf0.go:430-437 `EncodeUndefined`. -/
def encodeUndefined : GoM Sink Nat := encodeOnlyMarker 0x06

/-- amf0.go:440-447 `EncodeUnsupported`. -/
def encodeUnsupported : GoM Sink Nat := encodeOnlyMarker 0x0d

/-- amf0.go:387-401 `EncodeReference`. -/
def encodeReference (ref : UInt16) : GoM Sink Nat := do
  writeByte 0x07
  Sink.write (be16 ref)
  pure (1 + 2)

/-- amf0.go:404-427 `EncodeEcmaArray`. -/
def encodeEcmaArray (kvs : List (Bytes × Val)) : GoM Sink Nat := do
  writeByte 0x08
  Sink.write (be32 (UInt32.ofNat kvs.length))
  let m ← encObj kvs
  pure (1 + 4 + m)

/-! ## Metadata header (amf/metadata.go) -/

/-- metadata.go:13 `SetDataFrame`: the bytes of "@setDataFrame". -/
def setDataFrame : Bytes := [0x40, 0x73, 0x65, 0x74, 0x44, 0x61, 0x74, 0x61, 0x46, 0x72, 0x61, 0x6d, 0x65]

/-- metadata.go:18-31 `setFrameFrame`: what `Encode` wrote for it at start-up. -/
def setFrameFrame : Bytes := (encode (.str setDataFrame) Sink.mem).2.out

/-- metadata.go:34-60 `AddMetaHeader` with the decoder `d` and decoder tables `st`.  The string is the Go
value `v.(string)`; anything else is an error. -/
def addMetaHeader (d : GoM St Val) (st : St) (p : Bytes) : Res Bytes :=
  match d { st with data := p, eofOnEmpty := true, lim := id } with
  | (.ok (.str vv), _) => if vv ≠ setDataFrame then .ok (setFrameFrame ++ p) else .ok p
  | (.ok _, _) => .err .other
  | (.err e, _) => .err e
  | (.panic, _) => .panic
  | (.diverge, _) => .diverge

/-- metadata.go:63-83 `DelMetaHeader`; `p[len(setFrameFrame):]` panics if `p` is shorter. -/
def delMetaHeader (d : GoM St Val) (st : St) (p : Bytes) : Res Bytes :=
  match d { st with data := p, eofOnEmpty := true, lim := id } with
  | (.ok (.str vv), _) => if vv = setDataFrame then goSlice p setFrameFrame.length p.length else .ok p
  | (.ok _, _) => .err .other
  | (.err e, _) => .err e
  | (.panic, _) => .panic
  | (.diverge, _) => .diverge

end Verif.Amf0
