import Verif.Model.Amf
/-!
# AMF3 codec (amf/amf3.go, amf/amf3_external.go)

Decoding functions run in `GoM St`, encoding functions in `GoM Sink`.  When Go returns a count together with
a non-nil error the count is dropped.  Memory allocation (`make([]byte, n)`, `make(Array, n)`) always succeeds.
-/
namespace Verif.Amf3
open Verif.Amf

/-- UTF-8 bytes of a string literal. -/
def lit (s : String) : Bytes := s.toUTF8.toList

/-! ## Decoder -/

/-- amf3.go:509-536 `readUint29`: `i` of the (at most) three 7-bit bytes are still to come. -/
def u29Loop : Nat → UInt32 → GoM St UInt32
  | 0, ret => do
    let b ← readByte
    pure ((ret <<< 8) + b.toUInt32)
  | i + 1, ret => do
    let b ← readByte
    let ret := (ret <<< 7) + (b &&& 0x7F).toUInt32
    if b &&& 0x80 = 0 then pure ret else u29Loop i ret

/-- amf3.go:509-536 `readUint29`. -/
def readUint29 : GoM St UInt32 := u29Loop 3 0

/-- amf3.go:494-506 `decodeUint29`: (isRef, refVal). -/
def decodeUint29 : GoM St (Bool × UInt32) := do
  let u29 ← readUint29
  pure (u29 &&& 1 == 0, u29 >>> 1)

/-- amf3.go:137-171 `decodeString`. -/
def decodeString : GoM St Bytes := do
  let (isRef, refVal) ← decodeUint29
  if isRef then
    let s ← GoM.get
    if refVal.toNat ≥ s.strTab.length then GoM.fail .other
    else GoM.lift (goIndex s.strTab refVal.toNat)
  else if refVal = 0 then pure []
  else
    let buf ← readBytes refVal.toNat
    GoM.modify (fun s => { s with strTab := s.strTab ++ [buf] })
    pure buf

/-- amf3.go:181-183 and its copies: look up entry `i` of the object table. -/
def objRef (i : Nat) : GoM St Val := do
  let s ← GoM.get
  if i ≥ s.objTab.length then GoM.fail .other else GoM.lift (goIndex s.objTab i)

/-- `ed.deObjTable = append(ed.deObjTable, v)`. -/
def pushObj (v : Val) : GoM St Unit := GoM.modify (fun s => { s with objTab := s.objTab ++ [v] })

/-- `binary.Read(r, binary.BigEndian, &f64)`. -/
def readF64 : GoM St UInt64 := do
  let b ← readFull 8
  pure (UInt64.ofNat (beNat b))

/-- Turn an error of `m` into the error `e`. -/
def mapErr {α} (e : Err) (m : GoM St α) : GoM St α := fun s =>
  match m s with
  | (.err _, s') => (.err e, s')
  | r => r

/-- amf3.go:173-206 `decodeDate`; the read error is replaced by a new one (line 198). -/
def decodeDate : GoM St Val := do
  let (isRef, refVal) ← decodeUint29
  if isRef then
    let v ← objRef refVal.toNat
    match v with
    | .time t => pure (.time t)
    | _ => GoM.fail .other
  else
    let f ← mapErr .other readF64
    let v := Val.time (F64.toInt64 (F64.div1000 f))
    pushObj v
    pure v

/-- amf3.go:245-257: the associative part of an array, `fuel` iterations at most.  Also the dynamic members
of an object (amf3.go:388-405), which is the same loop entered one step earlier. -/
def assocLoop (dec : GoM St Val) : Nat → Bytes → List (Bytes × Val) → GoM St (List (Bytes × Val))
  | 0, _, _ => GoM.diverge
  | fuel + 1, key, acc =>
    if key = [] then pure acc
    else do
      let v ← dec
      let key' ← decodeString
      assocLoop dec fuel key' (mapSet acc key v)

/-- amf3.go:260-265: the dense part of an array. -/
def denseLoop (dec : GoM St Val) : Nat → List Val → GoM St (List Val)
  | 0, acc => pure acc
  | n + 1, acc => do
    let v ← dec
    denseLoop dec n (acc ++ [v])

/-- amf3.go:208-268 `decodeArray`. -/
def decodeArray (dec : GoM St Val) (fuel : Nat) : GoM St Val := do
  let (isRef, refVal) ← decodeUint29
  if isRef then
    let v ← objRef refVal.toNat
    match v with
    | .ecma d a => pure (.ecma d a)
    | _ => GoM.fail .other
  else
    let key ← decodeString
    pushObj (.ecma [] [])
    let assoc ← assocLoop dec fuel key []
    let dense ← denseLoop dec refVal.toNat []
    pure (.ecma dense assoc)

/-- amf3.go:316-321: the property names of a trait. -/
def propNames : Nat → List Bytes → GoM St (List Bytes)
  | 0, acc => pure acc
  | n + 1, acc => do
    let k ← decodeString
    propNames n (acc ++ [k])

/-- amf3.go:376-383: the property values of an object. -/
def propVals (dec : GoM St Val) : List Bytes → List (Bytes × Val) → GoM St (List (Bytes × Val))
  | [], acc => pure acc
  | k :: ks, acc => do
    let v ← dec
    propVals dec ks (mapSet acc k v)

/-- amf3_external.go:103-118 `readFlags`. -/
def readFlags : Nat → List UInt8 → GoM St (List UInt8)
  | 0, _ => GoM.diverge
  | fuel + 1, acc => do
    let f ← readByte
    if f &&& 0x80 = 0 then pure (acc ++ [f]) else readFlags fuel (acc ++ [f])

/-- amf3_external.go:72-81: the named fields of one flag byte; `p` is the position of the first name.
`uint8(math.Exp2(p))` is `2^p` (there are at most 7 names). -/
def namedFields (dec : GoM St Val) (flags : UInt8) :
    Nat → List Bytes → List (Bytes × Val) → GoM St (List (Bytes × Val))
  | _, [], obj => pure obj
  | p, name :: names, obj =>
    if flags &&& UInt8.ofNat (2 ^ p) = 1 then do
      let v ← dec
      namedFields dec flags (p + 1) names (mapSet obj name v)
    else namedFields dec flags (p + 1) names obj

/-- amf3_external.go:85-95: the reserved bits `j .. 6`, `n = 7 - j` of them. -/
def extraFields (dec : GoM St Val) (flags : UInt8) (i : Nat) :
    Nat → List (Bytes × Val) → GoM St (List (Bytes × Val))
  | 0, obj => pure obj
  | n + 1, obj =>
    let j := 6 - n
    if (flags >>> UInt8.ofNat j) &&& 1 = 1 then do
      let v ← dec
      extraFields dec flags i n (mapSet obj (lit s!"extra_{i}_{j}") v)
    else extraFields dec flags i n obj

/-- amf3_external.go:61-97: all flag bytes, `i` is the index of the first. -/
def flagSets (dec : GoM St Val) (fieldSets : List (List Bytes)) :
    Nat → List UInt8 → List (Bytes × Val) → GoM St (List (Bytes × Val))
  | _, [], obj => pure obj
  | i, flags :: rest, obj => do
    let names := fieldSets.getD i []
    let obj ← namedFields dec flags 0 names obj
    let obj ← if flags >>> UInt8.ofNat names.length ≠ 0 then extraFields dec flags i (7 - names.length) obj
      else pure obj
    flagSets dec fieldSets (i + 1) rest obj

/-- amf3_external.go:53-100 `decodeExternal`. -/
def decodeExternal (dec : GoM St Val) (fuel : Nat) (obj : List (Bytes × Val)) (fieldSets : List (List Bytes)) :
    GoM St (List (Bytes × Val)) := do
  let fs ← readFlags fuel []
  flagSets dec fieldSets 0 fs obj

/-- amf3_external.go:40-51 `decodeAbstractMessage`. -/
def decodeAbstractMessage (dec : GoM St Val) (fuel : Nat) : GoM St (List (Bytes × Val)) :=
  decodeExternal dec fuel []
    [[lit "body", lit "clientId", lit "destination", lit "headers", lit "messageId", lit "timeStamp",
      lit "timeToLive"], [lit "clientIdBytes", lit "messageIdBytes"]]

/-- amf3_external.go:10-22 `decodeAsyncMessage`. -/
def decodeAsyncMessage (dec : GoM St Val) (fuel : Nat) : GoM St (List (Bytes × Val)) := do
  let obj ← decodeAbstractMessage dec fuel
  decodeExternal dec fuel obj [[lit "correlationId", lit "correlationIdBytes"]]

/-- amf3_external.go:25-37 `decodeAcknowledgeMessage`. -/
def decodeAcknowledgeMessage (dec : GoM St Val) (fuel : Nat) : GoM St (List (Bytes × Val)) := do
  let obj ← decodeAsyncMessage dec fuel
  decodeExternal dec fuel obj []

/-- Registered external handlers (amf3.go:57, 68-70), each an arbitrary state transformer. -/
abbrev Handlers := Bytes → Option (GoM St Val)

/-- amf3.go:332-369: an externalizable object. -/
def decodeExt (H : Handlers) (dec : GoM St Val) (fuel : Nat) (type : Bytes) : GoM St Val :=
  if type = lit "DSA" then do
    let o ← decodeAsyncMessage dec fuel
    pure (.obj o)
  else if type = lit "DSK" then do
    let o ← decodeAcknowledgeMessage dec fuel
    pure (.obj o)
  else if type = lit "flex.messaging.io.ArrayCollection" then do
    let v ← dec
    pushObj v
    pure v
  else match H type with
    | some h => h
    | none => GoM.fail .other

/-- amf3.go:286-324: the trait of an object, by reference or inline.  The two flag tests compare a masked
value with 1 although the mask is 2 resp. 4 (lines 302, 305). -/
def decodeTrait (refVal : UInt32) : GoM St Trait :=
  if refVal &&& 1 = 0 then do
    let s ← GoM.get
    if (refVal >>> 1).toNat ≥ s.traits.length then GoM.fail .other
    else GoM.lift (goIndex s.traits (refVal >>> 1).toNat)
  else do
    let type ← decodeString
    let props ← propNames (refVal >>> 3).toNat []
    let t : Trait := ⟨type, refVal &&& 2 == 1, refVal &&& 4 == 1, props⟩
    GoM.modify (fun s => { s with traits := s.traits ++ [t] })
    pure t

/-- amf3.go:270-410 `decodeObject`. -/
def decodeObject (H : Handlers) (dec : GoM St Val) (fuel : Nat) : GoM St Val := do
  let (isRef, refVal) ← decodeUint29
  if isRef then objRef refVal.toNat
  else
    let t ← decodeTrait refVal
    pushObj .nil
    if t.externalizable then decodeExt H dec fuel t.type
    else
      let o ← propVals dec t.properties []
      let o ← if t.dynamic then do
          let key ← decodeString
          assocLoop dec fuel key o
        else pure o
      pure (.obj o)

/-- `r.Read(buf)` into a zeroed `n`-byte buffer whose count is ignored (amf3.go:440-441, 481-482). -/
def readPadded (n : Nat) : GoM St Bytes := do
  let b ← rawRead n
  pure (b ++ List.replicate (n - b.length) 0)

/-- amf3.go:412-451 `decodeXmlDoc`. -/
def decodeXmlDoc : GoM St Val := do
  let (isRef, refVal) ← decodeUint29
  if isRef then
    let v ← objRef refVal.toNat
    match v with
    | .str x => pure (.str x)
    | _ => GoM.fail .other
  else if refVal = 0 then pure (.str [])
  else
    let b ← readPadded refVal.toNat
    pushObj (.str b)
    pure (.str b)

/-- amf3.go:453-491 `decodeByteArray`. -/
def decodeByteArray : GoM St Val := do
  let (isRef, refVal) ← decodeUint29
  if isRef then
    let v ← objRef refVal.toNat
    match v with
    | .bytes x => pure (.bytes x)
    | _ => GoM.fail .other
  else if refVal = 0 then pure (.bytes [])
  else
    let b ← readPadded refVal.toNat
    pushObj (.bytes b)
    pure (.bytes b)

/-- amf3.go:73-117 `Decode`, with recursion depth and inner loop counts bounded by the fuel. -/
def dec (H : Handlers) : Nat → GoM St Val
  | 0 => GoM.diverge
  | fuel + 1 => do
    let marker ← readByte
    if marker = 0x00 ∨ marker = 0x01 then pure .nil
    else if marker = 0x02 then pure (.bool false)
    else if marker = 0x03 then pure (.bool true)
    else if marker = 0x04 then do
      let u ← readUint29
      pure (.uint false u.toNat)
    else if marker = 0x05 then do
      let f ← readF64
      pure (.f64 f)
    else if marker = 0x06 then do
      let s ← decodeString
      pure (.str s)
    else if marker = 0x07 then decodeXmlDoc
    else if marker = 0x08 then decodeDate
    else if marker = 0x09 then decodeArray (dec H fuel) fuel
    else if marker = 0x0a then decodeObject H (dec H fuel) fuel
    else if marker = 0x0b then decodeXmlDoc
    else if marker = 0x0c then decodeByteArray
    else GoM.fail .other

/-- amf3.go:73-117 `EnDecAMF3.Decode`.  Every recursive call and loop iteration consumes input, so fuel
`len + 1` is enough (`Verif.Props.C38_amf3_total`). -/
def decode (H : Handlers) : GoM St Val := fun s => dec H (s.data.length + 1) s

/-- amf3.go:120-133 and amf0.go:112-126 `DecodeBatch`: the values and the error (none for `io.EOF`). -/
def batchLoop (dec : GoM St Val) : Nat → List Val → GoM St (List Val × Option Err)
  | 0, _ => GoM.diverge
  | fuel + 1, ret => fun s =>
    match dec s with
    | (.ok v, s') => batchLoop dec fuel (ret ++ [v]) s'
    | (.err .eof, s') => (.ok (ret, none), s')
    | (.err e, s') => (.ok (ret, some e), s')
    | (.panic, s') => (.panic, s')
    | (.diverge, s') => (.diverge, s')

/-- amf3.go:120-133 `EnDecAMF3.DecodeBatch`. -/
def decodeBatch (H : Handlers) : GoM St (List Val × Option Err) := fun s =>
  batchLoop (decode H) (s.data.length + 1) [] s

/-! ## Encoder -/

/-- amf3.go:914-922: the bytes of a U29. -/
def u29Bytes (val : UInt32) : Option Bytes :=
  if val ≤ 0x7F then some [val.toUInt8]
  else if val ≤ 0x3FFF then some [((val >>> 7) ||| 0x80).toUInt8, (val &&& 0x7F).toUInt8]
  else if val ≤ 0x1FFFFF then
    some [((val >>> 14) ||| 0x80).toUInt8, (((val >>> 7) &&& 0x7F) ||| 0x80).toUInt8, (val &&& 0x7F).toUInt8]
  else if val ≤ 0x1FFFFFFF then
    some [((val >>> 22) ||| 0x80).toUInt8, (((val >>> 15) &&& 0x7F) ||| 0x80).toUInt8,
      (((val >>> 8) &&& 0x7F) ||| 0x80).toUInt8, val.toUInt8]
  else none

/-- amf3.go:912-927 `writeUint29`. -/
def writeUint29 (val : UInt32) : GoM Sink Nat :=
  match u29Bytes val with
  | some b => do
    Sink.write b
    pure b.length
  | none => GoM.fail .other

/-- amf3.go:903-910 `encodeUint29` with `isRef = false` (no caller passes true). -/
def encodeUint29 (val : UInt32) : GoM Sink Nat := writeUint29 ((val <<< 1) ||| 1)

/-- amf3.go:885-901 `encodeUtf8`. -/
def encodeUtf8 (val : Bytes) : GoM Sink Nat := do
  let m ← encodeUint29 (UInt32.ofNat val.length)
  Sink.write val
  pure (m + val.length)

/-- amf3.go:615-649 `encodeNull`, `encodeFalse`, `encodeTrue`. -/
def encodeMarker (m : UInt8) : GoM Sink Nat := do
  writeByte m
  pure 1

/-- amf3.go:651-666 `encodeInteger`. -/
def encodeInteger (val : UInt32) : GoM Sink Nat := do
  writeByte 0x04
  let m ← writeUint29 val
  pure (1 + m)

/-- amf3.go:668-682 `encodeDouble`. -/
def encodeDouble (val : UInt64) : GoM Sink Nat := do
  writeByte 0x05
  Sink.write (be64 val)
  pure (1 + 8)

/-- amf3.go:684-700 `encodeString`. -/
def encodeString (val : Bytes) : GoM Sink Nat := do
  writeByte 0x06
  let m ← encodeUtf8 val
  pure (1 + m)

/-- amf3.go:702-723 `encodeDate`. -/
def encodeDate (unix : Int) : GoM Sink Nat := do
  writeByte 0x08
  writeByte 0x01
  Sink.write (be64 (F64.mul1000 (F64.ofInt unix)))
  pure (1 + 1 + 8)

/-- amf3.go:861-883 `encodeByteArray`. -/
def encodeByteArray (val : Bytes) : GoM Sink Nat := do
  writeByte 0x0c
  let m ← encodeUint29 (UInt32.ofNat val.length)
  Sink.write val
  pure (1 + m + val.length)

/-- Bytewise `<` on strings, as `sort.Strings` uses. -/
def bytesLt : Bytes → Bytes → Bool
  | [], [] => false
  | [], _ :: _ => true
  | _ :: _, [] => false
  | a :: as, b :: bs => if a < b then true else if b < a then false else bytesLt as bs

/-- Insert an entry before the first entry with a larger key. -/
def insertKey {α} (e : Bytes × α) : List (Bytes × α) → List (Bytes × α)
  | [] => [e]
  | f :: r => if bytesLt e.1 f.1 then e :: f :: r else f :: insertKey e r

/-- amf3.go:770-773: the entries sorted by key (the keys of a map are distinct, so every sorting
algorithm gives this list). -/
def sortKeys {α} : List (Bytes × α) → List (Bytes × α)
  | [] => []
  | e :: r => insertKey e (sortKeys r)

/-- Run actions in order, adding up their counts. -/
def runAll (n : Nat) : List (GoM Sink Nat) → GoM Sink Nat
  | [] => pure n
  | a :: as => do
    let m ← a
    runAll (n + m) as

/-- amf3.go:756-859 `encodeObject` on the entries of the map, each value replaced by its encoder action.
`Dynamic` and `Externalizable` are always false here (lines 766-767), so lines 777-782, 810-812 and 823-856
are not reached. -/
def encodeEntries (type : Bytes) (entries : List (Bytes × GoM Sink Nat)) : GoM Sink Nat := do
  writeByte 0x0a
  let props := sortKeys entries
  let m ← writeUint29 ((3 : UInt32) ||| (UInt32.ofNat props.length <<< 4))
  let m' ← encodeUtf8 type
  let n ← runAll (1 + m + m') (props.map fun e => encodeUtf8 e.1)
  runAll n (props.map fun e => e.2)

mutual
/-- amf3.go:541-598 `Encode`; `other` and `ecma` (a struct) are rejected.  Values with `shared` are for `encodeShared`
(Model/Amf3Shared.lean). -/
def enc : Val → GoM Sink Nat
  | .nil => encodeMarker 0x01
  | .bool true => encodeMarker 0x03
  | .bool false => encodeMarker 0x02
  | .int false i =>
    if -536870911 ≤ i ∧ i < 536870911 then encodeInteger (UInt32.ofNat (i % 2 ^ 32).toNat)
    else encodeDouble (F64.ofInt i)
  | .int true i => encodeDouble (F64.ofInt i)
  | .uint false n =>
    if n < 536870911 then encodeInteger (UInt32.ofNat n) else encodeDouble (F64.ofInt n)
  | .uint true n => encodeDouble (F64.ofInt n)
  | .f64 f => encodeDouble f
  | .str s => encodeString s
  | .time t => encodeDate t
  | .bytes b => encodeByteArray b
  | .arr xs => do
    -- amf3.go:725-754 encodeArray
    writeByte 0x09
    let m ← encodeUint29 (UInt32.ofNat xs.length)
    let m' ← encodeUtf8 []
    let k ← encL xs
    pure (1 + m + m' + k)
  | .obj kvs => encodeEntries [] (encF kvs)
  | .typed t kvs => encodeEntries t (encF kvs)
  | .ecma _ _ => GoM.fail .other
  | .shared _ => GoM.fail .other
  | .other => GoM.fail .other
/-- amf3.go:745-751: the elements of an array, in order. -/
def encL : List Val → GoM Sink Nat
  | [] => pure 0
  | v :: vs => do
    let m ← enc v
    let k ← encL vs
    pure (m + k)
/-- The entries of a map with each value replaced by the action that encodes it. -/
def encF : List (Bytes × Val) → List (Bytes × GoM Sink Nat)
  | [] => []
  | (k, v) :: r => (k, enc v) :: encF r
end

/-- amf3.go:541-598 `EnDecAMF3.Encode`. -/
def encode : Val → GoM Sink Nat := enc

/-- amf3.go:601-611 `EnDecAMF3.EncodeBatch`. -/
def encodeBatch : List Val → GoM Sink Unit
  | [] => pure ()
  | v :: vs => do
    let _ ← encode v
    encodeBatch vs

end Verif.Amf3
