import Verif.Model.Go
/-!
# Model of package `parser/h264`

Simplifications: the `io.Writer` is never nil, and Go's 64-bit `int` is large enough for every
length computed here (a 4-byte length is below 2^32), so lengths are natural numbers.
-/
namespace Verif

/-- A parser object together with the `io.Writer` handed to its `Parse` method. -/
structure Dev (P : Type) where
  p : P
  w : Sink

namespace Dev
variable {P α : Type}
/-- Run an action that only uses the writer. -/
def onW (m : GoM Sink α) : GoM (Dev P) α := fun s =>
  match m s.w with
  | (r, w') => (r, { s with w := w' })
end Dev

namespace H264

/-- parser/h264/type.go:13 `naluTypeSlice`. -/
def naluTypeSlice : UInt8 := 1
/-- parser/h264/type.go:17 `naluTypeIdr`. -/
def naluTypeIdr : UInt8 := 5
/-- parser/h264/type.go:18 `naluTypeSei`. -/
def naluTypeSei : UInt8 := 6
/-- parser/h264/type.go:19 `naluTypeSps`. -/
def naluTypeSps : UInt8 := 7
/-- parser/h264/type.go:20 `naluTypePps`. -/
def naluTypePps : UInt8 := 8
/-- parser/h264/type.go:21 `naluTypeAud`. -/
def naluTypeAud : UInt8 := 9
/-- parser/h264/type.go:28 `naluBytesLen`. -/
def naluBytesLen : Nat := 4
/-- parser/h264/type.go:32 `startCode`. -/
def startCode : Bytes := [0, 0, 0, 1]
/-- parser/h264/type.go:33 `naluAud`. -/
def naluAud : Bytes := [0, 0, 0, 1, 9, 0xf0]

/-- parser/h264/parser.go:11-14 `Parser`.  Simplification: the field `spsPps` is a scratch buffer that
`getAnnexbH264` resets before use and nothing else reads; it is a loop variable there. -/
structure Parser where
  specificInfo : Bytes
  deriving DecidableEq, Repr

/-- parser/h264/parser.go:17-21 `NewParser`. -/
def Parser.new : Parser := { specificInfo := [] }

/-- parser/h264/parser.go:49-95 `parseSpecificInfo`.  The fields of `sequenceHeader` that are stored
but never read are omitted. -/
def parseSpecificInfo (src : Bytes) (p : Parser) : Res Unit × Parser :=
  let body : Res Bytes :=
    if src.length < 9 then .err .other
    else do
      let b6 ← goIndex src 6
      let b7 ← goIndex src 7
      let spsLen := b6.toNat <<< 8 ||| b7.toNat
      let rest ← goSlice src 8 src.length
      if rest.length < spsLen ∨ spsLen = 0 then .err .other
      else do
        let spsBody ← goSlice src 8 (8 + spsLen)
        let tmpBuf ← goSlice src (8 + spsLen) src.length
        if tmpBuf.length < 4 then .err .other
        else do
          let t1 ← goIndex tmpBuf 1
          let t2 ← goIndex tmpBuf 2
          let ppsLen := t1.toNat <<< 8 ||| t2.toNat
          let ppsBody ← goSlice tmpBuf 3 tmpBuf.length
          if ppsBody.length < ppsLen ∨ ppsLen = 0 then .err .other
          else .ok ((startCode ++ spsBody) ++ (startCode ++ ppsBody))
  match body with
  | .ok info => (.ok (), { p with specificInfo := p.specificInfo ++ info })
  | .err e => (.err e, p)
  | .panic => (.panic, p)
  | .diverge => (.diverge, p)

/-- parser/h264/parser.go:98-104 `isStartAtNaluHeader`. -/
def isStartAtNaluHeader (src : Bytes) : Res Bool :=
  if src.length < naluBytesLen then .ok false
  else do
    let a ← goIndex src 0
    if a ≠ 0 then .ok false else do
      let b ← goIndex src 1
      if b ≠ 0 then .ok false else do
        let c ← goIndex src 2
        if c ≠ 0 then .ok false else do
          let d ← goIndex src 3
          .ok (d == 1)

/-- parser/h264/parser.go:107-122 `naluSize`: the loop over the first four bytes is a left fold. -/
def naluSize (src : Bytes) : Res Nat :=
  if src.length < naluBytesLen then .err .other
  else do
    let buf ← goSlice src 0 naluBytesLen
    .ok (buf.foldl (fun size b => size <<< 8 + b.toNat) 0)

/-- parser/h264/parser.go:172-187: the parameter sets written before the first IDR unit. -/
def writeParams (p : Parser) (spsPps : Bytes) (hasSpsPps hasWrite : Bool) : GoM Sink Unit :=
  if hasWrite then pure ()
  else if hasSpsPps then Sink.write spsPps
  else Sink.write p.specificInfo

/-- parser/h264/parser.go:192-202: start code and unit. -/
def writeUnit (nal : Bytes) : GoM Sink Unit := do
  Sink.write startCode
  Sink.write nal

/-- parser/h264/parser.go:146-225: the loop over the NAL units.  `index` is the read position and
`len(src) - index` is Go's `dataSize`; `fuel` bounds the number of iterations (each advances `index` by
more than four). -/
def annexbLoop (p : Parser) (src : Bytes) : Nat → (index : Nat) → (spsPps : Bytes) →
    (hasSpsPps hasWrite : Bool) → GoM Sink Unit
  | 0, _, _, _, _ => GoM.diverge
  | fuel + 1, index, spsPps, hasSpsPps, hasWrite =>
    if src.length - index = 0 then pure ()
    else do
      let rest ← GoM.lift (goSlice src index src.length)
      let nalLen ← GoM.lift (naluSize rest)
      if nalLen = 0 then GoM.fail .other
      else
        let index := index + naluBytesLen
        if src.length - index < nalLen then GoM.fail .other
        else do
          let b ← GoM.lift (goIndex src index)
          let nal ← GoM.lift (goSlice src index (index + nalLen))
          let nalType := b &&& 0x1f
          if nalType = naluTypeAud then
            annexbLoop p src fuel (index + nalLen) spsPps hasSpsPps hasWrite
          else if nalType = naluTypeIdr then do
            writeParams p spsPps hasSpsPps hasWrite
            writeUnit nal
            annexbLoop p src fuel (index + nalLen) spsPps hasSpsPps true
          else if nalType = naluTypeSlice ∨ nalType = naluTypeSei then do
            writeUnit nal
            annexbLoop p src fuel (index + nalLen) spsPps hasSpsPps hasWrite
          else if nalType = naluTypeSps ∨ nalType = naluTypePps then
            annexbLoop p src fuel (index + nalLen) (spsPps ++ startCode ++ nal) true hasWrite
          else GoM.fail .other

/-- parser/h264/parser.go:125-228 `getAnnexbH264`. -/
def getAnnexbH264 (p : Parser) (src : Bytes) : GoM Sink Unit :=
  if src.length = 0 ∨ src.length < naluBytesLen then GoM.fail .other
  else do
    Sink.write naluAud
    annexbLoop p src (src.length + 1) 0 [] false false

/-- parser/h264/parser.go:24-46 `Parse`. -/
def parse (b : Bytes) (isSeqHdr : Bool) : GoM (Dev Parser) Unit := fun s =>
  if b.length = 0 then (.err .other, s)
  else if isSeqHdr then
    match parseSpecificInfo b s.p with
    | (r, p') => (r, { s with p := p' })
  else
    match isStartAtNaluHeader b with
    | .ok true => Dev.onW (Sink.write b) s
    | .ok false => Dev.onW (getAnnexbH264 s.p b) s
    | .err e => (.err e, s)
    | .panic => (.panic, s)
    | .diverge => (.diverge, s)

end H264
end Verif
