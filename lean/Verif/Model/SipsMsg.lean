import Verif.Model.Sips
/-!
# Model of package `sips`: whole messages (sips.go, request.go `ParseFirstLine`, easy.go)

`bufio.Reader` is modelled because `Parse` depends on its buffer: `ReadSlice` fails on lines longer than the buffer and
`Read` hands out whatever is buffered.
-/
namespace Verif.Sips
open Verif.Str

/-! ## bufio.Reader -/

/-- A `bufio.Reader`: `buf` is what is buffered and unread, `cap` the size of the buffer.  The underlying reader delivers
the `chunks` one `Read` at a time (each `Read` returns at most what fits) and then `final` for ever.
Simplifications: the underlying reader never returns `0, nil`, and returns its final error on a call of its own (not
together with the last bytes). -/
structure Rd where
  buf : Bytes
  chunks : List Bytes
  cap : Nat
  final : Err
  deriving DecidableEq, Repr

/-- Everything not yet delivered to the caller. -/
def Rd.all (r : Rd) : Bytes := r.buf ++ r.chunks.flatten

/-- `rd.Read` of the underlying reader into `n > 0` bytes: the bytes and the remaining chunks; `none` at the end.
Empty chunks are skipped. -/
def under (n : Nat) : List Bytes → Option (Bytes × List Bytes)
  | [] => none
  | c :: cs => if c = [] then under n cs else some (c.take n, if c.drop n = [] then cs else c.drop n :: cs)

/-- bufio `ReadSlice`: result line, error, reader afterwards. -/
def Rd.readSliceAux (delim : UInt8) : Nat → Rd → Res (Bytes × Option Err × Rd)
  | 0, _ => .diverge
  | fuel + 1, r =>
    let i := index delim r.buf
    if i ≥ 0 then
      .ok (r.buf.take (i.toNat + 1), none, { r with buf := r.buf.drop (i.toNat + 1) })
    else if r.buf.length ≥ r.cap then .ok (r.buf, some .other, { r with buf := [] })
    else match under (r.cap - r.buf.length) r.chunks with
      | none => .ok (r.buf, some r.final, { r with buf := [], chunks := [] })
      | some (d, cs) => Rd.readSliceAux delim fuel { r with buf := r.buf ++ d, chunks := cs }

/-- bufio `ReadSlice`; every iteration adds a byte to the buffer, so `cap + 1` iterations are enough. -/
def Rd.readSlice (delim : UInt8) (r : Rd) : Res (Bytes × Option Err × Rd) := r.readSliceAux delim (r.cap + 1)

/-- bufio `Read` into a slice of length `n > 0`: the bytes, or the error. -/
def Rd.read (n : Nat) (r : Rd) : Option Bytes × Rd :=
  if r.buf = [] then
    if n ≥ r.cap then
      match under n r.chunks with
      | none => (none, { r with chunks := [] })
      | some (d, cs) => (some d, { r with chunks := cs })
    else
      match under r.cap r.chunks with
      | none => (none, { r with chunks := [] })
      | some (d, cs) => (some (d.take n), { r with buf := d.drop n, chunks := cs })
  else (some (r.buf.take n), { r with buf := r.buf.drop n })

/-! ## sips.go -/

/-- sips.go:20-45 `SIP`.  `headers = none` is a nil map. -/
structure Sip where
  contents : Bytes := []
  payload : Bytes := []
  version : UInt8 := 0
  headers : Option Hdr := some []
  fromU : Option User := none
  toU : Option User := none
  contact : Option User := none
  cseq : Option Cseq := none
  via : Option Via := none
  method : UInt16 := 0
  request : Option Request := none
  isResponse : Bool := false
  responseCode : Int := 0
  responseStatus : Bytes := []
  last : Bytes := []
  deriving DecidableEq, Repr

/-- sips.go:48-52 `NewSIP`. -/
def Sip.new : Sip := {}

/-- The map behind `s.Headers` for reading: a nil map reads as an empty one. -/
def Sip.hdr (s : Sip) : Hdr := s.headers.getD []

/-- request.go:161-217 `ParseFirstLine`. -/
def parseFirstLine (U : Unicode) (firstLine : Bytes) : GoM Sip Unit := do
  match splitN c!" " 2 firstLine with
  | [w0, w1, w2] =>
    if hasPrefix w0 b!"SIP" then do
      GoM.modify (fun s => { s with isResponse := true })
      -- `s.Version, err = ...` also stores the 0 returned with an error
      match getSIPVersion U w0 with
      | .ok v => GoM.modify (fun s => { s with version := v })
      | _ => do
        GoM.modify (fun s => { s with version := 0 })
        GoM.fail .other
      let code ← GoM.lift (atoi w1)
      GoM.modify (fun s => { s with responseCode := code, responseStatus := w2 })
    else do
      match getSIPMethod U w0 with
      | .ok m => GoM.modify (fun s => { s with method := m })
      | _ => do
        GoM.modify (fun s => { s with method := 0 })
        GoM.fail .other
      let r ← GoM.lift (newSIPRequest w1)
      GoM.modify (fun s => { s with request := some r })
      match getSIPVersion U w2 with
      | .ok v => GoM.modify (fun s => { s with version := v })
      | _ => do
        GoM.modify (fun s => { s with version := 0 })
        GoM.fail .other
  | _ => GoM.fail .other

/-- `s.Headers[k] = v` on the message's map; a nil map panics. -/
def putHeader (k : Bytes) (v : List Bytes) : GoM Sip Unit := fun s =>
  match s.headers with
  | none => (.panic, s)
  | some h => (.ok (), { s with headers := some (mset h k v) })

/-- sips.go:191-219 `ParseHeader`. -/
def parseHeader (U : Unicode) (header : Bytes) : GoM Sip Unit := do
  match header with
  | [] => pure ()
  | b :: _ =>
    if b = 9 ∨ b = c!" " then do
      let s ← GoM.get
      let vs := vals s.hdr s.last
      let old ← GoM.lift (goIndex vs ((vs.length : Int) - 1))
      let vs' ← GoM.lift (goSet vs ((vs.length : Int) - 1) (old ++ (b!" " ++ trimSpace header)))
      putHeader s.last vs'
    else if index c!":" header ≥ 0 then do
      let i := index c!":" header
      let n ← GoM.lift (goSlice header 0 i)
      let v ← GoM.lift (goSlice header (i + 1) header.length)
      let name := toLower U (trim (· == c!" ") n)
      let s ← GoM.get
      putHeader name (vals s.hdr name ++ [trim (· == c!" ") v])
      GoM.modify (fun s => { s with last := name })
    else pure ()

/-- sips.go:59-66 `fillHeader`. -/
def fillHeader (U : Unicode) : GoM Sip Unit := do
  let s ← GoM.get
  let c ← GoM.lift (getSIPContact U s.hdr)
  GoM.modify (fun s => { s with contact := some c })
  GoM.modify (fun s => { s with cseq := some (getSIPCseq U s.hdr) })
  let f ← GoM.lift (getSIPFrom U s.hdr)
  GoM.modify (fun s => { s with fromU := some f })
  let t ← GoM.lift (getSIPTo U s.hdr)
  GoM.modify (fun s => { s with toU := some t })
  let v ← GoM.lift (getSIPVia U s.hdr)
  GoM.modify (fun s => { s with via := some v })

/-- sips.go:78-101: the loop of `fillBody`. -/
def bodyLoop : Nat → Int → Bytes → Rd → Res Bytes × Rd
  | 0, _, _, r => (.diverge, r)
  | fuel + 1, size, body, r =>
    if size > 0 then
      match r.read 4096 with
      | (none, r) => if r.final = .eof then (.ok body, r) else (.err r.final, r)
      | (some d, r) => bodyLoop fuel (size - d.length) (body ++ d) r
    else (.ok body, r)

/-- sips.go:68-104 `fillBody`.  Every iteration takes at least one byte out of the reader. -/
def fillBody (U : Unicode) (h : Hdr) (r : Rd) (supplement : Int) : Res Bytes × Rd :=
  match getContentLength U h with
  | .ok size => bodyLoop (r.all.length + 1) (size - supplement) [] r
  | .err e => (.err e, r)
  | .panic => (.panic, r)
  | .diverge => (.diverge, r)

/-- sips.go:144-152: the first line or a header line. -/
def parseLine (U : Unicode) (first : Bool) (line : Bytes) : GoM Sip Unit :=
  if first then parseFirstLine U line else parseHeader U line

/-- sips.go:114-155: the loop; returns `buffer` and `offset`. -/
def lineLoop (U : Unicode) : Nat → (first : Bool) → (buffer : Bytes) → (offset : Nat) → Sip → Rd →
    Res (Bytes × Nat) × Sip × Rd
  | 0, _, _, _, s, r => (.diverge, s, r)
  | fuel + 1, first, buffer, offset, s, r =>
    match r.readSlice c!"\n" with
    | .ok (line, e, r) =>
      if e.isSome ∧ e ≠ some .eof then (.err (e.getD .other), s, r)
      else if e.isSome ∧ line.length = 0 then (.ok (buffer, offset), s, r)
      else
        let t := trim (fun b => b == 13 || b == 10) line
        if t.length = 0 then (.ok (buffer ++ line, offset), s, r)
        else match parseLine U first t s with
          | (.ok _, s) => lineLoop U fuel false (buffer ++ line) (offset + line.length) s r
          | (.err e, s) => (.err e, s, r)
          | (.panic, s) => (.panic, s, r)
          | (.diverge, s) => (.diverge, s, r)
    | .err e => (.err e, s, r)
    | .panic => (.panic, s, r)
    | .diverge => (.diverge, s, r)

/-- sips.go:157-170: the rest of `Parse`. -/
def finish (U : Unicode) (buffer : Bytes) (offset : Nat) (s : Sip) (r : Rd) : Res Unit × Sip × Rd :=
  match fillHeader U s with
  | (.ok _, s) =>
    match fillBody U s.hdr r ((buffer.length : Int) - offset) with
    | (.ok body, r) =>
      let b := buffer ++ body
      match goSlice b 0 offset, goSlice b offset b.length with
      | .ok c, .ok p => (.ok (), { s with contents := c, payload := p }, r)
      | _, _ => (.panic, s, r)
    | (.err e, r) => (.err e, s, r)
    | (.panic, r) => (.panic, s, r)
    | (.diverge, r) => (.diverge, s, r)
  | (.err e, s) => (.err e, s, r)
  | (.panic, s) => (.panic, s, r)
  | (.diverge, s) => (.diverge, s, r)

/-- sips.go:107-171 `Parse`.  Every iteration of the loop but the last takes at least one byte out of the reader. -/
def parse (U : Unicode) (s : Sip) (r : Rd) : Res Unit × Sip × Rd :=
  match lineLoop U (r.all.length + 2) true [] 0 s r with
  | (.ok (buffer, offset), s, r) => finish U buffer offset s r
  | (.err e, s, r) => (.err e, s, r)
  | (.panic, s, r) => (.panic, s, r)
  | (.diverge, s, r) => (.diverge, s, r)

/-- `bufio.NewReader(bytes.NewReader(buf))`: a buffer of 4096 bytes over a reader that returns as much as it can. -/
def Rd.ofBytes (b : Bytes) : Rd := ⟨[], [b], 4096, .eof⟩

/-- sips.go:174-176 `ParseBytes`. -/
def parseBytes (U : Unicode) (s : Sip) (b : Bytes) : Res Unit × Sip :=
  let r := parse U s (Rd.ofBytes b)
  (r.1, r.2.1)

/-- sips.go:227-243: the first line. -/
def firstLineBytes (s : Sip) : Res Bytes :=
  if s.isResponse then
    .ok (versionString s.version ++ b!" " ++ statusString s.responseCode ++ b!" " ++ statusText s.responseCode)
  else match s.request with
    | some r => .ok (methodString s.method ++ b!" " ++ r.bytes ++ b!" " ++ versionString s.version)
    | none => .panic

/-- sips.go:222-264 `Bytes`, `String`: the bytes and the message afterwards.  `order` is the order in which `range`
visits the header map. -/
def Sip.bytes (U : Unicode) (order : Hdr → Hdr) (s : Sip) : Res Bytes × Sip :=
  match firstLineBytes s, s.headers with
  | .ok l, some h =>
    let h := setContentLength U h s.payload.length
    (.ok (l ++ b!"\r\n" ++ hdrBytes (order h) ++
      (if s.payload.length > 0 then b!"\r\n" ++ s.payload else [])), { s with headers := some h })
  | _, _ => (.panic, s)

/-- sips.go:267-269 `SetHeader`. -/
def Sip.setHeader (s : Sip) (h : Option Hdr) : Sip := { s with headers := h }
/-- sips.go:272-274 `SetBody`. -/
def Sip.setBody (s : Sip) (b : Bytes) : Sip := { s with payload := b }

/-! ## easy.go -/

/-- easy.go:12-17, 31-36: header and body if they are not empty. -/
def Sip.fill (s : Sip) (header : Option Hdr) (body : Bytes) : Sip :=
  let s := if (header.getD []).length > 0 then s.setHeader header else s
  if body.length > 0 then s.setBody body else s

/-- easy.go:4-20 `MakeRequest`. -/
def makeRequest (method : UInt16) (request : Option Request) (header : Option Hdr) (body : Bytes) : Sip :=
  Sip.fill { Sip.new with method := method, request := request, version := 2 } header body

/-- easy.go:23-39 `MakeResponse`. -/
def makeResponse (code : Int) (header : Option Hdr) (body : Bytes) : Sip :=
  Sip.fill { Sip.new with isResponse := true, version := 2, responseCode := code } header body

end Verif.Sips
