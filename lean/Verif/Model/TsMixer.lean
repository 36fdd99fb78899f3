import Verif.Model.Ts
import Verif.Model.Parser
import Verif.Model.Amf
/-!
# Model of container/ts/mixer.go

Methods that change their packet argument return it beside the mixer.

Simplifications.
* `p.Media` is a slice of an internal `bytes.Buffer` (mixer.go:68), so later calls change it behind the caller's back;
  the model returns its contents at the end of `Mux`.  Model/TsBuf.lean has the sharing, and Props/TsShare.lean shows
  when it makes no difference.
* In `SaveAVCHeader` and `SaveAACHeader` the muxer writes into the very buffer that holds `p.Media` (mixer.go:114-115).
  What is written there is never read again, and every decision of the muxer depends on the length of `p.Media` only,
  so the model muxes into a separate buffer; the contents of `p.Media` after these two calls are not modelled.
* `cache.media` is only used as that buffer and is not modelled either.
-/
namespace Verif.Ts

/-- mixer.go:15-35 `cache` and `Mixer`. -/
structure Mixer where
  ts : Sink
  metadata : Bytes := []
  types : Types := Types.new
  muxer : Muxer := Muxer.new
  parser : Parser.CodecParser := Parser.CodecParser.new
  pts : Int := 0
  dts : Int := 0
  sync : Sync

/-- mixer.go:38-52 `NewMixer`.  The synchroniser is that of `newSync(10)`, which does not panic
(`Sync.new 10 = .ok …`). -/
def Mixer.new (w : Sink) : Mixer := { ts := w, sync := { syncMs := 10 * avcHZ } }

/-- mixer.go:55-57 `SetWriter`. -/
def Mixer.setWriter (x : Mixer) (w : Sink) : Mixer := { x with ts := w }

/-- mixer.go:59-70 `parse`; a `bytes.Buffer` never fails. -/
def Mixer.parse (x : Mixer) (p : Packet) : Res Unit × Mixer × Packet :=
  match Parser.parse p ⟨x.parser, Sink.mem⟩ with
  | (.ok (), d) => (.ok (), { x with parser := d.p }, { p with media := d.w.out })
  | (r, d) => (r, { x with parser := d.p }, p)

/-- mixer.go:73-80 `Mux`. -/
def Mixer.mux (x : Mixer) (p : Packet) : Res Unit × Mixer × Packet :=
  match x.parse p with
  | (.ok (), x, p) =>
    match Ts.mux p x.dts x.pts ⟨x.muxer, x.ts⟩ with
    | (r, e) => (r, { x with muxer := e.m, ts := e.w }, p)
  | r => r

/-- "Provider" -/
def providerKey : Bytes := [80, 114, 111, 118, 105, 100, 101, 114]
/-- "Service" -/
def serviceKey : Bytes := [83, 101, 114, 118, 105, 99, 101]
/-- "undefined" -/
def undefinedName : Bytes := [117, 110, 100, 101, 102, 105, 110, 101, 100]

/-- mixer.go:84-91: `md[key].(string)` or the default. -/
def nameOf (md : List (Bytes × Amf.Val)) (key : Bytes) : Bytes :=
  match md.lookup key with
  | some (.str s) => s
  | _ => undefinedName

/-- mixer.go:83-103 `SaveMetadata`; it never fails (`Service` writes to a `bytes.Buffer`). -/
def Mixer.saveMetadata (x : Mixer) (md : List (Bytes × Amf.Val)) : Mixer :=
  { x with metadata := service 1 (nameOf md providerKey) (nameOf md serviceKey) }

/-- mixer.go:109-115 (and 122-128): parse, then mux with time stamps 0 into a buffer. -/
def Mixer.saveHeader (x : Mixer) (p : Packet) : Res Unit × Mixer × Packet :=
  match x.parse p with
  | (.ok (), x, p) =>
    match Ts.mux p 0 0 ⟨x.muxer, Sink.mem⟩ with
    | (r, e) => (r, { x with muxer := e.m }, p)
  | r => r

/-- mixer.go:106-116 `SaveAVCHeader`. -/
def Mixer.saveAVCHeader (x : Mixer) (p : Packet) : Res Unit × Mixer × Packet :=
  Mixer.saveHeader { x with types := x.types.isVideo } p

/-- mixer.go:119-129 `SaveAACHeader`. -/
def Mixer.saveAACHeader (x : Mixer) (p : Packet) : Res Unit × Mixer × Packet :=
  Mixer.saveHeader { x with types := x.types.isAudio } p

/-- mixer.go:136-138: the three tables. -/
def tables (metadata : Bytes) (mediaType : List Int) : GoM Muxer (Bytes × Bytes × Bytes) := do
  let s ← sdt metadata
  let a ← pat
  let b ← pmt mediaType
  pure (s, a, b)

/-- mixer.go:140-158: the three writes. -/
def writeTables (t : Bytes × Bytes × Bytes) : GoM Sink Unit := do
  Sink.write t.1
  Sink.write t.2.1
  Sink.write t.2.2

/-- mixer.go:132-159 `SetTsHeader`. -/
def Mixer.setTsHeader (x : Mixer) : Res Unit × Mixer :=
  match tables x.metadata x.types.toSlice x.muxer with
  | (.ok t, m) =>
    match writeTables t x.ts with
    | (r, w) => (r, { x with muxer := m, ts := w })
  | (.err e, m) => (.err e, { x with muxer := m })
  | (.panic, m) => (.panic, { x with muxer := m })
  | (.diverge, m) => (.diverge, { x with muxer := m })

/-- `pktTs * avcHZ` in `uint32` arithmetic, converted to `int64`. -/
def ticks (ms : UInt32) : Int := (ms * 90).toNat

/-- mixer.go:169-188 `Update`. -/
def Mixer.update (x : Mixer) (p : Packet) (pktTs avcTs : UInt32) : Res Unit × Mixer :=
  let x := { x with dts := ticks pktTs }
  if p.type = PktVideo then (.ok (), { x with pts := x.dts + ticks avcTs })
  else if p.type = PktAudio then
    match x.parser.sampleRate with
    | .ok rate =>
      match syncAudioTs x.dts rate x.sync with
      | (.ok d, s) => (.ok (), { x with sync := s, dts := d, pts := d })
      | (.err e, s) => (.err e, { x with sync := s })
      | (.panic, s) => (.panic, { x with sync := s })
      | (.diverge, s) => (.diverge, { x with sync := s })
    | .err e => (.err e, x)
    | .panic => (.panic, x)
    | .diverge => (.diverge, x)
  else (.ok (), x)

end Verif.Ts
