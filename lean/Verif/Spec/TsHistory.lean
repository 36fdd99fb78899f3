import Verif.Model.Ts
import Verif.Spec.Ts
/-! # Muxers that a user can reach -/
namespace Verif.Spec.Ts
open Verif Verif.Ts

/-- `Hist m a b`: `m` is a `NewMuxer` after some calls, among them `a` calls of `PAT` and `b` of `PMT`.  The calls
may have had any outcome (`Mux` may have been given any writer, packet and time stamps). -/
inductive Hist : Muxer → Nat → Nat → Prop
  | new : Hist Muxer.new 0 0
  | mux {m a b} (p : Packet) (dts pts : Int) (w : Sink) : Hist m a b → Hist (Verif.Ts.mux p dts pts ⟨m, w⟩).2.m a b
  | sdt {m a b} (desc : Bytes) : Hist m a b → Hist (Verif.Ts.sdt desc m).2 a b
  | pat {m a b} : Hist m a b → Hist (Verif.Ts.pat m).2 (a + 1) b
  | pmt {m a b} (mediaType : List Int) : Hist m a b → Hist (Verif.Ts.pmt mediaType m).2 a (b + 1)

/-- `Reach m`: the muxer `m` can be reached. -/
def Reach (m : Muxer) : Prop := ∃ a b, Hist m a b

/-- What a packet is: `Kind p true key` for a video packet (type 0) whose header says whether it is a key frame,
`Kind p false false` for an audio packet (type 1). -/
inductive Kind (p : Packet) : Bool → Bool → Prop
  | video (vh : VideoHdr) (ht : p.type = 0) (hh : p.asVideo = .ok vh) : Kind p true vh.isKeyFrame
  | audio (ht : p.type = 1) : Kind p false false

/-- The number of bytes of a PES packet: 14 bytes of header, 19 for video whose two time stamps differ, and the
media. -/
def pesLen (video : Bool) (p : Packet) (pts dts : Int) : Nat :=
  (if video = true ∧ pts ≠ dts then 19 else 14) + p.media.length

/-- `Muxed m p dts pts ps`: the muxer `m` succeeds in writing `p` to a writer that works, and what it writes is the
transport stream `ps`. -/
def Muxed (m : Muxer) (p : Packet) (dts pts : Int) (ps : List TsPacket) : Prop :=
  ∀ w : Sink, w.Reliable → ∃ out, (Verif.Ts.mux p dts pts ⟨m, w⟩).1 = .ok () ∧
    (Verif.Ts.mux p dts pts ⟨m, w⟩).2.w.out = w.out ++ out ∧ parseStream out = some ps

/-- `Session m out`: one muxer, used for any number of successful `Mux` calls (each to a writer that works) that
wrote `out` in all, mixed with any other calls. -/
inductive Session : Muxer → Bytes → Prop
  | new : Session Muxer.new []
  | mux {m out} (p : Packet) (dts pts : Int) : Session m out → (Verif.Ts.mux p dts pts ⟨m, Sink.mem⟩).1 = .ok () →
      Session (Verif.Ts.mux p dts pts ⟨m, Sink.mem⟩).2.m (out ++ (Verif.Ts.mux p dts pts ⟨m, Sink.mem⟩).2.w.out)
  | sdt {m out} (desc : Bytes) : Session m out → Session (Verif.Ts.sdt desc m).2 out
  | pat {m out} : Session m out → Session (Verif.Ts.pat m).2 out
  | pmt {m out} (mediaType : List Int) : Session m out → Session (Verif.Ts.pmt mediaType m).2 out

/-- `SyncHist s`: `s` is a synchroniser with a window of 10 ms after some calls with any sample rates. -/
inductive SyncHist : Sync → Prop
  | new (s : Sync) : Sync.new 10 = .ok s → SyncHist s
  | next {s} (dts rate : Int) : SyncHist s → SyncHist (syncAudioTs dts rate s).2

/-- `SyncRun rate s d o`: `s` is a synchroniser with a window of 10 ms after one or more calls with the sample rate
`rate`; the last was given `d` and returned `o`. -/
inductive SyncRun (rate : Int) : Sync → Int → Int → Prop
  | first (s s' : Sync) (d o : Int) : Sync.new 10 = .ok s → syncAudioTs d rate s = (.ok o, s') → SyncRun rate s' d o
  | next {s d o} (d' o' : Int) (s' : Sync) : SyncRun rate s d o → syncAudioTs d' rate s = (.ok o', s') → SyncRun rate s' d' o'

end Verif.Spec.Ts
