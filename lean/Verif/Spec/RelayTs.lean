import Verif.Spec.Relay
import Verif.Spec.TsStream
/-!
# A relay with viewers of a transport stream

The server of Spec/Relay.lean with a second kind of subscribers.  A viewer has a transport stream mixer and stays: they
get what the cache replays and then every message as it arrives.  Publisher, cache, FLV subscribers and viewers share the
packets, so a viewer demuxes each packet again before muxing it (C133).

The second half says what a viewer should receive, in terms of the bytes the publisher sent only.
-/
namespace Verif.Spec.Relay
open Verif Verif.Spec.Flv Verif.Spec.Ts Verif.Spec.Es

/-! ## The server -/

/-- A viewer: their mixer, and whether the tables have been written. -/
structure Viewer where
  mixer : Ts.Mixer
  opened : Bool := false

/-- The header says AVC sequence header. -/
def saysVideoHdr (q : Packet) : Bool :=
  q.type = 0 && (match q.header with | some ⟨some v, _⟩ => v.isSeqHdr | _ => false)

/-- The header says AAC sequence header. -/
def saysAudioHdr (q : Packet) : Bool :=
  q.type = 1 && (match q.header with | some ⟨_, some a⟩ => a.isSoundAAC && a.isAACSeqHdr | _ => false)

/-- `uint32(CompositionTime())` for video. -/
def composition (q : Packet) : UInt32 :=
  if q.type = 0 then (match q.header with | some ⟨some v, _⟩ => UInt32.ofInt v.compositionTime | _ => 0) else 0

/-- Write the tables unless that has been done. -/
def Viewer.begin (x : Viewer) : Viewer :=
  if x.opened then x else { mixer := x.mixer.setTsHeader.2, opened := true }

/-- A packet for a viewer: demux it again; save sequence headers, skip metadata, and mux the rest behind the tables, with
the packet's time stamp and composition time.  The packet changes too.  Errors are ignored. -/
def Viewer.write (x : Viewer) (p : Packet) : Viewer × Packet :=
  let q := (Flv.demux p).2
  if q.type = 2 then (x, q)
  else if saysVideoHdr q then ({ x with mixer := (x.mixer.saveAVCHeader q).2.1 }, (x.mixer.saveAVCHeader q).2.2)
  else if saysAudioHdr q then ({ x with mixer := (x.mixer.saveAACHeader q).2.1 }, (x.mixer.saveAACHeader q).2.2)
  else
    let r := (x.begin.mixer.update q q.timeStamp (composition q)).2.mux q
    ({ x.begin with mixer := r.2.1 }, r.2.2)

/-- One packet for all viewers. -/
def feed : List Viewer → Packet → List Viewer × Packet
  | [], p => ([], p)
  | x :: xs, p => ((x.write p).1 :: (feed xs (x.write p).2).1, (feed xs (x.write p).2).2)

/-- The packets behind the pointers for one viewer. -/
def replayTo : List Nat → List Packet → Viewer → List Packet × Viewer
  | [], store, x => (store, x)
  | i :: is, store, x =>
    match store[i]? with
    | none => replayTo is store x
    | some p => replayTo is (store.set i (x.write p).2) (x.write p).1

/-- A server and its viewers. -/
structure Hub where
  server : Server
  viewers : List Viewer := []

/-- A message arrives: cache it, then give it to the viewers. -/
def Hub.publish (h : Hub) (t : TagRec) : Hub :=
  let s := h.server.publish t
  let r := feed h.viewers (Flv.demux (packetOf t)).2
  { server := { s with store := s.store.set h.server.store.length r.2 }, viewers := r.1 }

/-- A viewer arrives. -/
def Hub.join (h : Hub) : Hub :=
  let refs := (h.server.cache.sendTo { out := [] }).2.out
  let r := replayTo refs h.server.store { mixer := Ts.Mixer.new Sink.mem }
  { server := { h.server with store := r.1 }, viewers := h.viewers ++ [r.2] }

/-- What happens to the server: messages, FLV subscribers, viewers. -/
inductive HubEvent where
  | publish (t : TagRec)
  | subscribe
  | join

def Hub.run (h : Hub) : List HubEvent → Hub
  | [] => h
  | .publish t :: es => (h.publish t).run es
  | .subscribe :: es => Hub.run { h with server := h.server.subscribe.2.2 } es
  | .join :: es => h.join.run es

/-- The messages among the events. -/
def sent : List HubEvent → List TagRec
  | [] => []
  | .publish t :: es => t :: sent es
  | .subscribe :: es => sent es
  | .join :: es => sent es

/-! ## What a viewer should receive -/

/-- The parameter sets that precede an IDR picture. -/
def sets : Option (Bytes × Bytes) → List Bytes
  | some (sps, pps) => [sps, pps]
  | none => []

/-- `Stream s c ts vs as`: with the parameter sets `s` (SPS, PPS) and the AAC configuration `c` (object type, frequency
index, channels) the messages `ts` mean the video frames `vs` and the audio frames `as`.

A video frame is frame type 1 or 2, codec 7, packet type 1, a composition time that is not negative and length-prefixed
NAL units, and is due at its time plus the composition time, in units of 1/90 ms.  Left out are frames of C47/C48 (key
frames whose PES packet has fewer than 184 bytes), times of C56 (47721859 ms and more), negative composition times (C10),
configuration records with more than SPS and PPS (C62) and a second configuration record (C63). -/
inductive Stream : Option (Bytes × Bytes) → Option (Nat × Nat × Nat) → List TagRec → List VideoUnit → List AudioUnit → Prop
  | done (s c) : Stream s c [] [] []
  | script {s c ts vs as} (time : Nat) (payload : Bytes) : Stream s c ts vs as → Stream s c (⟨18, time, payload⟩ :: ts) vs as
  | videoHdr {c ts vs as} (time : Nat) (b0 b2 b3 b4 : UInt8) (m sps pps : Bytes) : b0.toNat / 16 = 1 → b0.toNat % 16 = 7 →
      Record m sps pps [] → Stream (some (sps, pps)) c ts vs as →
      Stream none c (⟨9, time, b0 :: 0 :: b2 :: b3 :: b4 :: m⟩ :: ts) vs as
  | video {s c ts vs as} (time : Nat) (b0 b2 b3 b4 : UInt8) (nals : List Bytes) (au : Bytes) :
      (b0.toNat / 16 = 1 ∨ b0.toNat / 16 = 2) → b0.toNat % 16 = 7 → b2.toNat < 128 → time < 47721859 →
      (∀ n ∈ nals, Supported n) → nals ≠ [] → (∀ n, nals.head? = some n → n.length ≠ 1) →
      au = accessUnit (annexB (sets s)) nals →
      (b0.toNat / 16 = 1 → 170 ≤ au.length) → Stream s c ts vs as →
      Stream s c (⟨9, time, b0 :: 1 :: b2 :: b3 :: b4 :: avcc nals⟩ :: ts)
        (⟨90 * time + 90 * (b2.toNat * 65536 + b3.toNat * 256 + b4.toNat), 90 * time, au⟩ :: vs) as
  | audioHdr {s c ts vs as} (time : Nat) (b0 : UInt8) (o i ch l : Nat) (extra : Bytes) : b0.toNat / 16 = 10 →
      (1 ≤ o ∧ o ≤ 4) → i < 13 → ch ≤ 7 → l < 8 → Stream s (some (o, i, ch)) ts vs as →
      Stream s c (⟨8, time, b0 :: 0 :: (audioConfig o i ch l ++ extra)⟩ :: ts) vs as
  | audio {s o i ch ts vs as} (time : Nat) (b0 : UInt8) (frame : Bytes) : b0.toNat / 16 = 10 → time < 47721859 →
      frame ≠ [] → frame.length ≤ 8184 → Stream s (some (o, i, ch)) ts vs as →
      Stream s (some (o, i, ch)) (⟨8, time, b0 :: 1 :: frame⟩ :: ts) vs (⟨UInt32.ofNat time, o, i, ch, frame⟩ :: as)

/-- The parameter sets `s` are those of an AVC sequence header among the messages. -/
def Announces (ts : List TagRec) (s : Option (Bytes × Bytes)) : Prop :=
  ∃ (time : Nat) (b0 b2 b3 b4 : UInt8) (m sps pps : Bytes), (⟨9, time, b0 :: 0 :: b2 :: b3 :: b4 :: m⟩ : TagRec) ∈ ts ∧
    Record m sps pps [] ∧ s = some (sps, pps)

/-- Headers and metadata are no frames. -/
def isFrame (t : TagRec) : Bool := kind t = .key ∨ kind t = .inter ∨ (kind t = .other ∧ t.type = 8)

/-- The streams the tables should announce: H.264 on PID 0x100 and AAC on PID 0x101, each if its header came before the
first frame. -/
def streams (ts : List TagRec) : List (Nat × Nat) :=
  let before := ts.takeWhile (fun t => !isFrame t)
  (if before.any (fun t => kind t = .videoHdr) then [(0x1b, 0x100)] else []) ++
    (if before.any (fun t => kind t = .audioHdr) then [(0x0f, 0x101)] else [])

end Verif.Spec.Relay
