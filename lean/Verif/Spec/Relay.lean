import Verif.Spec.FlvHistory
import Verif.Spec.Gop
import Verif.Model.Gop
/-!
# A relay: one publisher, late subscribers

A server that uses the packages the way they are meant to be used: every message of the publisher becomes a
packet, is demuxed and written to the cache; a subscriber gets a mixer with an empty writer, the FLV file header
and what the cache replays, muxed with each packet's own timestamp.  The packets are shared: the cache and all
subscribers hold the same pointers, and muxing a metadata packet changes it.

The second half says what a subscriber should receive, in terms of the bytes the publisher sent only.
-/
namespace Verif.Spec.Relay
open Verif Verif.Spec.Flv

/-! ## The server -/

/-- The packet of a message: tag type 9 is video (packet type 0), 8 audio (1), 18 metadata (2). -/
def packetOf (t : TagRec) : Packet :=
  { type := if t.type = 9 then 0 else if t.type = 8 then 1 else 2, timeStamp := UInt32.ofNat t.time, data := t.payload }

/-- The packets in the order they arrived (a pointer is a position in this list) and the cache. -/
structure Server where
  store : List Packet := []
  cache : Gop.Cache Nat

/-- A message arrives: demux and cache it.  An error of `Write` is ignored. -/
def Server.publish (s : Server) (t : TagRec) : Server :=
  let p := (Flv.demux (packetOf t)).2
  { store := s.store ++ [p], cache := (s.cache.write s.store.length p).2 }

/-- Mux the packets behind the pointers, stopping at an error. -/
def deliver : List Nat → List Packet → Flv.Mixer → Res Unit × List Packet × Flv.Mixer
  | [], store, m => (.ok (), store, m)
  | i :: is, store, m =>
    match store[i]? with
    | none => (.panic, store, m)
    | some p =>
      let r := m.mux p p.timeStamp
      match r.1 with
      | .ok _ => deliver is (store.set i r.2.2) r.2.1
      | e => (e, store.set i r.2.2, r.2.1)

/-- A subscriber arrives: what they are sent, and the server afterwards. -/
def Server.subscribe (s : Server) : Res Unit × Bytes × Server :=
  let m := (Flv.Mixer.setFlvHeader (Flv.Mixer.new Sink.mem)).2
  let refs := (s.cache.sendTo { out := [] }).2.out
  let r := deliver refs s.store m
  (r.1, r.2.2.flv.out, { s with store := r.2.1 })

/-- What happens to the server. -/
inductive Event where
  | publish (t : TagRec)
  | subscribe

/-- The server after some events. -/
def Server.run (s : Server) : List Event → Server
  | [] => s
  | .publish t :: es => (s.publish t).run es
  | .subscribe :: es => s.subscribe.2.2.run es

/-- The messages among the events. -/
def messages : List Event → List TagRec
  | [] => []
  | .publish t :: es => t :: messages es
  | .subscribe :: es => messages es

/-! ## What a subscriber should receive -/

/-- An AMF0 string of at most 65535 characters. -/
def string0 (s : Bytes) : Bytes := 2 :: beN 2 s.length ++ s

/-- "@setDataFrame". -/
def frameName : Bytes := [64, 115, 101, 116, 68, 97, 116, 97, 70, 114, 97, 109, 101]

/-- Messages a publisher may send: AVC video with its five bytes of header, AAC or MP3 sound, and script data
that begins with the name of an event, possibly behind "@setDataFrame"; the data fits into an FLV tag. -/
inductive Valid : TagRec → Prop
  | video (time payload) : time < 2 ^ 32 → payload.length < 2 ^ 24 → 5 ≤ payload.length → Valid ⟨9, time, payload⟩
  | audio (time) (b0 b1 : UInt8) (payload) : time < 2 ^ 32 → payload.length + 2 < 2 ^ 24 →
      (b0.toNat / 16 = 10 ∨ b0.toNat / 16 = 2) → Valid ⟨8, time, b0 :: b1 :: payload⟩
  | script (time) (name rest : Bytes) : time < 2 ^ 32 → (string0 name ++ rest).length < 2 ^ 24 → 1 ≤ name.length →
      name.length < 65536 → name ≠ frameName → Valid ⟨18, time, string0 name ++ rest⟩
  | frame (time) (name rest : Bytes) : time < 2 ^ 32 → (string0 frameName ++ (string0 name ++ rest)).length < 2 ^ 24 → 1 ≤ name.length →
      name.length < 65536 → name ≠ frameName → Valid ⟨18, time, string0 frameName ++ (string0 name ++ rest)⟩

/-- What a message is to a subscriber. -/
inductive Kind where
  | script | videoHdr | audioHdr | key | inter | other
  deriving DecidableEq, Repr

/-- Read off the first two bytes: frame type 1 is a key frame (with AVC packet type 0 a sequence header), 2 an
inter frame, sound format 10 with AAC packet type 0 a sequence header. -/
def kind (t : TagRec) : Kind :=
  match t.type, t.payload with
  | 18, _ => .script
  | 9, b0 :: b1 :: _ =>
    if b0.toNat / 16 = 1 then (if b1 = 0 then .videoHdr else .key) else if b0.toNat / 16 = 2 then .inter else .other
  | 8, b0 :: b1 :: _ => if b0.toNat / 16 = 10 ∧ b1 = 0 then .audioHdr else .other
  | _, _ => .other

/-- The tag in the subscriber's file: the message without "@setDataFrame". -/
def delivered (t : TagRec) : TagRec :=
  if t.type = 18 ∧ string0 frameName <+: t.payload then { t with payload := t.payload.drop (string0 frameName).length }
  else t

/-- The latest message of a kind. -/
def latest (k : Kind) (ts : List TagRec) : List TagRec := ((ts.filter (fun t => kind t = k)).getLast?).toList

/-- The groups of pictures: each key frame and the inter frames up to the next key frame. -/
def pictureGroups : List TagRec → List (List TagRec)
  | [] => []
  | t :: ts =>
    if kind t = .key then (t :: (ts.takeWhile (fun u => kind u ≠ .key)).filter (fun u => kind u = .inter)) :: pictureGroups ts
    else pictureGroups ts

/-- The tags of a subscriber's file when up to `n` groups are kept. -/
def file (n : Nat) (ts : List TagRec) : List TagRec :=
  (latest .script ts ++ latest .videoHdr ts ++ latest .audioHdr ts ++
    (Gop.newest n ((pictureGroups ts).map (List.take 1025))).flatten).map delivered

end Verif.Spec.Relay
