import Verif.Model.TsMixer
/-!
# Model of the media buffers of transport stream mixers

Model/TsMixer.lean treats `p.Media` as a value.  In the code it becomes a slice of the mixer's `bytes.Buffer`
(container/ts/mixer.go:59-70), which the next `Mux` of the mixer writes again.  Here are several mixers and several packets
with that sharing.

Simplifications.
* How `bytes.Buffer` enlarges its array, and how the parser divides its output into calls of `Write`, is left open: the
  relations below allow every choice.
* The arrays a buffer has had are kept with the buffer; slices name the mixer, the number of the array and the length
  (all slices begin at the start of the array, as nothing is ever read from these buffers).
* `Mux` of a packet that shows the array the mixer is about to write is left out, and so is `SaveAVCHeader`/`SaveAACHeader`
  of packets for which the parser has output (sequence headers have none).
-/
namespace Verif.Ts

/-- A `bytes.Buffer` (Go standard library) from which nothing has been read. -/
structure Buf where
  /-- Arrays it had before, oldest first. -/
  old : List Bytes := []
  /-- The array with its full capacity. -/
  arr : Bytes
  /-- Number of bytes in it that are the contents. -/
  len : Nat

/-- mixer.go:45 `bytes.NewBuffer(make([]byte, 0, 512))`. -/
def Buf.new : Buf := { arr := List.replicate 512 0, len := 0 }

/-- `Buffer.Reset`. -/
def Buf.reset (b : Buf) : Buf := { b with len := 0 }

/-- `Buffer.Bytes`. -/
def Buf.bytes (b : Buf) : Bytes := b.arr.take b.len

/-- All arrays of the buffer. -/
def Buf.array (b : Buf) (gen : Nat) : Bytes := (b.old ++ [b.arr]).getD gen []

/-- `Buffer.Write`: in place if the capacity allows it (`tryGrowByReslice`), otherwise in a new array (`grow`). -/
inductive Buf.Write (b : Buf) (bs : Bytes) : Buf → Prop
  | reslice (h : b.len + bs.length ≤ b.arr.length) :
    Buf.Write b bs { b with arr := b.arr.take b.len ++ bs ++ b.arr.drop (b.len + bs.length), len := b.len + bs.length }
  | grow (spare : Bytes) (h : b.arr.length < b.len + bs.length) :
    Buf.Write b bs { old := b.old ++ [b.arr], arr := b.arr.take b.len ++ bs ++ spare, len := b.len + bs.length }

/-- Several calls of `Write`. -/
inductive Buf.Writes : Buf → List Bytes → Buf → Prop
  | nil (b : Buf) : Buf.Writes b [] b
  | cons {b c d : Buf} {bs : Bytes} {r : List Bytes} : Buf.Write b bs c → Buf.Writes c r d → Buf.Writes b (bs :: r) d

/-- A slice of a mixer's media buffer. -/
structure View where
  mixer : Nat
  gen : Nat
  len : Nat

/-- A mixer with its media buffer (mixer.go:15-21). -/
structure BufMixer where
  mixer : Mixer
  buf : Buf

/-- A packet whose media is its own (`pkt.media`) or a slice of a mixer's buffer. -/
structure BufPacket where
  pkt : Packet
  view : Option View := none

/-- Mixers and packets of a program. -/
structure World where
  mixers : Nat → BufMixer
  packets : Nat → BufPacket

/-- `f` with another value at `k`. -/
def put {α : Type} (f : Nat → α) (k : Nat) (v : α) : Nat → α := fun i => if i = k then v else f i

/-- Packet `i` as a reader of its fields sees it now. -/
def World.read (w : World) (i : Nat) : Packet :=
  match (w.packets i).view with
  | none => (w.packets i).pkt
  | some v => { (w.packets i).pkt with media := ((w.mixers v.mixer).buf.array v.gen).take v.len }

/-- Calls. -/
inductive Call
  /-- `Mux` of mixer `k` on packet `i` -/
  | mux (k i : Nat)
  /-- `SaveAVCHeader` (`video`) or `SaveAACHeader` -/
  | save (video : Bool) (k i : Nat)
  /-- a call that changes no packet and not the media buffer: `Update`, `SetTsHeader`, `SetWriter`, `SaveMetadata` -/
  | other (k : Nat) (f : Mixer → Mixer)

/-- mixer.go:106-129 `SaveAVCHeader` and `SaveAACHeader`. -/
def saveOf (video : Bool) (x : Mixer) (p : Packet) : Res Unit × Mixer × Packet :=
  if video then x.saveAVCHeader p else x.saveAACHeader p

/-- mixer.go:59-80 (`parse`, `Mux`) and 106-129 with the buffers: the result of the call and the world behind it. -/
inductive World.Step (w : World) : Call → Res Unit → World → Prop
  | mux (k i : Nat) (chunks : List Bytes) (b : Buf)
    (own : ∀ v, (w.packets i).view = some v → v.mixer = k → v.gen ≠ (w.mixers k).buf.old.length)
    (hb : Buf.Writes (w.mixers k).buf.reset chunks b)
    (hc : chunks.flatten = (Parser.parse (w.read i) ⟨(w.mixers k).mixer.parser, Sink.mem⟩).2.w.out) :
    World.Step w (.mux k i) ((w.mixers k).mixer.mux (w.read i)).1
      { mixers := put w.mixers k ⟨((w.mixers k).mixer.mux (w.read i)).2.1, b⟩
        packets :=
          if (Parser.parse (w.read i) ⟨(w.mixers k).mixer.parser, Sink.mem⟩).1 = .ok () then
            put w.packets i { w.packets i with view := some ⟨k, b.old.length, b.len⟩ }
          else w.packets }
  | save (video : Bool) (k i : Nat) (hc : (Parser.parse (w.read i) ⟨(w.mixers k).mixer.parser, Sink.mem⟩).2.w.out = []) :
    World.Step w (.save video k i) (saveOf video (w.mixers k).mixer (w.read i)).1
      { mixers := put w.mixers k { w.mixers k with mixer := (saveOf video (w.mixers k).mixer (w.read i)).2.1 }
        packets :=
          if (Parser.parse (w.read i) ⟨(w.mixers k).mixer.parser, Sink.mem⟩).1 = .ok () then
            put w.packets i { pkt := { (w.packets i).pkt with media := [] } }
          else w.packets }
  | other (k : Nat) (f : Mixer → Mixer) :
    World.Step w (.other k f) (.ok ()) { w with mixers := put w.mixers k { w.mixers k with mixer := f (w.mixers k).mixer } }

/-- A sequence of calls with their results. -/
inductive World.Run : World → List (Call × Res Unit) → World → Prop
  | nil (w : World) : World.Run w [] w
  | cons {u v w : World} {c : Call} {r : Res Unit} {l : List (Call × Res Unit)} :
    World.Step u c r v → World.Run v l w → World.Run u ((c, r) :: l) w

end Verif.Ts
