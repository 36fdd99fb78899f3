import Verif.Model.Packet
/-!
# Model of package `gop`

`P` is the type of `*packet.Packet` pointers.  The cache only stores and forwards the pointers;
`Cache.write` additionally looks at the pointee, which is passed next to the pointer.
-/
namespace Verif.Gop
variable {P : Type}

/-- A `packet.Writer` (packet/packet.go:60-62): `plan k = true` makes the `k`-th call fail. -/
structure PSink (P : Type) where
  out : List P
  calls : Nat := 0
  plan : Nat → Bool := fun _ => false

/-- `w.Write(p)` on a `packet.Writer`. -/
def PSink.write (p : P) : GoM (PSink P) Unit := fun w =>
  if w.plan w.calls then (.err .writer, { w with calls := w.calls + 1 })
  else (.ok (), { w with out := w.out ++ [p], calls := w.calls + 1 })

/-- gop/array.go:10 `maxGop`. -/
def maxGop : Nat := 1024

/-- gop/array.go:12-14 `array`: its packets. -/
abbrev Arr (P : Type) := List P

/-- gop/array.go:16-20 `newArray`. -/
def newArray : Arr P := []

/-- gop/array.go:22-24 `reset`. -/
def Arr.reset (_ : Arr P) : Arr P := []

/-- gop/array.go:27-35 `write`. -/
def Arr.write (a : Arr P) (p : P) : Res Unit × Arr P :=
  if a.length > maxGop then (.err .other, a) else (.ok (), a ++ [p])

/-- gop/array.go:38-50 `sendTo`: the loop writes the packets in index order, stops at an error. -/
def Arr.sendTo : Arr P → GoM (PSink P) Unit
  | [] => pure ()
  | p :: ps => do
    PSink.write p
    Arr.sendTo ps

/-- gop/frame.go:9-11 `frameCache`: a nil or set pointer. -/
abbrev FrameCache (P : Type) := Option P

/-- gop/frame.go:19-21 `Write`. -/
def FrameCache.write (_ : FrameCache P) (p : P) : FrameCache P := some p

/-- gop/frame.go:24-30 `SendTo`. -/
def FrameCache.sendTo : FrameCache P → GoM (PSink P) Unit
  | none => pure ()
  | some p => PSink.write p

/-- gop/gop.go:10-15 `gopCache`.  A nil entry of `gops` is `none`.  Every array is referenced by one
entry only, so arrays are stored by value. -/
structure GopCache (P : Type) where
  len : Int
  cap : Int
  index : Int
  gops : List (Option (Arr P))

/-- gop/gop.go:19-26 `newGopCache`; `make` panics for a negative size. -/
def newGopCache (num : Int) : Res (GopCache P) :=
  if num < 0 then .panic
  else .ok { len := 0, cap := num, index := -1, gops := List.replicate num.toNat none }

/-- gop/gop.go:29-66 `Write`.  Go's `%` is `Int.tmod`. -/
def GopCache.write (g : GopCache P) (p : P) (create : Bool) : Res Unit × GopCache P :=
  if g.cap ≤ 0 ∨ (g.gops.length : Int) ≤ 0 then (.ok (), g)
  else if create then
    let g := { g with index := (g.index + 1).tmod g.cap }
    match goIndex g.gops g.index with
    | .ok none =>
      let (r, a) := Arr.write newArray p
      (r, { g with len := g.len + 1, gops := g.gops.set g.index.toNat (some a) })
    | .ok (some gop) =>
      let (r, a) := Arr.write (Arr.reset gop) p
      (r, { g with gops := g.gops.set g.index.toNat (some a) })
    | _ => (.panic, g)
  else if g.index < 0 then (.err .other, g)
  else
    match goIndex g.gops g.index with
    | .ok none => (.err .other, g)
    | .ok (some gop) =>
      let (r, a) := Arr.write gop p
      (r, { g with gops := g.gops.set g.index.toNat (some a) })
    | _ => (.panic, g)

/-- gop/gop.go:76-84, the loop of `SendTo` from iteration `i` with `n` iterations left.
`gop.sendTo` on a nil array dereferences nil and panics. -/
def GopCache.sendLoop (g : GopCache P) (base : Int) : Nat → Int → GoM (PSink P) Unit
  | 0, _ => pure ()
  | n + 1, i => do
    let index := (base + i).tmod g.len
    match goIndex g.gops index with
    | .ok (some gop) => Arr.sendTo gop
    | _ => GoM.panic
    GopCache.sendLoop g base n (i + 1)

/-- gop/gop.go:69-87 `SendTo`. -/
def GopCache.sendTo (g : GopCache P) : GoM (PSink P) Unit :=
  if g.cap ≤ 0 ∨ g.len ≤ 0 then pure ()
  else GopCache.sendLoop g ((g.index + 1).tmod g.len) g.len.toNat 0

/-- gop/cache.go:8-13 `Cache`. -/
structure Cache (P : Type) where
  gop : GopCache P
  videoSeqHdr : FrameCache P
  audioSeqHdr : FrameCache P
  metadata : FrameCache P

/-- gop/cache.go:16-23 `NewCache`. -/
def newCache (gop : Int) : Res (Cache P) := do
  let g ← newGopCache gop
  pure { gop := g, videoSeqHdr := none, audioSeqHdr := none, metadata := none }

/-- gop/cache.go:26-40 `WriteVideo`. -/
def Cache.writeVideo (c : Cache P) (ref : P) (p : Packet) : Res Unit × Cache P :=
  match p.asVideo with
  | .ok vh =>
    if vh.isSeqHdr then (.ok (), { c with videoSeqHdr := c.videoSeqHdr.write ref })
    else if vh.isKeyFrame || vh.isInterFrame then
      let (r, g) := c.gop.write ref vh.isKeyFrame
      (r, { c with gop := g })
    else (.ok (), c)
  | _ => (.panic, c)

/-- gop/cache.go:43-53 `WriteAudio`. -/
def Cache.writeAudio (c : Cache P) (ref : P) (p : Packet) : Res Unit × Cache P :=
  match p.asAudio with
  | .ok ah =>
    if ah.isSoundAAC && ah.isAACSeqHdr then
      (.ok (), { c with audioSeqHdr := c.audioSeqHdr.write ref })
    else (.ok (), c)
  | _ => (.panic, c)

/-- gop/cache.go:56-74 `Write`. -/
def Cache.write (c : Cache P) (ref : P) (p : Packet) : Res Unit × Cache P :=
  if p.type = PktVideo then c.writeVideo ref p
  else if p.type = PktAudio then c.writeAudio ref p
  else if p.type = PktMetadata then (.ok (), { c with metadata := c.metadata.write ref })
  else (.ok (), c)

/-- gop/cache.go:77-103 `SendTo`. -/
def Cache.sendTo (c : Cache P) : GoM (PSink P) Unit := do
  c.metadata.sendTo
  c.videoSeqHdr.sendTo
  c.audioSeqHdr.sendTo
  c.gop.sendTo

end Verif.Gop
