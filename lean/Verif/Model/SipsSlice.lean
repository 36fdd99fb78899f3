import Verif.Model.SipsMsg
/-!
# The memory behind a received message

Elsewhere byte slices are their contents.  Here they are windows of arrays, as in Go, so that it can be said what happens to the
one part of a message when bytes are appended to the other.
-/
namespace Verif.Sips
open Verif

/-- The arrays of a program, by number. -/
abbrev Arrays := List Bytes

/-- A Go slice: the window of `len` bytes of the array `arr` that begins at `off`; it may be extended to `cap` bytes. -/
structure Slice where
  arr : Nat
  off : Nat
  len : Nat
  cap : Nat
deriving DecidableEq

/-- The bytes of a slice. -/
def Slice.get (s : Slice) (m : Arrays) : Bytes := (((m[s.arr]?).getD []).drop s.off).take s.len

/-- Go's `append(s, x...)` (language specification, "Appending to and copying slices"): within the capacity the bytes are written
into the array of `s`, otherwise into a new one that may be larger than necessary by any number `spare`. -/
def Slice.append (spare : Nat) (s : Slice) (x : Bytes) (m : Arrays) : Slice × Arrays :=
  if s.len + x.length ≤ s.cap then
    let a := (m[s.arr]?).getD []
    ({ s with len := s.len + x.length },
      m.set s.arr (a.take (s.off + s.len) ++ x ++ a.drop (s.off + s.len + x.length)))
  else
    (⟨m.length, 0, s.len + x.length, s.len + x.length + spare⟩, m ++ [s.get m ++ x ++ List.replicate spare 0])

/-- Go's `s[i] = b` for `i < len(s)`. -/
def Slice.put (s : Slice) (i : Nat) (b : UInt8) (m : Arrays) : Arrays :=
  m.set s.arr (((m[s.arr]?).getD []).set (s.off + i) b)

/-- sips.go:112, 130, 167: `buffer`, to which the lines and the body are appended.  The nil slice has no capacity. -/
def buildBuffer (spare : Nat) : List Bytes → Slice → Arrays → Slice × Arrays
  | [], s, m => (s, m)
  | x :: xs, s, m =>
    let (s, m) := s.append spare x m
    buildBuffer spare xs s m

/-- sips.go:169: `buffer[:offset]` and `buffer[offset:]`; base.go:29-32 `LayerContents` and `LayerPayload` return these slices. -/
def layers (buffer : Slice) (offset : Nat) : Slice × Slice :=
  ({ buffer with len := offset }, ⟨buffer.arr, buffer.off + offset, buffer.len - offset, buffer.cap - offset⟩)

/-- The slices of a message that was read in the given pieces. -/
def storeMessage (spare : Nat) (pieces : List Bytes) (offset : Nat) (m : Arrays) : (Slice × Slice) × Arrays :=
  let (b, m) := buildBuffer spare pieces ⟨0, 0, 0, 0⟩ m
  (layers b offset, m)

end Verif.Sips
