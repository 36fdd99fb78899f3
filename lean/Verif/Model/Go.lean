/-!
# Go runtime vocabulary used by every model file

This file models no function of `/repo`; it fixes how Go outcomes, slices and writers are
represented.  See `DESIGN.md` section 2.
-/
namespace Verif

/-- A Go `[]byte` (or `string`) as the list of its bytes. -/
abbrev Bytes := List UInt8

/-- Classes of Go `error` values that callers in `/repo` can tell apart
(`io.EOF` is compared with `==` in amf/amf0.go:117, amf/amf3.go:125 and sips/sips.go). -/
inductive Err where
  | eof            -- io.EOF
  | unexpectedEof  -- io.ErrUnexpectedEOF
  | writer         -- an error returned by the destination writer
  | other          -- any other error value
  deriving DecidableEq, Repr

/-- Outcome of a Go call. -/
inductive Res (α : Type) where
  | ok (a : α)      -- normal return, nil error
  | err (e : Err)   -- non-nil error returned
  | panic           -- run-time panic
  | diverge         -- the modelled loop did not finish within its fuel (proved unreachable)
  deriving DecidableEq, Repr

namespace Res
def bind {α β} (x : Res α) (f : α → Res β) : Res β :=
  match x with
  | ok a => f a
  | err e => err e
  | panic => panic
  | diverge => diverge

instance : Monad Res where
  pure := ok
  bind := bind

@[simp] theorem pure_eq {α} (a : α) : (pure a : Res α) = ok a := rfl
@[simp] theorem bind_ok {α β} (a : α) (f : α → Res β) : (ok a >>= f) = f a := rfl
@[simp] theorem bind_err {α β} (e : Err) (f : α → Res β) : ((err e : Res α) >>= f) = err e := rfl
@[simp] theorem bind_panic {α β} (f : α → Res β) : ((panic : Res α) >>= f) = panic := rfl
@[simp] theorem bind_diverge {α β} (f : α → Res β) : ((diverge : Res α) >>= f) = diverge := rfl

def isOk {α} : Res α → Bool
  | ok _ => true
  | _ => false
end Res

/-- A Go computation that reads and updates a state `σ`; the state is visible whatever the outcome,
so effects that precede an error are not lost. -/
def GoM (σ α : Type) := σ → Res α × σ

namespace GoM
variable {σ α β : Type}

def run (m : GoM σ α) (s : σ) : Res α × σ := m s

def bind (m : GoM σ α) (f : α → GoM σ β) : GoM σ β := fun s =>
  match m s with
  | (.ok a, s') => f a s'
  | (.err e, s') => (.err e, s')
  | (.panic, s') => (.panic, s')
  | (.diverge, s') => (.diverge, s')

instance : Monad (GoM σ) where
  pure a := fun s => (.ok a, s)
  bind := bind

/-- Return a non-nil error. -/
def fail (e : Err) : GoM σ α := fun s => (.err e, s)
/-- Panic. -/
def panic : GoM σ α := fun s => (.panic, s)
/-- Fuel exhausted. -/
def diverge : GoM σ α := fun s => (.diverge, s)
def get : GoM σ σ := fun s => (.ok s, s)
def set (s : σ) : GoM σ Unit := fun _ => (.ok (), s)
def modify (f : σ → σ) : GoM σ Unit := fun s => (.ok (), f s)
/-- Run a state-free outcome. -/
def lift (r : Res α) : GoM σ α := fun s => (r, s)

@[simp] theorem pure_apply (a : α) (s : σ) : (pure a : GoM σ α) s = (.ok a, s) := rfl
@[simp] theorem fail_apply (e : Err) (s : σ) : (fail e : GoM σ α) s = (.err e, s) := rfl
@[simp] theorem panic_apply (s : σ) : (panic : GoM σ α) s = (.panic, s) := rfl
@[simp] theorem diverge_apply (s : σ) : (diverge : GoM σ α) s = (.diverge, s) := rfl
@[simp] theorem get_apply (s : σ) : (get : GoM σ σ) s = (.ok s, s) := rfl
@[simp] theorem set_apply (s t : σ) : (set t : GoM σ Unit) s = (.ok (), t) := rfl
@[simp] theorem modify_apply (f : σ → σ) (s : σ) : (modify f : GoM σ Unit) s = (.ok (), f s) := rfl
@[simp] theorem lift_apply (r : Res α) (s : σ) : (lift r : GoM σ α) s = (r, s) := rfl
theorem bind_apply (m : GoM σ α) (f : α → GoM σ β) (s : σ) :
    (m >>= f) s = (match m s with
      | (.ok a, s') => f a s'
      | (.err e, s') => (.err e, s')
      | (.panic, s') => (.panic, s')
      | (.diverge, s') => (.diverge, s')) := rfl
end GoM

/-- An `io.Writer`.  `out` are the bytes accepted so far, `calls` counts the `Write` calls.
`plan k = some n` makes the `k`-th call fail after accepting the first `n` bytes of its argument;
`plan k = none` makes it succeed.  A `bytes.Buffer` is the sink whose plan never fails. -/
structure Sink where
  out : Bytes
  calls : Nat := 0
  plan : Nat → Option Nat := fun _ => none

namespace Sink
/-- A fresh `bytes.Buffer`. -/
def mem : Sink := { out := [] }

/-- `w.Write(b)`.  A failing write reports `Err.writer`. -/
def write (b : Bytes) : GoM Sink Unit := fun w =>
  match w.plan w.calls with
  | none => (.ok (), { w with out := w.out ++ b, calls := w.calls + 1 })
  | some n => (.err .writer, { w with out := w.out ++ b.take n, calls := w.calls + 1 })

/-- The sink never fails. -/
def Reliable (w : Sink) : Prop := ∀ k, w.plan k = none
end Sink

/-- `v[i]` for a Go slice and a possibly negative index; out of range panics. -/
def goIndex {α} (l : List α) (i : Int) : Res α :=
  if i < 0 then .panic
  else match l[i.toNat]? with
    | some a => .ok a
    | none => .panic

/-- `v[i] = x`; out of range panics. -/
def goSet {α} (l : List α) (i : Int) (x : α) : Res (List α) :=
  if i < 0 then .panic
  else if i.toNat < l.length then .ok (l.set i.toNat x) else .panic

/-- `v[lo:hi]` on a slice whose capacity equals its length; out of range panics. -/
def goSlice {α} (l : List α) (lo hi : Int) : Res (List α) :=
  if 0 ≤ lo ∧ lo ≤ hi ∧ hi ≤ l.length then .ok ((l.take hi.toNat).drop lo.toNat) else .panic

/-- `copy(dst[at:], src)`: overwrites `dst` from position `at` with as much of `src` as fits;
`dst[at:]` panics when `at > len(dst)`. -/
def goCopyAt (dst : Bytes) (pos : Nat) (src : Bytes) : Res Bytes :=
  if pos ≤ dst.length then
    .ok (dst.take pos ++ src.take (dst.length - pos) ++ dst.drop (pos + src.length))
  else .panic

/-- `binary.BigEndian.PutUint16` as the two bytes written. -/
def be16 (v : UInt16) : Bytes := [(v >>> 8).toUInt8, v.toUInt8]
/-- `binary.BigEndian.PutUint32` as the four bytes written. -/
def be32 (v : UInt32) : Bytes :=
  [(v >>> 24).toUInt8, (v >>> 16).toUInt8, (v >>> 8).toUInt8, v.toUInt8]
/-- `binary.BigEndian.PutUint64` as the eight bytes written. -/
def be64 (v : UInt64) : Bytes :=
  [(v >>> 56).toUInt8, (v >>> 48).toUInt8, (v >>> 40).toUInt8, (v >>> 32).toUInt8,
   (v >>> 24).toUInt8, (v >>> 16).toUInt8, (v >>> 8).toUInt8, v.toUInt8]

end Verif
