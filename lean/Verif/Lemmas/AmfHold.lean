import Verif.Lemmas.AmfAccept0
import Verif.Lemmas.AmfReuse
/-!
# What a decoder keeps is at most what it has read
-/
namespace Verif.Amf3
open Verif.Amf Verif.Spec.Amf Verif.Spec.Amf3

/-- The number of things that have been sent. -/
def seenSize (t : Seen) : Nat := t.strs.length + t.vals.length + t.classes.length

theorem isU29_pos {b n} (h : IsU29 b n) : 1 ≤ b.length := by cases h <;> simp

theorem seenSize_add (t : Seen) (v : Option Val) : seenSize (t.add v) = seenSize t + 1 := by
  simp [seenSize, Seen.add]; omega

theorem readStr_size {t b x t'} (h : ReadStr t b x t') :
    seenSize t' + 1 ≤ seenSize t + b.length + (if x = [] then 1 else 0) ∧ seenSize t' ≤ seenSize t + b.length := by
  cases h with
  | empty h => have := isU29_pos h; simp
  | full h h' =>
    have := isU29_pos h
    have := List.length_pos_iff.2 h'
    simp [seenSize, h']; omega
  | ref h h' => have := isU29_pos h; split <;> omega

theorem readNames_size {t b x t'} (h : ReadNames t b x t') : seenSize t' ≤ seenSize t + b.length := by
  induction h with
  | nil => simp
  | cons h _ ih => have := (readStr_size h).2; simp; omega

theorem readClass_size {t b f ks t'} (h : ReadClass t b f ks t') : seenSize t' ≤ seenSize t + b.length := by
  cases h with
  | ref h _ => have := isU29_pos h; omega
  | new h _ h1 h2 =>
    have := isU29_pos h
    have := (readStr_size h1).2
    have := readNames_size h2
    simp [seenSize] at *; omega

mutual
theorem read_size {strict t b v t'} : Read strict t b v t' → seenSize t' ≤ seenSize t + b.length
  | .undefined => by simp
  | .null => by simp
  | .no => by simp
  | .yes => by simp
  | .int _ _ => by simp
  | .double _ => by simp
  | .str h => by have := (readStr_size h).2; simp; omega
  | .blob h _ _ => by have := isU29_pos h; rw [seenSize_add]; simp
  | .empty _ _ _ => by simp
  | .cut _ h _ _ _ => by have := isU29_pos h; rw [seenSize_add]; simp
  | .date h _ _ => by have := isU29_pos h; rw [seenSize_add]; simp
  | .again _ _ _ => by simp
  | .lost _ _ _ _ _ => by simp
  | .stray _ _ _ => by simp
  | .arr h h1 h2 => by
    have := isU29_pos h
    have := readMembers_size h1
    have := readAll_size h2
    rw [seenSize_add] at *; simp; omega
  | .obj h _ h1 _ => by
    have := readClass_size h
    have := readAll_size h1
    rw [seenSize_add] at *; simp; omega
theorem readAll_size {strict t b v t'} : ReadAll strict t b v t' → seenSize t' ≤ seenSize t + b.length
  | .nil => by simp
  | .cons h h' => by
    have := read_size h
    have := readAll_size h'
    simp; omega
theorem readMembers_size {strict t b v t'} : ReadMembers strict t b v t' → seenSize t' ≤ seenSize t + b.length
  | .done h => (readStr_size h).2
  | .more h _ h1 h2 => by
    have := (readStr_size h).2
    have := read_size h1
    have := readMembers_size h2
    simp; omega
end

theorem holds_size {t : Seen} {s : St} (h : Holds t s) : held s = s.refs0.length + seenSize t := by
  have := congrArg List.length h.classes
  simp only [List.length_map] at this
  simp only [held, seenSize, h.strs, h.len, this]; omega

theorem match_size {t : Sofar} {s : St} (h : Match t s) : held s = s.refs0.length + t.size := by
  simp only [held, Sofar.size, h.strs, h.len, h.classes]; omega

end Verif.Amf3

namespace Verif.Amf0
open Verif.Amf Verif.Spec.Amf Verif.Spec.Amf0
open Verif.Amf3 (seenSize read_size holds_size)

def seenSize0 (t : Seen0) : Nat := t.complex.length + t.typed + seenSize t.amf3

theorem seenSize0_add (t : Seen0) (o : Bool) : seenSize0 (t.add o) = seenSize0 t + 1 := by
  simp [seenSize0, Seen0.add]; omega

mutual
theorem read0_size {strict t b v t'} : Read0 strict t b v t' → seenSize0 t' ≤ seenSize0 t + b.length
  | .number _ => by simp
  | .bool _ _ => by simp
  | .str _ => by simp
  | .obj h => by have := readFields_size h; rw [seenSize0_add] at this; simp; omega
  | .null => by simp
  | .undefined => by simp
  | .ref _ _ => by simp
  | .wrong _ _ _ => by simp
  | .shifted _ _ _ _ => by simp
  | .ecma _ h => by have := readFields_size h; rw [seenSize0_add] at this; simp; omega
  | .strictArr _ h => by have := readAll0_size h; rw [seenSize0_add] at this; simp; omega
  | .date _ _ => by simp
  | .longStr _ => by simp
  | .unsupported => by simp
  | .xml _ => by simp
  | .typed _ h => by
    have := readFields_size h
    simp [seenSize0, Seen0.add, Verif.Spec.Amf0.utf8, be16] at this ⊢; omega
  | .amf3 h => by have := read_size h; simp [seenSize0]; omega
theorem readAll0_size {strict t b v t'} : ReadAll0 strict t b v t' → seenSize0 t' ≤ seenSize0 t + b.length
  | .nil => by simp
  | .cons h h' => by
    have := read0_size h
    have := readAll0_size h'
    simp; omega
theorem readFields_size {strict t b v t'} : ReadFields strict t b v t' → seenSize0 t' ≤ seenSize0 t + b.length
  | .done => by simp
  | .more _ _ h h' => by
    have := read0_size h
    have := readFields_size h'
    simp; omega
end

theorem holds0_size {t : Seen0} {s : St} (h : Holds0 t s) : held s = seenSize0 t := by
  rw [holds_size h.amf3, h.len, seenSize0]

theorem match0_size {t : Known} {s : St} (h : Match0 t s) (ht : t.typed = false) : held s = t.size := by
  rw [Amf3.match_size h.tabs, (h.refs ht).1, Known.size]

end Verif.Amf0
