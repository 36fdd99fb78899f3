import Verif.Lemmas.Amf0Peer
import Verif.Spec.AmfReuse
import Verif.Spec.Hold
/-!
# What a message without references means does not depend on what has been sent before
-/
namespace Verif.Amf3
open Verif.Amf Verif.Spec.Amf3

theorem PStr.full_den {k : PStr} (hf : k.Full) {t t' : Sofar} {x : Bytes} (h : k.den t = some (x, t')) (u : Sofar) :
    ∃ u', k.den u = some (x, u') ∧ u'.size + t.size = t'.size + u.size := by
  cases k with
  | lit s =>
    simp only [PStr.den, Option.some.injEq, Prod.mk.injEq] at h ⊢
    refine ⟨_, ⟨h.1, rfl⟩, ?_⟩
    rw [← h.2]
    split <;> simp [Sofar.size] <;> omega
  | ref i => exact hf.elim

theorem full_denNames : (ns : List PStr) → (∀ n ∈ ns, n.Full) → (t t' : Sofar) → (xs : List Bytes) →
    denNames t ns = some (xs, t') → (u : Sofar) → ∃ u', denNames u ns = some (xs, u') ∧ u'.size + t.size = t'.size + u.size
  | [], _, t, t', xs, h, u => by
    simp only [denNames, Option.some.injEq, Prod.mk.injEq] at h ⊢
    exact ⟨u, ⟨h.1, rfl⟩, by rw [h.2]; omega⟩
  | n :: ns, hf, t, t', xs, h, u => by
    simp only [denNames] at h ⊢
    rcases h1 : n.den t with _ | ⟨k, t1⟩
    · simp [h1] at h
    rw [h1] at h
    simp only at h
    rcases h2 : denNames t1 ns with _ | ⟨ks, t2⟩
    · simp [h2] at h
    rw [h2] at h
    simp only [Option.some.injEq, Prod.mk.injEq] at h
    obtain ⟨u1, g1, z1⟩ := PStr.full_den (hf n (by simp)) h1 u
    obtain ⟨u2, g2, z2⟩ := full_denNames ns (fun m hm => hf m (by simp [hm])) t1 t2 ks h2 u1
    exact ⟨u2, by simp [g1, g2, h.1], by rw [← h.2]; omega⟩

theorem PTrait.full_den {c : PTrait} (hf : c.Full) {t t' : Sofar} {ks : List Bytes} (h : c.den t = some (ks, t')) (u : Sofar) :
    ∃ u', c.den u = some (ks, u') ∧ u'.size + t.size = t'.size + u.size := by
  cases c with
  | new ty ns =>
    simp only [PTrait.den] at h ⊢
    rcases h1 : ty.den t with _ | ⟨k, t1⟩
    · simp [h1] at h
    rw [h1] at h
    simp only at h
    rcases h2 : denNames t1 ns with _ | ⟨ks', t2⟩
    · simp [h2] at h
    rw [h2] at h
    simp only [Option.some.injEq, Prod.mk.injEq] at h
    obtain ⟨u1, g1, z1⟩ := PStr.full_den hf.1 h1 u
    obtain ⟨u2, g2, z2⟩ := full_denNames ns hf.2 t1 t2 ks' h2 u1
    refine ⟨_, by simp only [g1, g2, h.1]; rfl, ?_⟩
    rw [← h.2]
    simp only [Sofar.size, List.length_append, List.length_singleton] at z1 z2 ⊢
    omega
  | ref i => exact hf.elim

mutual
theorem full_den : (p : PVal) → p.Full → (t t' : Sofar) → (v : Val) → p.den t = some (v, t') → (u : Sofar) →
    ∃ u', p.den u = some (v, u') ∧ u'.size + t.size = t'.size + u.size
  | .undefined, _, t, t', v, h, u => by simp only [PVal.den, Option.some.injEq, Prod.mk.injEq] at h ⊢; exact ⟨_, ⟨h.1, rfl⟩, by rw [h.2]; omega⟩
  | .null, _, t, t', v, h, u => by simp only [PVal.den, Option.some.injEq, Prod.mk.injEq] at h ⊢; exact ⟨_, ⟨h.1, rfl⟩, by rw [h.2]; omega⟩
  | .bool _, _, t, t', v, h, u => by simp only [PVal.den, Option.some.injEq, Prod.mk.injEq] at h ⊢; exact ⟨_, ⟨h.1, rfl⟩, by rw [h.2]; omega⟩
  | .int _, _, t, t', v, h, u => by simp only [PVal.den, Option.some.injEq, Prod.mk.injEq] at h ⊢; exact ⟨_, ⟨h.1, rfl⟩, by rw [h.2]; omega⟩
  | .double _, _, t, t', v, h, u => by simp only [PVal.den, Option.some.injEq, Prod.mk.injEq] at h ⊢; exact ⟨_, ⟨h.1, rfl⟩, by rw [h.2]; omega⟩
  | .xmlDoc _, _, t, t', v, h, u => by simp only [PVal.den, Option.some.injEq, Prod.mk.injEq] at h ⊢; exact ⟨_, ⟨h.1, rfl⟩, by rw [← h.2]; simp [Sofar.size, Sofar.add]; omega⟩
  | .xml _, _, t, t', v, h, u => by simp only [PVal.den, Option.some.injEq, Prod.mk.injEq] at h ⊢; exact ⟨_, ⟨h.1, rfl⟩, by rw [← h.2]; simp [Sofar.size, Sofar.add]; omega⟩
  | .date _, _, t, t', v, h, u => by simp only [PVal.den, Option.some.injEq, Prod.mk.injEq] at h ⊢; exact ⟨_, ⟨h.1, rfl⟩, by rw [← h.2]; simp [Sofar.size, Sofar.add]; omega⟩
  | .bytes _, _, t, t', v, h, u => by simp only [PVal.den, Option.some.injEq, Prod.mk.injEq] at h ⊢; exact ⟨_, ⟨h.1, rfl⟩, by rw [← h.2]; simp [Sofar.size, Sofar.add]; omega⟩
  | .again _ _, hf, t, t', v, h, u => by simp [PVal.Full] at hf
  | .str s, hf, t, t', v, h, u => by
    simp only [PVal.Full] at hf
    simp only [PVal.den, Option.map_eq_some_iff, Prod.mk.injEq] at h
    obtain ⟨⟨x, t1⟩, h1, h2, h3⟩ := h
    obtain ⟨u', g, z⟩ := PStr.full_den hf h1 u
    exact ⟨u', by simp [PVal.den, g, h2], by rw [← h3]; omega⟩
  | .arr assoc dense, hf, t, t', v, h, u => by
    simp only [PVal.Full] at hf
    simp only [PVal.den] at h ⊢
    rcases h1 : denA (t.add none) assoc with _ | ⟨a, t1⟩
    · simp [h1] at h
    rw [h1] at h
    simp only at h
    rcases h2 : denL t1 dense with _ | ⟨d, t2⟩
    · simp [h2] at h
    rw [h2] at h
    simp only [Option.some.injEq, Prod.mk.injEq] at h
    obtain ⟨u1, g1, z1⟩ := full_denA assoc hf.1 _ t1 a h1 (u.add none)
    obtain ⟨u2, g2, z2⟩ := full_denL dense hf.2 t1 t2 d h2 u1
    exact ⟨u2, by simp only [g1, g2, h.1], by
      rw [← h.2]; simp only [Sofar.size, Sofar.add, List.length_append, List.length_singleton] at z1 z2 ⊢; omega⟩
  | .obj c vals, hf, t, t', v, h, u => by
    simp only [PVal.Full] at hf
    simp only [PVal.den] at h ⊢
    rcases h1 : c.den t with _ | ⟨ks, t1⟩
    · simp [h1] at h
    rw [h1] at h
    simp only at h
    rcases h2 : denL (t1.add none) vals with _ | ⟨vs, t2⟩
    · simp [h2] at h
    rw [h2] at h
    simp only at h
    obtain ⟨u1, g1, z1⟩ := PTrait.full_den hf.1 h1 u
    obtain ⟨u2, g2, z2⟩ := full_denL vals hf.2 _ t2 vs h2 (u1.add none)
    split at h
    · rename_i hl
      simp only [Option.some.injEq, Prod.mk.injEq] at h
      exact ⟨u2, by simp only [g1, g2, if_pos hl, h.1], by
        rw [← h.2]; simp only [Sofar.size, Sofar.add, List.length_append, List.length_singleton] at z1 z2 ⊢; omega⟩
    · simp at h
theorem full_denL : (ps : List PVal) → FullL ps → (t t' : Sofar) → (vs : List Val) → denL t ps = some (vs, t') → (u : Sofar) →
    ∃ u', denL u ps = some (vs, u') ∧ u'.size + t.size = t'.size + u.size
  | [], _, t, t', vs, h, u => by simp only [denL, Option.some.injEq, Prod.mk.injEq] at h ⊢; exact ⟨_, ⟨h.1, rfl⟩, by rw [h.2]; omega⟩
  | p :: ps, hf, t, t', vs, h, u => by
    simp only [FullL] at hf
    simp only [denL] at h ⊢
    rcases h1 : p.den t with _ | ⟨a, t1⟩
    · simp [h1] at h
    rw [h1] at h
    simp only at h
    rcases h2 : denL t1 ps with _ | ⟨d, t2⟩
    · simp [h2] at h
    rw [h2] at h
    simp only [Option.some.injEq, Prod.mk.injEq] at h
    obtain ⟨u1, g1, z1⟩ := full_den p hf.1 t t1 a h1 u
    obtain ⟨u2, g2, z2⟩ := full_denL ps hf.2 t1 t2 d h2 u1
    exact ⟨u2, by simp only [g1, g2, h.1], by rw [← h.2]; omega⟩
theorem full_denA : (ps : List (PStr × PVal)) → FullA ps → (t t' : Sofar) → (vs : List (Bytes × Val)) → denA t ps = some (vs, t') →
    (u : Sofar) → ∃ u', denA u ps = some (vs, u') ∧ u'.size + t.size = t'.size + u.size
  | [], _, t, t', vs, h, u => by simp only [denA, Option.some.injEq, Prod.mk.injEq] at h ⊢; exact ⟨_, ⟨h.1, rfl⟩, by rw [h.2]; omega⟩
  | (k, p) :: ps, hf, t, t', vs, h, u => by
    simp only [FullA] at hf
    obtain ⟨key, t3, x, t4, xs, h1, h2, h3, h4, h5⟩ := denA_cons h
    obtain ⟨u1, g1, z1⟩ := PStr.full_den hf.1 h1 u
    obtain ⟨u2, g2, z2⟩ := full_den p hf.2.1 t3 t4 x h3 u1
    obtain ⟨u3, g3, z3⟩ := full_denA ps hf.2.2 t4 t' xs h4 u2
    exact ⟨u3, by simp only [denA, g1, if_neg h2, g2, g3, h5], by omega⟩
end

/-- Some description of the tables of any decoder. -/
def tabsOf (s : St) : Sofar := ⟨s.strTab, s.objTab.map fun _ => none, s.traits.map fun _ => none⟩

theorem match_tabsOf (s : St) : Match (tabsOf s) s :=
  ⟨rfl, by simp [tabsOf], by simp [tabsOf], by simp [tabsOf], by simp [tabsOf]⟩

end Verif.Amf3

namespace Verif.Amf0
open Verif.Amf Verif.Spec.Amf0

theorem put_size (t : Known) (o : Option Nat) (l : List (Bytes × Val)) : (t.put o l).size = t.size := by
  cases o <;> simp [Known.put, Known.size]

theorem put_typed_eq (t : Known) (o : Option Nat) (l : List (Bytes × Val)) : (t.put o l).typed = t.typed := by
  cases o <;> simp [Known.put]

mutual
theorem full_den : (p : P0) → p.Full → (t t' : Known) → (v : Val) → p.den t = some (v, t') → (u : Known) →
    ∃ u', p.den u = some (v, u') ∧ u'.size + t.size = t'.size + u.size ∧ (t.typed = u.typed → t'.typed = u'.typed)
  | .number _, _, t, t', v, h, u => by simp only [P0.den, Option.some.injEq, Prod.mk.injEq] at h ⊢; exact ⟨_, ⟨h.1, rfl⟩, by rw [h.2]; omega, by rw [h.2]; exact id⟩
  | .bool _, _, t, t', v, h, u => by simp only [P0.den, Option.some.injEq, Prod.mk.injEq] at h ⊢; exact ⟨_, ⟨h.1, rfl⟩, by rw [h.2]; omega, by rw [h.2]; exact id⟩
  | .str _, _, t, t', v, h, u => by simp only [P0.den, Option.some.injEq, Prod.mk.injEq] at h ⊢; exact ⟨_, ⟨h.1, rfl⟩, by rw [h.2]; omega, by rw [h.2]; exact id⟩
  | .longStr _, _, t, t', v, h, u => by simp only [P0.den, Option.some.injEq, Prod.mk.injEq] at h ⊢; exact ⟨_, ⟨h.1, rfl⟩, by rw [h.2]; omega, by rw [h.2]; exact id⟩
  | .xml _, _, t, t', v, h, u => by simp only [P0.den, Option.some.injEq, Prod.mk.injEq] at h ⊢; exact ⟨_, ⟨h.1, rfl⟩, by rw [h.2]; omega, by rw [h.2]; exact id⟩
  | .null, _, t, t', v, h, u => by simp only [P0.den, Option.some.injEq, Prod.mk.injEq] at h ⊢; exact ⟨_, ⟨h.1, rfl⟩, by rw [h.2]; omega, by rw [h.2]; exact id⟩
  | .undefined, _, t, t', v, h, u => by simp only [P0.den, Option.some.injEq, Prod.mk.injEq] at h ⊢; exact ⟨_, ⟨h.1, rfl⟩, by rw [h.2]; omega, by rw [h.2]; exact id⟩
  | .unsupported, _, t, t', v, h, u => by simp only [P0.den, Option.some.injEq, Prod.mk.injEq] at h ⊢; exact ⟨_, ⟨h.1, rfl⟩, by rw [h.2]; omega, by rw [h.2]; exact id⟩
  | .date _ _, _, t, t', v, h, u => by simp only [P0.den, Option.some.injEq, Prod.mk.injEq] at h ⊢; exact ⟨_, ⟨h.1, rfl⟩, by rw [h.2]; omega, by rw [h.2]; exact id⟩
  | .ref _, hf, t, t', v, h, u => by simp [P0.Full] at hf
  | .amf3 p, hf, t, t', v, h, u => by
    simp only [P0.Full] at hf
    simp only [P0.den] at h ⊢
    rcases h1 : p.den t.amf3 with _ | ⟨x, t1⟩
    · simp [h1] at h
    rw [h1] at h
    simp only [Option.some.injEq, Prod.mk.injEq] at h
    obtain ⟨u1, g1, z1⟩ := Amf3.full_den p hf _ _ _ h1 u.amf3
    exact ⟨_, by simp only [g1, h.1]; rfl, by rw [← h.2]; simp only [Known.size]; omega, by rw [← h.2]; exact id⟩
  | .obj fs, hf, t, t', v, h, u => by
    simp only [P0.Full] at hf
    simp only [P0.den] at h ⊢
    rcases h1 : p0denF (t.add (.obj [])) (some t.complex.length) [] fs with _ | ⟨l, t1⟩
    · simp [h1] at h
    rw [h1] at h
    simp only [Option.some.injEq, Prod.mk.injEq] at h
    obtain ⟨u1, g1, z1, y1⟩ := full_denF fs hf _ _ _ _ _ h1 (u.add (.obj [])) (some u.complex.length)
    exact ⟨u1, by simp only [g1, h.1], by
      rw [← h.2]; simp only [Known.size, Known.add, List.length_append, List.length_singleton] at z1 ⊢; omega, by
      rw [← h.2]; exact fun e => y1 (by simp [Known.add, e])⟩
  | .ecma _ fs, hf, t, t', v, h, u => by
    simp only [P0.Full] at hf
    simp only [P0.den] at h ⊢
    rcases h1 : p0denF (t.add (.obj [])) (some t.complex.length) [] fs with _ | ⟨l, t1⟩
    · simp [h1] at h
    rw [h1] at h
    simp only [Option.some.injEq, Prod.mk.injEq] at h
    obtain ⟨u1, g1, z1, y1⟩ := full_denF fs hf _ _ _ _ _ h1 (u.add (.obj [])) (some u.complex.length)
    exact ⟨u1, by simp only [g1, h.1], by
      rw [← h.2]; simp only [Known.size, Known.add, List.length_append, List.length_singleton] at z1 ⊢; omega, by
      rw [← h.2]; exact fun e => y1 (by simp [Known.add, e])⟩
  | .typed name fs, hf, t, t', v, h, u => by
    simp only [P0.Full] at hf
    simp only [P0.den] at h ⊢
    rcases h1 : p0denF { t.add .other with typed := true } none [] fs with _ | ⟨l, t1⟩
    · simp [h1] at h
    rw [h1] at h
    simp only [Option.some.injEq, Prod.mk.injEq] at h
    obtain ⟨u1, g1, z1, y1⟩ := full_denF fs hf _ _ _ _ _ h1 { u.add .other with typed := true } none
    exact ⟨u1, by simp only [g1, h.1], by
      rw [← h.2]; simp only [Known.size, Known.add, List.length_append, List.length_singleton] at z1 ⊢; omega, by
      rw [← h.2]; exact fun e => y1 (by simp [Known.add, e])⟩
  | .strict xs, hf, t, t', v, h, u => by
    simp only [P0.Full] at hf
    simp only [P0.den] at h ⊢
    rcases h1 : p0denL (t.add .other) xs with _ | ⟨l, t1⟩
    · simp [h1] at h
    rw [h1] at h
    simp only [Option.some.injEq, Prod.mk.injEq] at h
    obtain ⟨u1, g1, z1, y1⟩ := full_denL xs hf _ _ _ h1 (u.add .other)
    exact ⟨u1, by simp only [g1, h.1], by
      rw [← h.2]; simp only [Known.size, Known.add, List.length_append, List.length_singleton] at z1 ⊢; omega, by
      rw [← h.2]; exact fun e => y1 (by simp [Known.add, e])⟩
theorem full_denL : (ps : List P0) → P0FullL ps → (t t' : Known) → (vs : List Val) → p0denL t ps = some (vs, t') → (u : Known) →
    ∃ u', p0denL u ps = some (vs, u') ∧ u'.size + t.size = t'.size + u.size ∧ (t.typed = u.typed → t'.typed = u'.typed)
  | [], _, t, t', vs, h, u => by simp only [p0denL, Option.some.injEq, Prod.mk.injEq] at h ⊢; exact ⟨_, ⟨h.1, rfl⟩, by rw [h.2]; omega, by rw [h.2]; exact id⟩
  | p :: ps, hf, t, t', vs, h, u => by
    simp only [P0FullL] at hf
    simp only [p0denL] at h ⊢
    rcases h1 : p.den t with _ | ⟨a, t1⟩
    · simp [h1] at h
    rw [h1] at h
    simp only at h
    rcases h2 : p0denL t1 ps with _ | ⟨d, t2⟩
    · simp [h2] at h
    rw [h2] at h
    simp only [Option.some.injEq, Prod.mk.injEq] at h
    obtain ⟨u1, g1, z1, y1⟩ := full_den p hf.1 t t1 a h1 u
    obtain ⟨u2, g2, z2, y2⟩ := full_denL ps hf.2 t1 t2 d h2 u1
    exact ⟨u2, by simp only [g1, g2, h.1], by rw [← h.2]; omega, by rw [← h.2]; exact fun e => y2 (y1 e)⟩
theorem full_denF : (fs : List (Bytes × P0)) → P0FullF fs → (t t' : Known) → (o : Option Nat) → (l : List (Bytes × Val)) →
    (vs : List (Bytes × Val)) → p0denF t o l fs = some (vs, t') → (u : Known) → (o' : Option Nat) →
    ∃ u', p0denF u o' l fs = some (vs, u') ∧ u'.size + t.size = t'.size + u.size ∧ (t.typed = u.typed → t'.typed = u'.typed)
  | [], _, t, t', o, l, vs, h, u, o' => by simp only [p0denF, Option.some.injEq, Prod.mk.injEq] at h ⊢; exact ⟨_, ⟨h.1, rfl⟩, by rw [h.2]; omega, by rw [h.2]; exact id⟩
  | (k, p) :: fs, hf, t, t', o, l, vs, h, u, o' => by
    simp only [P0FullF] at hf
    simp only [p0denF] at h ⊢
    rcases h1 : p.den t with _ | ⟨a, t1⟩
    · simp [h1] at h
    rw [h1] at h
    simp only at h
    obtain ⟨u1, g1, z1, y1⟩ := full_den p hf.1 t t1 a h1 u
    obtain ⟨u2, g2, z2, y2⟩ := full_denF fs hf.2 _ _ _ _ _ h (u1.put o' (Spec.Amf3.lastWins (l ++ [(k, a)]))) o'
    rw [put_size, put_size] at z2
    rw [put_typed_eq, put_typed_eq] at y2
    exact ⟨u2, by simp only [g1, g2], by omega, fun e => y2 (y1 e)⟩
end

theorem match0_any (s : St) : Match0 ⟨Amf3.tabsOf s, [], true⟩ s :=
  ⟨Amf3.match_tabsOf s, fun h => by simp at h⟩

end Verif.Amf0
