import Verif.Model.Amf3Shared
import Verif.Lemmas.AmfShared
import Verif.Lemmas.AmfEncode
/-! # Values that change the protocol -/
namespace Verif.Amf3
open Verif.Amf Verif.Spec.Amf
open Verif.Amf0 (heapOf heapOf_some)

mutual
theorem shared_enc3 {r : List Ref0} {v w} : Spec.Amf.Stands (heapOf r) v w → ∃ f0, ∀ f, f0 ≤ f → encodeShared r f v = enc w
  | .nil => ⟨1, fun f hf => by obtain ⟨g, rfl⟩ : ∃ g, f = g + 1 := ⟨f - 1, by omega⟩; rfl⟩
  | .bool _ => ⟨1, fun f hf => by obtain ⟨g, rfl⟩ : ∃ g, f = g + 1 := ⟨f - 1, by omega⟩; rfl⟩
  | .f64 _ => ⟨1, fun f hf => by obtain ⟨g, rfl⟩ : ∃ g, f = g + 1 := ⟨f - 1, by omega⟩; rfl⟩
  | .str _ => ⟨1, fun f hf => by obtain ⟨g, rfl⟩ : ∃ g, f = g + 1 := ⟨f - 1, by omega⟩; rfl⟩
  | .arr h => by
    obtain ⟨f0, h0, hl⟩ := shared_encL3 h
    refine ⟨f0 + 1, fun f hf => ?_⟩
    obtain ⟨g, rfl⟩ : ∃ g, f = g + 1 := ⟨f - 1, by omega⟩
    simp only [encodeShared, enc, h0 g (by omega), hl]
  | .obj h => by
    obtain ⟨f0, h0⟩ := shared_encF3 h
    refine ⟨f0 + 1, fun f hf => ?_⟩
    obtain ⟨g, rfl⟩ : ∃ g, f = g + 1 := ⟨f - 1, by omega⟩
    simp only [encodeShared, enc, h0 g (by omega)]
  | .typed _ h => by
    obtain ⟨f0, h0⟩ := shared_encF3 h
    refine ⟨f0 + 1, fun f hf => ?_⟩
    obtain ⟨g, rfl⟩ : ∃ g, f = g + 1 := ⟨f - 1, by omega⟩
    simp only [encodeShared, enc, h0 g (by omega)]
  | .shared hn h => by
    obtain ⟨f0, h0⟩ := shared_encF3 h
    refine ⟨f0 + 1, fun f hf => ?_⟩
    obtain ⟨g, rfl⟩ : ∃ g, f = g + 1 := ⟨f - 1, by omega⟩
    simp only [encodeShared, enc, heapOf_some hn, h0 g (by omega)]
theorem shared_encL3 {r : List Ref0} {xs ys} : StandsL (heapOf r) xs ys →
    ∃ f0, (∀ f, f0 ≤ f → Amf0.sharedL (encodeShared r f) xs = encL ys) ∧ xs.length = ys.length
  | .nil => ⟨0, fun _ _ => rfl, rfl⟩
  | .cons h h' => by
    obtain ⟨f0, h0⟩ := shared_enc3 h
    obtain ⟨f1, h1, hl⟩ := shared_encL3 h'
    refine ⟨f0 + f1, fun f hf => ?_, by simp [hl]⟩
    simp only [Amf0.sharedL, encL, h0 f (by omega), h1 f (by omega)]
theorem shared_encF3 {r : List Ref0} {l l'} : StandsF (heapOf r) l l' →
    ∃ f0, ∀ f, f0 ≤ f → (l.map fun e => (e.1, encodeShared r f e.2)) = encF l'
  | .nil => ⟨0, fun _ _ => rfl⟩
  | .cons h h' => by
    obtain ⟨f0, h0⟩ := shared_enc3 h
    obtain ⟨f1, h1⟩ := shared_encF3 h'
    refine ⟨f0 + f1, fun f hf => ?_⟩
    simp only [List.map_cons, encF, h0 f (by omega), h1 f (by omega)]
end

/-! ## An encoding that ends is that of a tree -/

theorem sbind_ok {α β} {m : GoM Sink α} {f : α → GoM Sink β} {s s' : Sink} {y : β} (h : (m >>= f) s = (.ok y, s')) :
    ∃ a s1, m s = (.ok a, s1) ∧ f a s1 = (.ok y, s') := by
  rw [GoM.bind_apply] at h
  rcases hm : m s with ⟨r, s1⟩
  rw [hm] at h
  cases r with
  | ok a => exact ⟨a, s1, rfl, h⟩
  | err e => simp at h
  | panic => simp at h
  | diverge => simp at h

theorem runAll_ok : ∀ (as : List (GoM Sink Nat)) (n : Nat) (s : Sink) (y : Nat) (s' : Sink), runAll n as s = (.ok y, s') →
    ∀ a ∈ as, ∃ t k t', a t = (.ok k, t')
  | [], _, _, _, _, _ => by simp
  | a :: as, n, s, y, s', h => by
    obtain ⟨m, s1, h1, h2⟩ := sbind_ok h
    intro b hb
    rcases List.mem_cons.1 hb with rfl | hb
    · exact ⟨s, m, s1, h1⟩
    · exact runAll_ok as _ s1 y s' h2 b hb

theorem mem_insertKey {α} (e x : Bytes × α) : ∀ l, x ∈ insertKey e l ↔ x = e ∨ x ∈ l
  | [] => by simp [insertKey]
  | f :: r => by
    unfold insertKey
    split
    · simp
    · simp only [List.mem_cons, mem_insertKey e x r]
      constructor <;> (rintro (h | h | h) <;> simp [h])

theorem mem_sortKeys {α} (x : Bytes × α) : ∀ l : List (Bytes × α), x ∈ sortKeys l ↔ x ∈ l
  | [] => by simp [sortKeys]
  | e :: r => by rw [sortKeys, mem_insertKey, mem_sortKeys x r]; simp

theorem entries_ok {t : Bytes} {es : List (Bytes × GoM Sink Nat)} {s s' : Sink} {y : Nat} (h : encodeEntries t es s = (.ok y, s')) :
    ∀ e ∈ es, ∃ u k u', e.2 u = (.ok k, u') := by
  obtain ⟨_, s1, _, h⟩ := sbind_ok h
  obtain ⟨_, s2, _, h⟩ := sbind_ok h
  obtain ⟨_, s3, _, h⟩ := sbind_ok h
  obtain ⟨_, s4, _, h⟩ := sbind_ok h
  intro e he
  exact runAll_ok _ _ _ _ _ h e.2 (List.mem_map.2 ⟨e, (mem_sortKeys e es).2 he, rfl⟩)

section
open Verif.Amf0 (G GL GF Obj Good)

theorem ends_L {r : List Ref0} {e : Val → GoM Sink Nat}
    (he : ∀ v, G (Obj r) v → (∃ s k s', e v s = (.ok k, s')) → ∃ w, Spec.Amf.Stands (heapOf r) v w) : ∀ vs, GL (Obj r) vs →
    (∃ s k s', Amf0.sharedL e vs s = (.ok k, s')) → ∃ ws, StandsL (heapOf r) vs ws
  | [], _, _ => ⟨[], .nil⟩
  | v :: vs, h, ⟨s, k, s', hk⟩ => by
    obtain ⟨a, s1, h1, hk⟩ := sbind_ok hk
    obtain ⟨b, s2, h2, hk⟩ := sbind_ok hk
    obtain ⟨w, hw⟩ := he v h.1 ⟨_, _, _, h1⟩
    obtain ⟨ws, hws⟩ := ends_L he vs h.2 ⟨_, _, _, h2⟩
    exact ⟨w :: ws, .cons hw hws⟩

theorem ends_F {r : List Ref0} {e : Val → GoM Sink Nat}
    (he : ∀ v, G (Obj r) v → (∃ s k s', e v s = (.ok k, s')) → ∃ w, Spec.Amf.Stands (heapOf r) v w) : ∀ l, GF (Obj r) l →
    (∀ x ∈ l, ∃ s k s', e x.2 s = (.ok k, s')) → ∃ l', StandsF (heapOf r) l l'
  | [], _, _ => ⟨[], .nil⟩
  | (k, v) :: l, h, hx => by
    obtain ⟨w, hw⟩ := he v h.2.1 (hx (k, v) List.mem_cons_self)
    obtain ⟨ws, hws⟩ := ends_F he l h.2.2 fun x hm => hx x (List.mem_cons_of_mem _ hm)
    exact ⟨(k, w) :: ws, .cons hw hws⟩

theorem ends_entries {e : Val → GoM Sink Nat} {t : Bytes} {l : List (Bytes × Val)} {s k s'} (h : encodeEntries t (l.map fun x => (x.1, e x.2)) s = (.ok k, s')) :
    ∀ x ∈ l, ∃ s k s', e x.2 s = (.ok k, s') :=
  fun x hx => entries_ok h (x.1, e x.2) (List.mem_map.2 ⟨x, hx, rfl⟩)

/-- If encoding ends well, the value is a tree. -/
theorem ends {r : List Ref0} (hr : Good r) (f : Nat) : ∀ v, G (Obj r) v → (∃ s k s', encodeShared r f v s = (.ok k, s')) →
    ∃ w, Spec.Amf.Stands (heapOf r) v w := by
  induction f with
  | zero => rintro v _ ⟨s, k, s', h⟩; simp [encodeShared, GoM.diverge] at h
  | succ f ih =>
    rintro v hv ⟨s, k, s', h⟩
    match v, hv, h with
    | .nil, _, _ => exact ⟨_, .nil⟩
    | .bool b, _, _ => exact ⟨_, .bool b⟩
    | .f64 x, _, _ => exact ⟨_, .f64 x⟩
    | .str x, _, _ => exact ⟨_, .str x⟩
    | .arr xs, hv, h =>
      simp only [encodeShared] at h
      obtain ⟨_, s1, _, h⟩ := sbind_ok h
      obtain ⟨_, s2, _, h⟩ := sbind_ok h
      obtain ⟨_, s3, _, h⟩ := sbind_ok h
      obtain ⟨_, s4, h4, _⟩ := sbind_ok h
      obtain ⟨ys, hy⟩ := ends_L ih xs hv.2 ⟨_, _, _, h4⟩
      exact ⟨_, .arr hy⟩
    | .obj l, hv, h =>
      simp only [encodeShared] at h
      obtain ⟨ys, hy⟩ := ends_F ih l hv.2 (ends_entries h)
      exact ⟨_, .obj hy⟩
    | .typed t l, hv, h =>
      simp only [encodeShared] at h
      obtain ⟨ys, hy⟩ := ends_F ih l hv.2.2 (ends_entries h)
      exact ⟨_, .typed t hy⟩
    | .shared n, hv, h =>
      obtain ⟨l, hl⟩ := hv
      simp only [encodeShared, hl] at h
      obtain ⟨ys, hy⟩ := ends_F ih l (hr l (List.mem_of_getElem? hl)).2 (ends_entries h)
      exact ⟨_, .shared (by simp [heapOf, hl]) hy⟩
    | .int _ _, hv, _ | .uint _ _, hv, _ | .bytes _, hv, _ | .time _, hv, _ | .ecma _ _, hv, _ | .other, hv, _ => exact hv.elim
end

/-! ## The object that contains itself -/

section
open Verif.Amf0 (Fine AllDiv Works)

theorem _root_.Verif.Emits.fine {α} {m : GoM Sink α} {cs : List Bytes} {a : α} (h : Emits m cs (.ok a)) : Fine m := by
  intro s hs
  exact .inr ⟨a, _, h.reliable s hs, hs⟩

theorem allDiv_entries {k : Bytes} (hk : k.length < 2 ^ 28) {m : GoM Sink Nat} (h : AllDiv m) : AllDiv (encodeEntries [] [(k, m)]) := by
  refine AllDiv.after (Fine.write _) fun _ => AllDiv.after ?_ fun _ => AllDiv.after (emits_utf8 [] (by simp)).fine fun _ =>
    AllDiv.after (((emits_utf8 k hk).fine).bind fun _ => Fine.pure _) fun _ => h.bind
  exact (emits_writeUint29 _ (by simp [sortKeys, insertKey])).fine

theorem self_div {k : Bytes} (hk : k.length < 2 ^ 28) : ∀ d, AllDiv (encodeShared [.object [(k, .shared 0)]] d (.shared 0))
  | 0 => fun s _ => by simp [encodeShared, GoM.diverge]
  | d + 1 => by
    simp only [encodeShared, List.getElem?_cons_zero, List.map_cons, List.map_nil]
    exact allDiv_entries hk (self_div hk d)

theorem self_div' {k : Bytes} (hk : k.length < 2 ^ 28) : ∀ d, AllDiv (encodeShared [.object [(k, .shared 0)]] d (.obj [(k, .shared 0)]))
  | 0 => fun s _ => by simp [encodeShared, GoM.diverge]
  | d + 1 => by
    simp only [encodeShared, List.map_cons, List.map_nil]
    exact allDiv_entries hk (self_div hk d)
end

end Verif.Amf3
