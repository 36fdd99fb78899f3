import Verif.Lemmas.Amf3Refs
import Verif.Lemmas.Float64
import Verif.Spec.Amf3Peer
/-! # Decoding the messages of other producers -/
namespace Verif.Amf0
open Verif.Amf Verif.Spec.Amf3

theorem lastWins_snoc (l : List (Bytes × Val)) (k : Bytes) (v : Val) : lastWins (l ++ [(k, v)]) = mapSet (lastWins l) k v := by
  have hkeys : (lastWins l).any (fun e => e.1 == k) = decide (k ∈ l.map Prod.fst) := by
    rw [Bool.eq_iff_iff]
    simp only [lastWins, List.any_map, List.any_eq_true, Function.comp, beq_iff_eq, decide_eq_true_eq, List.mem_eraseDups]
    exact ⟨fun ⟨x, hx, e⟩ => e ▸ hx, fun h => ⟨k, h, rfl⟩⟩
  have hval : ∀ j, ((l ++ [(k, v)]).reverse.find? fun e => e.1 == j) = if k = j then some (k, v) else l.reverse.find? fun e => e.1 == j := by
    intro j
    rw [List.reverse_append, List.reverse_singleton, List.singleton_append, List.find?_cons]
    by_cases h : k = j
    · simp [h]
    · rw [show ((k, v).1 == j) = false from by simpa using h, if_neg h]
  rw [mapSet, hkeys]
  by_cases h : k ∈ l.map Prod.fst
  · rw [decide_eq_true h, if_pos rfl]
    have he : ((l ++ [(k, v)]).map Prod.fst).eraseDups = (l.map Prod.fst).eraseDups := by
      rw [List.map_append, List.eraseDups_append]
      simp [List.removeAll, h]
    rw [lastWins, he, lastWins, List.map_map]
    refine List.map_congr_left fun j _ => ?_
    rw [hval]
    by_cases hj : k = j
    · subst hj; simp
    · simp [hj, Ne.symm hj]
  · rw [decide_eq_false h, if_neg (by simp)]
    have he : ((l ++ [(k, v)]).map Prod.fst).eraseDups = (l.map Prod.fst).eraseDups ++ [k] := by
      rw [List.map_append, List.eraseDups_append]
      congr 1
      have : [k].removeAll (l.map Prod.fst) = [k] := by
        rw [List.removeAll, List.filter_cons, if_pos (by simpa using h)]; rfl
      rw [List.map_cons, List.map_nil, this]
      rfl
    rw [lastWins, he, lastWins, List.map_append]
    congr 1
    · refine List.map_congr_left fun j hj => ?_
      have : k ≠ j := fun e => h (e ▸ List.mem_eraseDups.1 hj)
      rw [hval, if_neg this]
    · simp

/-- Assigning one member after the other. -/
theorem setAll_nil (l : List (Bytes × Val)) : setAll [] l = lastWins l := by
  obtain ⟨r, rfl⟩ : ∃ r, l = r.reverse := ⟨l.reverse, by simp⟩
  induction r with
  | nil => rfl
  | cons e r ih =>
    rw [List.reverse_cons, lastWins_snoc, ← ih, setAll, List.foldl_append]
    rfl

end Verif.Amf0
namespace Verif.Amf3
open Verif.Amf Verif.Spec.Amf3

/-- The decoder's tables hold what has been sent so far. -/
structure Match (t : Sofar) (s : St) : Prop where
  strs : s.strTab = t.strs
  len : s.objTab.length = t.vals.length
  vals : ∀ (i : Nat) (v : Val), t.vals[i]? = some (some v) → s.objTab[i]? = some v
  classes : s.traits.length = t.classes.length
  plain : ∀ (i : Nat) (ks : List Bytes), t.classes[i]? = some (some ks) →
    ∃ c, s.traits[i]? = some c ∧ c.properties = ks ∧ c.externalizable = false ∧ c.dynamic = false

/-- With what has been sent being `t`, `m` reads exactly `b` and yields `a`; then `t'` has been sent. -/
def Gives {α} (t : Sofar) (m : GoM St α) (b : Bytes) (a : α) (t' : Sofar) : Prop :=
  ∀ s rest, Match t s → s.Contig → s.data = b ++ rest →
    ∃ s', m s = (.ok a, s') ∧ s'.data = rest ∧ (s'.lim = s.lim ∧ s'.eofOnEmpty = s.eofOnEmpty) ∧ Match t' s'

namespace Gives
variable {α β : Type} {t t' t'' : Sofar}

theorem bind {m : GoM St α} {f : α → GoM St β} {b c : Bytes} {a : α} {y : β}
    (h : Gives t m b a t') (h' : Gives t' (f a) c y t'') : Gives t (m >>= f) (b ++ c) y t'' := by
  intro s rest hm hc hd
  obtain ⟨s1, h1, h2, h3, h4⟩ := h s (c ++ rest) hm hc (by simpa using hd)
  obtain ⟨s2, g1, g2, g3, g4⟩ := h' s1 rest h4 (by unfold St.Contig; rw [h3.1]; exact hc) h2
  exact ⟨s2, by rw [GoM.bind_apply, h1]; exact g1, g2, ⟨g3.1.trans h3.1, g3.2.trans h3.2⟩, g4⟩

theorem pure (a : α) : Gives t (Pure.pure a) [] a t := fun s _ hm _ hd => ⟨s, rfl, hd, ⟨rfl, rfl⟩, hm⟩

theorem map {m : GoM St α} {b : Bytes} {a : α} (g : α → β) (h : Gives t m b a t') :
    Gives t (m >>= fun x => Pure.pure (g x)) b (g a) t' := by
  have := h.bind (f := fun x => Pure.pure (g x)) (Gives.pure (g a))
  simpa using this

theorem congr {m : GoM St α} {b b' : Bytes} {a a' : α} (h : Gives t m b a t') (hb : b = b') (ha : a = a') :
    Gives t m b' a' t' := by subst hb ha; exact h

theorem readByte (b : UInt8) : Gives t Amf.readByte [b] b t := by
  intro s rest hm _ hd
  exact ⟨{ s with data := rest }, Safe.readByte_cons (by simpa using hd), rfl, ⟨rfl, rfl⟩,
    ⟨hm.strs, hm.len, hm.vals, hm.classes, hm.plain⟩⟩
end Gives

theorem Match.same {t : Sofar} {s s' : St} (h : Match t s) (hs : SameTabs s s') : Match t s' := by
  obtain ⟨h1, h2, h3⟩ := hs
  exact ⟨by rw [h1]; exact h.strs, by rw [h2]; exact h.len, by rw [h2]; exact h.vals, by rw [h3]; exact h.classes,
    by rw [h3]; exact h.plain⟩

variable {t : Sofar}

theorem gives_readUint29 (n : Nat) (h : n < 2 ^ 29) : Gives t readUint29 (u29 n) (UInt32.ofNat n) t := by
  intro s rest hm hc hd
  obtain ⟨s', h1, h2, h3, h4⟩ := (codec_readUint29 (rj := false) n h).parse s rest hc hd (by simp)
  have hk := keep_u29Loop frame_sameTabs 3 0 s
  have h1' : u29Loop 3 0 s = (.ok (UInt32.ofNat n), s') := h1
  rw [h1'] at hk
  exact ⟨s', h1, h2, ⟨h4, h3⟩, hm.same hk⟩

theorem gives_decodeUint29 (n : Nat) (h : n < 2 ^ 29) :
    Gives t decodeUint29 (u29 n) (decide (n % 2 = 0), UInt32.ofNat (n / 2)) t := by
  intro s rest hm hc hd
  obtain ⟨s', h1, h2, h3, h4, h5⟩ := decodeUint29_run n h s rest hc hd
  exact ⟨s', h1, h2, ⟨h4, h3⟩, hm.same h5⟩

/-- A length header. -/
theorem gives_len (n : Nat) (h : n < 2 ^ 28) : Gives t decodeUint29 (u29 (2 * n + 1)) (false, UInt32.ofNat n) t := by
  have := gives_decodeUint29 (t := t) (2 * n + 1) (by omega)
  have e1 : (2 * n + 1) % 2 = 1 := by omega
  have e2 : (2 * n + 1) / 2 = n := by omega
  simpa [e1, e2] using this

/-- A reference header. -/
theorem gives_refHdr (n : Nat) (h : n < 2 ^ 28) : Gives t decodeUint29 (u29 (2 * n)) (true, UInt32.ofNat n) t := by
  have := gives_decodeUint29 (t := t) (2 * n) (by omega)
  have e1 : (2 * n) % 2 = 0 := by omega
  have e2 : (2 * n) / 2 = n := by omega
  simpa [e1, e2] using this

theorem gives_readBytes (b : Bytes) (hb : b ≠ []) : Gives t (readBytes b.length) b b t := by
  intro s rest hm hc hd
  obtain ⟨s', h1, h2, h3, h4, h5⟩ := readBytes_run b hb s rest hc hd
  exact ⟨s', h1, h2, ⟨h4, h3⟩, hm.same h5⟩

theorem gives_readPadded (b : Bytes) (hb : b ≠ []) : Gives t (readPadded b.length) b b t := by
  intro s rest hm hc hd
  obtain ⟨s', h1, h2, h3, h4, h5⟩ := readPadded_run b hb s rest hc hd
  exact ⟨s', h1, h2, ⟨h4, h3⟩, hm.same h5⟩

theorem gives_readF64 (f : UInt64) : Gives t readF64 (be64 f) f t := by
  intro s rest hm hc hd
  obtain ⟨s', h1, h2, h3, h4⟩ := (codec_readF64 (rj := false) f).parse s rest hc hd (by simp)
  have hk := keep_readF64 frame_sameTabs s
  rw [h1] at hk
  exact ⟨s', h1, h2, ⟨h4, h3⟩, hm.same hk⟩

theorem gives_pushStr (x : Bytes) :
    Gives t (GoM.modify (fun s => { s with strTab := s.strTab ++ [x] })) [] () { t with strs := t.strs ++ [x] } := by
  intro s rest hm hc hd
  exact ⟨{ s with strTab := s.strTab ++ [x] }, rfl, hd, ⟨rfl, rfl⟩, ⟨by simp [hm.strs], hm.len, hm.vals, hm.classes, hm.plain⟩⟩

/-- `o` is what is known about the value that was pushed. -/
theorem gives_pushObj (v : Val) (o : Option Val) (ho : ∀ w, o = some w → w = v) : Gives t (pushObj v) [] () (t.add o) := by
  intro s rest hm hc hd
  refine ⟨{ s with objTab := s.objTab ++ [v] }, rfl, hd, ⟨rfl, rfl⟩, ⟨hm.strs, by simp [Sofar.add, hm.len], ?_, hm.classes, hm.plain⟩⟩
  intro i w hw
  simp only [Sofar.add] at hw
  by_cases hi : i < t.vals.length
  · rw [List.getElem?_append_left hi] at hw
    have := hm.vals i w hw
    rw [List.getElem?_append_left (by rw [hm.len]; exact hi)]
    exact this
  · rw [List.getElem?_append_right (by omega)] at hw
    have h0 : i - t.vals.length = 0 := by
      have := (List.getElem?_eq_some_iff.mp hw).1
      simp only [List.length_cons, List.length_nil] at this
      omega
    rw [h0] at hw
    simp only [List.getElem?_cons_zero, Option.some.injEq] at hw
    rw [List.getElem?_append_right (by rw [hm.len]; omega), hm.len, h0, ho w hw]
    rfl

theorem gives_str (p : PStr) (hp : p.Fits) (x : Bytes) (t' : Sofar) (h : p.den t = some (x, t')) :
    Gives t decodeString p.bytes x t' := by
  cases p with
  | lit s =>
    simp only [PStr.den, Option.some.injEq, Prod.mk.injEq] at h
    obtain ⟨rfl, rfl⟩ := h
    simp only [PStr.Fits] at hp
    unfold decodeString
    refine Gives.bind (gives_len s.length hp) ?_
    by_cases hs : s = []
    · subst hs
      simpa using Gives.pure (t := t) ([] : Bytes)
    · have h0 := ofNat_ne_zero s.length hp (by simpa using hs)
      simp only [Bool.false_eq_true, h0, if_false, toNat_ofNat_lt _ hp, hs]
      have h2 := Gives.bind (gives_readBytes (t := t) s hs) (f := fun buf => do
        GoM.modify (fun s : St => { s with strTab := s.strTab ++ [buf] })
        Pure.pure buf) (Gives.bind (gives_pushStr s) (Gives.pure s))
      simpa using h2
  | ref i =>
    simp only [PStr.den, Option.map_eq_some_iff, Prod.mk.injEq] at h
    obtain ⟨y, h1, rfl, rfl⟩ := h
    simp only [PStr.Fits] at hp
    intro s rest hm hc hd
    obtain ⟨s', g1, g2, g3, g4⟩ := gives_refHdr (t := t) i hp s rest hm hc hd
    refine ⟨s', ?_, g2, g3, g4⟩
    unfold decodeString
    rw [GoM.bind_apply, g1]
    have hlt : i < s'.strTab.length := by rw [g4.strs]; exact (List.getElem?_eq_some_iff.mp h1).1
    have hg : goIndex s'.strTab (i : Int) = .ok y := by
      rw [g4.strs]; simp [goIndex, h1]
    simp only [if_true, GoM.bind_apply, GoM.get_apply, toNat_ofNat_lt _ hp]
    rw [if_neg (by omega)]
    simp [hg]

theorem gives_names (ns : List PStr) (hn : ∀ n ∈ ns, n.Fits) (acc ks : List Bytes) (t t' : Sofar)
    (h : denNames t ns = some (ks, t')) :
    Gives t (propNames ns.length acc) (ns.flatMap PStr.bytes) (acc ++ ks) t' := by
  induction ns generalizing acc ks t with
  | nil =>
    simp only [denNames, Option.some.injEq, Prod.mk.injEq] at h
    obtain ⟨rfl, rfl⟩ := h
    simpa [propNames] using Gives.pure (t := t) acc
  | cons n ns ih =>
    simp only [denNames] at h
    rcases h1 : n.den t with _ | ⟨k, t1⟩
    · simp [h1] at h
    rw [h1] at h
    simp only at h
    rcases h2 : denNames t1 ns with _ | ⟨ks', t2⟩
    · simp [h2] at h
    rw [h2] at h
    simp only [Option.some.injEq, Prod.mk.injEq] at h
    obtain ⟨rfl, rfl⟩ := h
    have := Gives.bind (gives_str n (hn n (by simp)) k t1 h1) (f := fun k => propNames ns.length (acc ++ [k]))
      (ih (fun n hn' => hn n (by simp [hn'])) (acc ++ [k]) ks' t1 h2)
    simpa [propNames] using this

/-- The trait of an object, split into the header and the rest. -/
theorem gives_trait (p : PTrait) (hp : p.Fits) (ks : List Bytes) (t' : Sofar) (h : p.den t = some (ks, t')) :
    ∃ hdr rest n, p.bytes = hdr ++ rest ∧ Gives t decodeUint29 hdr (false, n) t ∧
      ∀ (f : Trait → GoM St Val) b y t'', (∀ c : Trait, c.externalizable = false → c.dynamic = false → c.properties = ks →
        Gives t' (f c) b y t'') → Gives t (decodeTrait n >>= f) (rest ++ b) y t'' := by
  cases p with
  | new ty ns =>
    simp only [PTrait.den] at h
    rcases h1 : ty.den t with _ | ⟨name, t1⟩
    · simp [h1] at h
    rw [h1] at h
    simp only at h
    rcases h2 : denNames t1 ns with _ | ⟨ks', t2⟩
    · simp [h2] at h
    rw [h2] at h
    · simp only [Option.some.injEq, Prod.mk.injEq] at h
      obtain ⟨rfl, rfl⟩ := h
      simp only [PTrait.Fits] at hp
      obtain ⟨o1, o2, o3⟩ := objHdr ns.length hp.2.1
      refine ⟨u29 (16 * ns.length + 3), ty.bytes ++ ns.flatMap PStr.bytes, UInt32.ofNat (8 * ns.length + 1),
        by simp [PTrait.bytes], ?_, fun f b y t'' hf => Gives.bind (a := ⟨name, false, false, ks'⟩) ?_ (hf _ rfl rfl rfl)⟩
      · rw [o1]
        exact gives_len _ (by omega)
      · unfold decodeTrait
        rw [if_neg o2, o3]
        refine Gives.bind (gives_str ty hp.1 name t1 h1) ?_
        simp only [and2_ne_one, and4_ne_one]
        have hpush : Gives t2 (GoM.modify (fun s : St => { s with traits := s.traits ++ [(⟨name, false, false, ks'⟩ : Trait)] }))
            [] () { t2 with classes := t2.classes ++ [some ks'] } := by
          intro s rest hm hc hd
          refine ⟨{ s with traits := s.traits ++ [⟨name, false, false, ks'⟩] }, rfl, hd, ⟨rfl, rfl⟩,
            ⟨hm.strs, hm.len, hm.vals, by simp [hm.classes], ?_⟩⟩
          intro i ks hi
          rw [List.getElem?_append] at hi ⊢
          rw [hm.classes]
          split at hi
          · rename_i hlt
            rw [if_pos hlt]
            exact hm.plain i ks hi
          · rename_i hlt
            rw [if_neg hlt]
            rcases h0 : i - t2.classes.length with _ | j
            · rw [h0] at hi
              simp only [List.getElem?_cons_zero, Option.some.injEq] at hi
              exact ⟨⟨name, false, false, ks'⟩, by simp, hi, rfl, rfl⟩
            · rw [h0] at hi
              simp at hi
        have := Gives.bind (gives_names ns hp.2.2 [] ks' t1 t2 h2) (f := fun props => do
          GoM.modify (fun s : St => { s with traits := s.traits ++ [(⟨name, false, false, props⟩ : Trait)] })
          Pure.pure (⟨name, false, false, props⟩ : Trait)) (Gives.bind hpush (Gives.pure _))
        simpa using this
  | ref i =>
    simp only [PTrait.den, Option.map_eq_some_iff, Prod.mk.injEq] at h
    obtain ⟨y, h1, rfl, rfl⟩ := h
    simp only [PTrait.Fits] at hp
    refine ⟨u29 (2 * (2 * i) + 1), [], UInt32.ofNat (2 * i), ?_, gives_len _ (by omega), ?_⟩
    · simp only [PTrait.bytes, List.append_nil]
      congr 1; omega
    intro f b y2 t'' hf s rest hm hc hd
    have h2 : (UInt32.ofNat (2 * i)).toNat = 2 * i := by
      rw [UInt32.toNat_ofNat', Nat.mod_eq_of_lt]; omega
    have h3 : UInt32.ofNat (2 * i) &&& 1 = 0 := by
      apply UInt32.toNat_inj.mp
      rw [UInt32.toNat_and, h2]
      simp [Nat.and_one_is_mod]
    have h4 : (UInt32.ofNat (2 * i) >>> 1).toNat = i := by
      rw [UInt32.toNat_shiftRight, h2]
      simp [Nat.shiftRight_eq_div_pow]
    obtain ⟨c, hc1, hpr, p1, p2⟩ := hm.plain i y (by simpa [Option.join_eq_some_iff] using h1)
    obtain ⟨hi, rfl⟩ := List.getElem?_eq_some_iff.mp hc1
    obtain ⟨s', g1, g2, g3, g4⟩ := hf s.traits[i] p1 p2 hpr s rest hm hc (by simpa using hd)
    refine ⟨s', ?_, g2, g3, g4⟩
    have hr : decodeTrait (UInt32.ofNat (2 * i)) s = (.ok s.traits[i], s) := by
      unfold decodeTrait
      rw [if_pos h3]
      simp only [GoM.bind_apply, GoM.get_apply, h4]
      rw [if_neg (by omega)]
      simp [goIndex, List.getElem?_eq_getElem hi]
    rw [GoM.bind_apply, hr]
    exact g1


theorem gives_marker (H : Handlers) (fuel : Nat) {m : UInt8} {c : Bytes} {y : Val} {t' : Sofar}
    (h : Gives t (branch H fuel m) c y t') : Gives t (dec H (fuel + 1)) (m :: c) y t' := by
  rw [dec_succ]
  exact Gives.bind (b := [m]) (Gives.readByte m) h

theorem gives_blob (m : UInt8) (hm : m = 7 ∨ m = 11 ∨ m = 12) (H : Handlers) (fuel : Nat) (b : Bytes) (hb : b ≠ [])
    (hl : b.length < 2 ^ 28) (w : Val) (hw : w = if m = 12 then .bytes b else .str b) :
    Gives t (branch H fuel m) (u29 (2 * b.length + 1) ++ b) w (t.add (some w)) := by
  have h0 := ofNat_ne_zero b.length hl (by simpa using hb)
  have hx : Gives t decodeXmlDoc (u29 (2 * b.length + 1) ++ b) (.str b) (t.add (some (.str b))) := by
    unfold decodeXmlDoc
    refine Gives.bind (gives_len b.length hl) ?_
    simp only [Bool.false_eq_true, h0, if_false, toNat_ofNat_lt _ hl]
    have := Gives.bind (gives_readPadded (t := t) b hb) (f := fun b => do pushObj (.str b); Pure.pure (Val.str b))
      (Gives.bind (gives_pushObj (.str b) (some (.str b)) (by simp)) (Gives.pure _))
    simpa using this
  have hy : Gives t decodeByteArray (u29 (2 * b.length + 1) ++ b) (.bytes b) (t.add (some (.bytes b))) := by
    unfold decodeByteArray
    refine Gives.bind (gives_len b.length hl) ?_
    simp only [Bool.false_eq_true, h0, if_false, toNat_ofNat_lt _ hl]
    have := Gives.bind (gives_readPadded (t := t) b hb) (f := fun b => do pushObj (.bytes b); Pure.pure (Val.bytes b))
      (Gives.bind (gives_pushObj (.bytes b) (some (.bytes b)) (by simp)) (Gives.pure _))
    simpa using this
  subst hw
  rcases hm with rfl | rfl | rfl
  · exact hx
  · exact hx
  · exact hy

theorem gives_date (sec : Int) (h : (sec * 1000).natAbs ≤ 2 ^ 53) :
    Gives t decodeDate (u29 1 ++ be64 (F64.ofInt (sec * 1000))) (.time sec) (t.add (some (.time sec))) := by
  unfold decodeDate
  refine Gives.bind (gives_len 0 (by omega)) ?_
  have h1 : Gives t (mapErr .other readF64) (be64 (F64.ofInt (sec * 1000))) (F64.ofInt (sec * 1000)) t := by
    intro s rest hm hc hd
    obtain ⟨s', g1, g2⟩ := gives_readF64 (t := t) (F64.ofInt (sec * 1000)) s rest hm hc hd
    exact ⟨s', by simp only [mapErr, g1], g2⟩
  have := Gives.bind h1 (f := fun f => do
    pushObj (Val.time (F64.toInt64 (F64.div1000 f)))
    Pure.pure (Val.time (F64.toInt64 (F64.div1000 f)))) (c := []) (y := .time sec) (t'' := t.add (some (.time sec))) (by
      rw [F64.div1000_int sec h, F64.toInt64_int sec (by omega)]
      exact Gives.bind (b := []) (gives_pushObj (.time sec) (some (.time sec)) (by simp)) (Gives.pure _))
  simpa using this

theorem gives_again (H : Handlers) (fuel : Nat) (m : UInt8) (i : Nat) (hi : i < 2 ^ 28) (v : Val)
    (hv : t.vals[i]? = some (some v)) (hk : KindOk m v = true) : Gives t (branch H fuel m) (u29 (2 * i)) v t := by
  intro s rest hm hc hd
  obtain ⟨s1, h1, h2, h3, h4⟩ := gives_refHdr (t := t) i hi s rest hm hc hd
  have h5 : objRef (UInt32.ofNat i).toNat s1 = (.ok v, s1) := by
    have hg := h4.vals i v hv
    have hlt : i < s1.objTab.length := (List.getElem?_eq_some_iff.mp hg).1
    rw [toNat_ofNat_lt _ hi]
    unfold objRef
    simp only [GoM.bind_apply, GoM.get_apply]
    rw [if_neg (by omega)]
    simp [goIndex, hg]
  refine ⟨s1, ?_, h2, h3, h4⟩
  cases v with
  | time x =>
    have : m = 8 := by simpa [KindOk] using hk
    subst this
    show decodeDate _ = _
    unfold decodeDate
    rw [GoM.bind_apply, h1]
    simp only [if_true, GoM.bind_apply, h5]
    rfl
  | str x =>
    have : m = 7 ∨ m = 11 := by simpa [KindOk] using hk
    rcases this with rfl | rfl
    all_goals
      show decodeXmlDoc _ = _
      unfold decodeXmlDoc
      rw [GoM.bind_apply, h1]
      simp only [if_true, GoM.bind_apply, h5]
      rfl
  | bytes x =>
    have : m = 12 := by simpa [KindOk] using hk
    subst this
    show decodeByteArray _ = _
    unfold decodeByteArray
    rw [GoM.bind_apply, h1]
    simp only [if_true, GoM.bind_apply, h5]
    rfl
  | _ => simp [KindOk] at hk

theorem PStr.bytes_pos (p : PStr) : 0 < p.bytes.length := by
  have h := fun n => List.length_pos_iff.mpr (u29_ne n)
  cases p with
  | lit s => simp only [PStr.bytes, utf8, List.length_append]; have := h (2 * s.length + 1); omega
  | ref i => exact h _

theorem denA_cons {t t' : Sofar} {k : PStr} {p : PVal} {ps : List (PStr × PVal)} {vs : List (Bytes × Val)}
    (h : denA t ((k, p) :: ps) = some (vs, t')) : ∃ key t3 x t4 xs, k.den t = some (key, t3) ∧ key ≠ [] ∧
      p.den t3 = some (x, t4) ∧ denA t4 ps = some (xs, t') ∧ (key, x) :: xs = vs := by
  simp only [denA] at h
  rcases h1 : k.den t with _ | ⟨key, t3⟩
  · simp [h1] at h
  rw [h1] at h
  simp only at h
  split at h
  · simp at h
  rename_i hne
  rcases h2 : p.den t3 with _ | ⟨x, t4⟩
  · simp [h2] at h
  rw [h2] at h
  simp only at h
  rcases h3 : denA t4 ps with _ | ⟨xs, t5⟩
  · simp [h3] at h
  rw [h3] at h
  simp only [Option.some.injEq, Prod.mk.injEq] at h
  obtain ⟨h4, rfl⟩ := h
  exact ⟨key, t3, x, t4, xs, rfl, hne, h2, h3, h4⟩

theorem den_add {t t1 : Sofar} {k : PStr} {key : Bytes} {o : Option Val} (h : k.den (t.add o) = some (key, t1)) :
    ∃ t0, k.den t = some (key, t0) ∧ t1 = t0.add o := by
  cases k with
  | lit s =>
    simp only [PStr.den, Option.some.injEq, Prod.mk.injEq] at h ⊢
    obtain ⟨rfl, rfl⟩ := h
    refine ⟨_, ⟨rfl, rfl⟩, ?_⟩
    split <;> rfl
  | ref i =>
    simp only [PStr.den, Option.map_eq_some_iff, Prod.mk.injEq] at h ⊢
    obtain ⟨s, h1, rfl, rfl⟩ := h
    exact ⟨t, ⟨s, h1, rfl, rfl⟩, rfl⟩

mutual
theorem gives_val (H : Handlers) : (p : PVal) → p.Fits → (t : Sofar) → (v : Val) → (t' : Sofar) → p.den t = some (v, t') →
    (fuel : Nat) → p.wire.length ≤ fuel → Gives t (dec H fuel) p.wire v t'
  | p, _, _, _, _, _, 0, hf => absurd hf (by cases p <;> simp [PVal.wire])
  | .undefined, _, t, v, t', h, fuel + 1, _ => by
    simp only [PVal.den, Option.some.injEq, Prod.mk.injEq] at h
    obtain ⟨rfl, rfl⟩ := h
    exact gives_marker H fuel (m := 0) (Gives.pure _)
  | .null, _, t, v, t', h, fuel + 1, _ => by
    simp only [PVal.den, Option.some.injEq, Prod.mk.injEq] at h
    obtain ⟨rfl, rfl⟩ := h
    exact gives_marker H fuel (m := 1) (Gives.pure _)
  | .bool b, _, t, v, t', h, fuel + 1, _ => by
    simp only [PVal.den, Option.some.injEq, Prod.mk.injEq] at h
    obtain ⟨rfl, rfl⟩ := h
    cases b
    · exact gives_marker H fuel (m := 2) (Gives.pure _)
    · exact gives_marker H fuel (m := 3) (Gives.pure _)
  | .int n, hp, t, v, t', h, fuel + 1, _ => by
    simp only [PVal.den, Option.some.injEq, Prod.mk.injEq] at h
    obtain ⟨rfl, rfl⟩ := h
    simp only [PVal.Fits] at hp
    refine gives_marker H fuel (m := 4) (Gives.congr ((gives_readUint29 n (by omega)).map fun u => Val.uint false u.toNat) rfl ?_)
    simp only [toNat_ofNat_lt n hp]
  | .double f, _, t, v, t', h, fuel + 1, _ => by
    simp only [PVal.den, Option.some.injEq, Prod.mk.injEq] at h
    obtain ⟨rfl, rfl⟩ := h
    exact gives_marker H fuel (m := 5) ((gives_readF64 f).map Val.f64)
  | .str s, hp, t, v, t', h, fuel + 1, _ => by
    simp only [PVal.den, Option.map_eq_some_iff, Prod.exists, Prod.mk.injEq] at h
    obtain ⟨x, t1, h1, rfl, rfl⟩ := h
    exact gives_marker H fuel (m := 6) ((gives_str s (by simpa [PVal.Fits] using hp) x _ h1).map Val.str)
  | .xmlDoc s, hp, t, v, t', h, fuel + 1, _ => by
    simp only [PVal.den, Option.some.injEq, Prod.mk.injEq] at h
    obtain ⟨rfl, rfl⟩ := h
    simp only [PVal.Fits] at hp
    exact gives_marker H fuel (gives_blob 7 (by simp) H fuel s hp.1 hp.2 _ rfl)
  | .xml s, hp, t, v, t', h, fuel + 1, _ => by
    simp only [PVal.den, Option.some.injEq, Prod.mk.injEq] at h
    obtain ⟨rfl, rfl⟩ := h
    simp only [PVal.Fits] at hp
    exact gives_marker H fuel (gives_blob 11 (by simp) H fuel s hp.1 hp.2 _ rfl)
  | .bytes s, hp, t, v, t', h, fuel + 1, _ => by
    simp only [PVal.den, Option.some.injEq, Prod.mk.injEq] at h
    obtain ⟨rfl, rfl⟩ := h
    simp only [PVal.Fits] at hp
    exact gives_marker H fuel (gives_blob 12 (by simp) H fuel s hp.1 hp.2 _ rfl)
  | .date sec, hp, t, v, t', h, fuel + 1, _ => by
    simp only [PVal.den, Option.some.injEq, Prod.mk.injEq] at h
    obtain ⟨rfl, rfl⟩ := h
    exact gives_marker H fuel (m := 8) (gives_date sec (by simpa [PVal.Fits] using hp))
  | .again m i, hp, t, v, t', h, fuel + 1, _ => by
    simp only [PVal.den] at h
    split at h
    · rename_i w hw
      split at h
      · rename_i hk
        simp only [Option.some.injEq, Prod.mk.injEq] at h
        obtain ⟨rfl, rfl⟩ := h
        exact gives_marker H fuel (gives_again H fuel m i (by simpa [PVal.Fits] using hp) _ hw hk)
      · simp at h
    · simp at h
  | .arr [] dense, hp, t, v, t', h, fuel + 1, hf => by
    simp only [PVal.den, denA] at h
    rcases h2 : denL (t.add none) dense with _ | ⟨d, t2⟩
    · simp [h2] at h
    rw [h2] at h
    simp only [Option.some.injEq, Prod.mk.injEq] at h
    obtain ⟨rfl, rfl⟩ := h
    rw [show lastWins [] = [] from rfl]
    simp only [PVal.Fits] at hp
    simp only [PVal.wire, pwireA, List.length_cons, List.length_append, List.length_nil] at hf
    have hpos := List.length_pos_iff.mpr (u29_ne (2 * dense.length + 1))
    obtain ⟨f', rfl⟩ : ∃ f', fuel = f' + 1 := ⟨fuel - 1, by omega⟩
    refine gives_marker H _ (m := 9) ?_
    show Gives t (decodeArray (dec H (f' + 1)) (f' + 1)) _ _ _
    unfold decodeArray
    refine Gives.bind (gives_len dense.length hp.2.1) ?_
    simp only [Bool.false_eq_true, if_false, toNat_ofNat_lt _ hp.2.1, pwireA, List.nil_append]
    have hL := gives_vals H dense hp.2.2 (t.add none) d t2 h2 (f' + 1) (by omega) []
    refine Gives.bind (gives_str (.lit []) (by simp [PStr.Fits]) [] t rfl) ?_
    refine Gives.bind (b := []) (gives_pushObj _ none (by simp)) ?_
    refine Gives.bind (b := []) (a := []) (by simpa [assocLoop] using Gives.pure _) ?_
    exact hL.map fun d => Val.ecma d []
  | .arr ((k, p) :: ps) dense, hp, t, v, t', h, fuel + 1, hf => by
    simp only [PVal.den] at h
    rcases h1 : denA (t.add none) ((k, p) :: ps) with _ | ⟨a, t1⟩
    · simp [h1] at h
    rw [h1] at h
    simp only at h
    rcases h2 : denL t1 dense with _ | ⟨d, t2⟩
    · simp [h2] at h
    rw [h2] at h
    simp only at h
    simp only [Option.some.injEq, Prod.mk.injEq] at h
    obtain ⟨rfl, rfl⟩ := h
    rw [← Amf0.setAll_nil]
    simp only [PVal.Fits, FitsA] at hp
    simp only [PVal.wire, pwireA, List.length_cons, List.length_append, List.length_nil] at hf
    have hpos := List.length_pos_iff.mpr (u29_ne (2 * dense.length + 1))
    have hkpos := PStr.bytes_pos k
    obtain ⟨key, t3, x, t4, xs, g1, g2, g3, g4, rfl⟩ := denA_cons h1
    obtain ⟨t0, g5, rfl⟩ := den_add g1
    obtain ⟨f', rfl⟩ : ∃ f', fuel = f' + 1 := ⟨fuel - 1, by omega⟩
    refine gives_marker H _ (m := 9) ?_
    show Gives t (decodeArray (dec H (f' + 1)) (f' + 1)) _ _ _
    unfold decodeArray
    refine Gives.bind (gives_len dense.length hp.2.1) ?_
    simp only [Bool.false_eq_true, if_false, toNat_ofNat_lt _ hp.2.1, pwireA, List.append_assoc]
    have hL := gives_vals H dense hp.2.2 t1 d t2 h2 (f' + 1) (by omega) []
    have hV := gives_val H p hp.1.2.1 (t0.add none) x t4 g3 (f' + 1) (by omega)
    have hA := gives_assoc H ps hp.1.2.2 t4 xs t1 g4 (f' + 1) (by omega) f' (by omega) [(key, x)]
    refine Gives.bind (gives_str k hp.1.1 key t0 g5) ?_
    refine Gives.bind (b := []) (gives_pushObj _ none (by simp)) ?_
    have hloop := Gives.bind hV (f := fun v => decodeString >>= fun key' => assocLoop (dec H (f' + 1)) f' key' (mapSet [] key v)) hA
    have hloop' : Gives (t0.add none) (assocLoop (dec H (f' + 1)) (f' + 1) key []) (p.wire ++ (pwireA ps ++ [1])) (Amf0.setAll [] ((key, x) :: xs)) t1 := by
      simpa [assocLoop, g2, Amf0.setAll, mapSet] using hloop
    have := Gives.bind hloop' (f := fun a => denseLoop (dec H (f' + 1)) dense.length [] >>= fun d => Pure.pure (Val.ecma d a))
      (hL.map fun d => Val.ecma d (Amf0.setAll [] ((key, x) :: xs)))
    simpa using this
  | .obj c vals, hp, t, v, t', h, fuel + 1, hf => by
    simp only [PVal.den] at h
    rcases h1 : c.den t with _ | ⟨ks, t1⟩
    · simp [h1] at h
    rw [h1] at h
    simp only at h
    rcases h2 : denL (t1.add none) vals with _ | ⟨vs, t2⟩
    · simp [h2] at h
    rw [h2] at h
    simp only at h
    split at h
    case isFalse => simp at h
    rename_i hlen
    simp only [Option.some.injEq, Prod.mk.injEq] at h
    obtain ⟨rfl, rfl⟩ := h
    rw [← Amf0.setAll_nil]
    simp only [PVal.Fits] at hp
    simp only [PVal.wire, List.length_cons, List.length_append] at hf
    obtain ⟨hdr, tr, n, e1, e2, e3⟩ := gives_trait c hp.1 ks t1 h1
    refine gives_marker H _ (m := 10) ?_
    show Gives t (decodeObject H (dec H fuel) fuel) _ _ _
    rw [e1, List.append_assoc]
    unfold decodeObject
    refine Gives.bind e2 ?_
    simp only [Bool.false_eq_true, if_false]
    refine e3 _ _ _ _ fun cc p1 p2 p3 => ?_
    refine Gives.bind (b := []) (gives_pushObj _ none (by simp)) ?_
    simp only [p1, p2, p3, Bool.false_eq_true, if_false]
    have hV := gives_props H vals hp.2 (t1.add none) vs t2 h2 fuel (by omega) ks hlen []
    exact (hV.map Val.obj)
theorem gives_vals (H : Handlers) : (ps : List PVal) → FitsL ps → (t : Sofar) → (vs : List Val) → (t' : Sofar) →
    denL t ps = some (vs, t') → (fuel : Nat) → (pwireL ps).length ≤ fuel → (acc : List Val) →
    Gives t (denseLoop (dec H fuel) ps.length acc) (pwireL ps) (acc ++ vs) t'
  | [], _, t, vs, t', h, _, _, acc => by
    simp only [denL, Option.some.injEq, Prod.mk.injEq] at h
    obtain ⟨rfl, rfl⟩ := h
    simpa [denseLoop, pwireL] using Gives.pure (t := t) acc
  | p :: ps, hp, t, vs, t', h, fuel, hf, acc => by
    simp only [denL] at h
    rcases h1 : p.den t with _ | ⟨x, t1⟩
    · simp [h1] at h
    rw [h1] at h
    simp only at h
    rcases h2 : denL t1 ps with _ | ⟨xs, t2⟩
    · simp [h2] at h
    rw [h2] at h
    simp only [Option.some.injEq, Prod.mk.injEq] at h
    obtain ⟨rfl, rfl⟩ := h
    simp only [FitsL] at hp
    simp only [pwireL, List.length_append] at hf
    have := Gives.bind (gives_val H p hp.1 t x t1 h1 fuel (by omega)) (f := fun v => denseLoop (dec H fuel) ps.length (acc ++ [v]))
      (gives_vals H ps hp.2 t1 xs t2 h2 fuel (by omega) (acc ++ [x]))
    simpa [denseLoop, pwireL] using this
theorem gives_assoc (H : Handlers) : (ps : List (PStr × PVal)) → FitsA ps → (t : Sofar) → (vs : List (Bytes × Val)) → (t' : Sofar) →
    denA t ps = some (vs, t') → (fuel : Nat) → (pwireA ps).length ≤ fuel → (n : Nat) → (pwireA ps).length < n →
    (acc : List (Bytes × Val)) →
    Gives t (decodeString >>= fun key => assocLoop (dec H fuel) n key acc) (pwireA ps ++ [1]) (Amf0.setAll acc vs) t'
  | [], _, t, vs, t', h, fuel, _, n, hn, acc => by
    simp only [denA, Option.some.injEq, Prod.mk.injEq] at h
    obtain ⟨rfl, rfl⟩ := h
    obtain ⟨n', rfl⟩ : ∃ n', n = n' + 1 := ⟨n - 1, by omega⟩
    have := Gives.bind (gives_str (t := t) (.lit []) (by simp [PStr.Fits]) [] t rfl)
      (f := fun key => assocLoop (dec H fuel) (n' + 1) key acc) (c := []) (y := acc) (t'' := t) (by simpa [assocLoop] using Gives.pure _)
    simpa [pwireA, PStr.bytes, utf8, u29, Amf0.setAll] using this
  | (k, p) :: ps, hp, t, vs, t', h, fuel, hf, n, hn, acc => by
    obtain ⟨key, t3, x, t4, xs, g1, g2, g3, g4, rfl⟩ := denA_cons h
    simp only [FitsA] at hp
    simp only [pwireA, List.length_append] at hf hn
    have hkpos := PStr.bytes_pos k
    obtain ⟨n', rfl⟩ : ∃ n', n = n' + 1 := ⟨n - 1, by omega⟩
    have hV := gives_val H p hp.2.1 t3 x t4 g3 fuel (by omega)
    have hA := gives_assoc H ps hp.2.2 t4 xs t' g4 fuel (by omega) n' (by omega) (mapSet acc key x)
    have hloop := Gives.bind hV (f := fun v => decodeString >>= fun key' => assocLoop (dec H fuel) n' key' (mapSet acc key v))
      hA
    have hloop' : Gives t3 (assocLoop (dec H fuel) (n' + 1) key acc) (p.wire ++ (pwireA ps ++ [1])) (Amf0.setAll acc ((key, x) :: xs)) t' := by
      simpa [assocLoop, g2, Amf0.setAll] using hloop
    have := Gives.bind (gives_str k hp.1 key t3 g1) (f := fun key => assocLoop (dec H fuel) (n' + 1) key acc) hloop'
    simpa [pwireA] using this
theorem gives_props (H : Handlers) : (ps : List PVal) → FitsL ps → (t : Sofar) → (vs : List Val) → (t' : Sofar) →
    denL t ps = some (vs, t') → (fuel : Nat) → (pwireL ps).length ≤ fuel → (ks : List Bytes) → vs.length = ks.length →
    (acc : List (Bytes × Val)) → Gives t (propVals (dec H fuel) ks acc) (pwireL ps) (Amf0.setAll acc (ks.zip vs)) t'
  | [], _, t, vs, t', h, _, _, ks, hl, acc => by
    simp only [denL, Option.some.injEq, Prod.mk.injEq] at h
    obtain ⟨rfl, rfl⟩ := h
    obtain rfl : ks = [] := List.length_eq_zero_iff.mp hl.symm
    simpa [propVals, pwireL, Amf0.setAll] using Gives.pure (t := t) acc
  | p :: ps, hp, t, vs, t', h, fuel, hf, ks, hl, acc => by
    simp only [denL] at h
    rcases h1 : p.den t with _ | ⟨x, t1⟩
    · simp [h1] at h
    rw [h1] at h
    simp only at h
    rcases h2 : denL t1 ps with _ | ⟨xs, t2⟩
    · simp [h2] at h
    rw [h2] at h
    simp only [Option.some.injEq, Prod.mk.injEq] at h
    obtain ⟨rfl, rfl⟩ := h
    cases ks with
    | nil => simp at hl
    | cons key ks =>
      simp only [FitsL] at hp
      simp only [pwireL, List.length_append] at hf
      have hr := gives_props H ps hp.2 t1 xs t2 h2 fuel (by omega) ks (by simpa using hl) (mapSet acc key x)
      have := Gives.bind (gives_val H p hp.1 t x t1 h1 fuel (by omega)) (f := fun v => propVals (dec H fuel) ks (mapSet acc key v))
        hr
      simpa [propVals, pwireL, Amf0.setAll] using this
end

end Verif.Amf3
