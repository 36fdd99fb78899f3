import Verif.Lemmas.AmfAccept
/-! # What the AMF3 decoder has to accept -/
namespace Verif.Amf3
open Verif.Amf Verif.Spec.Amf3

theorem Holds.same {t : Seen} {s s' : St} (h : Holds t s) (hs : SameTabs s s') : Holds t s' := by
  obtain ⟨h1, h2, h3⟩ := hs
  exact ⟨by rw [h1]; exact h.strs, by rw [h2]; exact h.len, by rw [h2]; exact h.vals, by rw [h2]; exact h.lost,
    by rw [h3]; exact h.classes, by rw [h3]; exact h.plain, h.kinds⟩

/-- With `t` sent, `m` reads exactly `b` and yields `a`; then `t'` has been sent. -/
def Takes {α} (t : Seen) (m : GoM St α) (b : Bytes) (a : α) (t' : Seen) : Prop :=
  ∀ s rest, Holds t s → s.Contig → s.data = b ++ rest →
    ∃ s', m s = (.ok a, s') ∧ s'.data = rest ∧ (s'.lim = s.lim ∧ s'.eofOnEmpty = s.eofOnEmpty) ∧ Holds t' s'

namespace Takes
variable {α β : Type} {t t' t'' : Seen}

theorem bind {m : GoM St α} {f : α → GoM St β} {b c : Bytes} {a : α} {y : β}
    (h : Takes t m b a t') (h' : Takes t' (f a) c y t'') : Takes t (m >>= f) (b ++ c) y t'' := by
  intro s rest hm hc hd
  obtain ⟨s1, h1, h2, h3, h4⟩ := h s (c ++ rest) hm hc (by simpa using hd)
  obtain ⟨s2, g1, g2, g3, g4⟩ := h' s1 rest h4 (by unfold St.Contig; rw [h3.1]; exact hc) h2
  exact ⟨s2, by rw [GoM.bind_apply, h1]; exact g1, g2, ⟨g3.1.trans h3.1, g3.2.trans h3.2⟩, g4⟩

theorem pure (a : α) : Takes t (Pure.pure a) [] a t := fun s _ hm _ hd => ⟨s, rfl, hd, ⟨rfl, rfl⟩, hm⟩

theorem pure_eq {a b : α} (h : a = b) : Takes t (Pure.pure a) [] b t := h ▸ pure a

/-- A step that reads nothing. -/
theorem step {m : GoM St α} {f : α → GoM St β} {c : Bytes} {a : α} {y : β}
    (h : Takes t m [] a t') (h' : Takes t' (f a) c y t'') : Takes t (m >>= f) c y t'' := by
  have := h.bind h'
  rwa [List.nil_append] at this

theorem last {m : GoM St α} {f : α → GoM St β} {b : Bytes} {a : α} {y : β}
    (h : Takes t m b a t') (h' : Takes t' (f a) [] y t'') : Takes t (m >>= f) b y t'' := by
  have := h.bind h'
  rwa [List.append_nil] at this

theorem readByte (b : UInt8) : Takes t Amf.readByte [b] b t := by
  intro s rest hm _ hd
  exact ⟨{ s with data := rest }, Safe.readByte_cons (by simpa using hd), rfl, ⟨rfl, rfl⟩, hm.data _⟩
end Takes

variable {t : Seen}

theorem u29_lt {b n} (h : IsU29 b n) : n < 2 ^ 29 := by
  cases h with
  | one a h => omega
  | two a b h1 h2 => have := a.toNat_lt; omega
  | three a b c h1 h2 h3 => have := a.toNat_lt; have := b.toNat_lt; omega
  | four a b c d h1 h2 h3 => have := a.toNat_lt; have := b.toNat_lt; have := c.toNat_lt; have := d.toNat_lt; omega

theorem isU29_ne {b n} (h : IsU29 b n) : 0 < b.length := by cases h <;> simp

theorem takes_readUint29 {b n} (h : IsU29 b n) : Takes t readUint29 b (UInt32.ofNat n) t := by
  have hlt := u29_lt h
  have eqn : ∀ (x : UInt32), x.toNat = n → x = UInt32.ofNat n := by
    intro x hx
    apply UInt32.toNat_inj.1
    rw [UInt32.toNat_ofNat', hx, Nat.mod_eq_of_lt (by omega)]
  have z : (0 : UInt32).toNat = 0 := rfl
  unfold readUint29
  have ea := fun a => step7 0 a 0 z (by omega)
  have eb := fun a b : UInt8 => step7 _ b _ (ea a) (by omega)
  have ec := fun a b c : UInt8 => step7 _ c _ (eb a b) (by omega)
  cases h with
  | one a h =>
    rw [u29Loop_succ]
    refine (Takes.readByte a).last ?_
    rw [if_pos ((and80 a).2 h)]
    exact .pure_eq (eqn _ (by rw [ea]; omega))
  | two a b h1 h2 =>
    have := a.toNat_lt
    rw [u29Loop_succ]
    refine (Takes.readByte a).bind (c := [b]) ?_
    rw [if_neg (by rw [and80]; omega), u29Loop_succ]
    refine (Takes.readByte b).last ?_
    rw [if_pos ((and80 b).2 h2)]
    exact .pure_eq (eqn _ (by rw [eb]; omega))
  | three a b c h1 h2 h3 =>
    have := a.toNat_lt; have := b.toNat_lt
    rw [u29Loop_succ]
    refine (Takes.readByte a).bind (c := [b, c]) ?_
    rw [if_neg (by rw [and80]; omega), u29Loop_succ]
    refine (Takes.readByte b).bind (c := [c]) ?_
    rw [if_neg (by rw [and80]; omega), u29Loop_succ]
    refine (Takes.readByte c).last ?_
    rw [if_pos ((and80 c).2 h3)]
    exact .pure_eq (eqn _ (by rw [ec]; omega))
  | four a b c d h1 h2 h3 =>
    have := a.toNat_lt; have := b.toNat_lt; have := c.toNat_lt; have hd := d.toNat_lt
    rw [u29Loop_succ]
    refine (Takes.readByte a).bind (c := [b, c, d]) ?_
    rw [if_neg (by rw [and80]; omega), u29Loop_succ]
    refine (Takes.readByte b).bind (c := [c, d]) ?_
    rw [if_neg (by rw [and80]; omega), u29Loop_succ]
    refine (Takes.readByte c).bind (c := [d]) ?_
    rw [if_neg (by rw [and80]; omega)]
    unfold u29Loop
    refine (Takes.readByte d).last ?_
    refine .pure_eq (eqn _ ?_)
    rw [UInt32.toNat_add, UInt32.toNat_shiftLeft, UInt8.toNat_toUInt32, ec]
    simp [Nat.shiftLeft_eq]; omega

theorem takes_decodeUint29 {b n} (h : IsU29 b n) : Takes t decodeUint29 b (decide (n % 2 = 0), UInt32.ofNat (n / 2)) t := by
  have hlt := u29_lt h
  unfold decodeUint29
  refine (takes_readUint29 h).last ?_
  have hn : (UInt32.ofNat n).toNat = n := by rw [UInt32.toNat_ofNat', Nat.mod_eq_of_lt (by omega)]
  have e1 : UInt32.ofNat n >>> 1 = UInt32.ofNat (n / 2) := by
    apply UInt32.toNat_inj.1
    rw [UInt32.toNat_shiftRight, hn, UInt32.toNat_ofNat' (n := n / 2), Nat.mod_eq_of_lt (show n / 2 < 2 ^ 32 by omega)]
    exact Nat.shiftRight_eq_div_pow _ 1
  have e2 : (UInt32.ofNat n &&& 1 == 0) = decide (n % 2 = 0) := by
    rw [Bool.eq_iff_iff, beq_iff_eq, decide_eq_true_iff, and1_toNat, hn]
  rw [e1, e2]
  exact .pure _

theorem takes_len {b n} (h : IsU29 b (2 * n + 1)) : Takes t decodeUint29 b (false, UInt32.ofNat n) t := by
  have := takes_decodeUint29 (t := t) h
  rwa [show decide ((2 * n + 1) % 2 = 0) = false by rw [decide_eq_false_iff_not]; omega, show (2 * n + 1) / 2 = n by omega] at this

theorem takes_refHdr {b n} (h : IsU29 b (2 * n)) : Takes t decodeUint29 b (true, UInt32.ofNat n) t := by
  have := takes_decodeUint29 (t := t) h
  rwa [show decide ((2 * n) % 2 = 0) = true by rw [decide_eq_true_iff]; omega, show (2 * n) / 2 = n by omega] at this

theorem takes_readBytes (b : Bytes) (hb : b ≠ []) : Takes t (readBytes b.length) b b t := by
  intro s rest hm hc hd
  obtain ⟨s', h1, h2, h3, h4, h5⟩ := readBytes_run b hb s rest hc hd
  exact ⟨s', h1, h2, ⟨h4, h3⟩, hm.same h5⟩

theorem takes_readPadded (b : Bytes) (hb : b ≠ []) : Takes t (readPadded b.length) b b t := by
  intro s rest hm hc hd
  obtain ⟨s', h1, h2, h3, h4, h5⟩ := readPadded_run b hb s rest hc hd
  exact ⟨s', h1, h2, ⟨h4, h3⟩, hm.same h5⟩

theorem takes_readF64 (f : UInt64) : Takes t readF64 (be64 f) f t := by
  intro s rest hm hc hd
  obtain ⟨s', h1, h2, h3, h4⟩ := (codec_readF64 (rj := false) f).parse s rest hc hd (by simp)
  have hk := keep_readF64 frame_sameTabs s
  rw [h1] at hk
  exact ⟨s', h1, h2, ⟨h4, h3⟩, hm.same hk⟩

theorem takes_pushObj (v : Val) (o : Option Val) (ho : Stands v o) : Takes t (pushObj v) [] () (t.add o) := by
  intro s rest hm hc hd
  obtain ⟨b, t', h1, ⟨rfl, rfl⟩, h3, _⟩ := sound_pushObj v o ho s () { s with objTab := s.objTab ++ [v] } hm rfl
  exact ⟨_, rfl, hd, ⟨rfl, rfl⟩, h3⟩

theorem ofNat_toNat {b n} (h : IsU29 b (2 * n + 1)) : (UInt32.ofNat n).toNat = n := toNat_ofNat_lt n (by have := u29_lt h; omega)

theorem takes_string {b x t'} (h : ReadStr t b x t') : Takes t decodeString b x t' := by
  unfold decodeString
  cases h with
  | empty h =>
    refine (takes_len (n := 0) h).last ?_
    exact .pure _
  | @full u x h hx =>
    refine (takes_len h).bind ?_
    have h0 := ofNat_ne_zero x.length (by have := u29_lt h; omega) (by simpa using hx)
    simp only [Bool.false_eq_true, if_false, h0, ofNat_toNat h]
    refine (takes_readBytes x hx).last ?_
    intro s rest hm hc hd
    exact ⟨{ s with strTab := s.strTab ++ [x] }, rfl, hd, ⟨rfl, rfl⟩, ⟨by simp [hm.strs], hm.len, hm.vals, hm.lost, hm.classes, hm.plain, hm.kinds⟩⟩
  | @ref u i x h hx =>
    refine (takes_refHdr h).last ?_
    simp only [if_true, toNat_ofNat_lt i (by have := u29_lt h; omega)]
    intro s rest hm hc hd
    refine ⟨s, ?_, hd, ⟨rfl, rfl⟩, hm⟩
    have hg : s.strTab[i]? = some x := by rw [hm.strs]; exact hx
    rw [GoM.bind_apply, GoM.get_apply]
    simp only
    rw [if_neg (by have := (List.getElem?_eq_some_iff.1 hg).1; omega)]
    simp [goIndex, hg]

theorem takes_names {b ks t'} (h : ReadNames t b ks t') : ∀ acc, Takes t (propNames ks.length acc) b (acc ++ ks) t' := by
  induction ks generalizing t b with
  | nil =>
    intro acc
    cases h
    rw [List.append_nil]
    exact .pure _
  | cons k ks ih =>
    intro acc
    cases h with
    | cons h1 h2 =>
      refine (takes_string h1).bind ?_
      have := ih h2 (acc ++ [k])
      rwa [List.append_assoc] at this

theorem class_hdr {b flags ks t'} (h : ReadClass t b flags ks t') (hf : flags = false) : ∃ u c n, b = u ++ c ∧ 0 < u.length ∧
    Takes t decodeUint29 u (false, n) t ∧ ∀ (f : Trait → GoM St Val) e y t'',
      (∀ tr : Trait, tr.properties = ks → tr.externalizable = false → tr.dynamic = false → Takes t' (f tr) e y t'') →
      Takes t (decodeTrait n >>= f) (c ++ e) y t'' := by
  cases h with
  | @ref u i flags ks h hc =>
    have hlt := u29_lt h
    refine ⟨b, [], UInt32.ofNat (2 * i), (List.append_nil b).symm, isU29_ne h, takes_len (by rw [← Nat.mul_assoc]; exact h), ?_⟩
    intro f e y t'' hf' s rest hm hcg hd
    have hn : (UInt32.ofNat (2 * i)).toNat = 2 * i := toNat_ofNat_lt _ (by omega)
    have h1 : (UInt32.ofNat (2 * i) >>> 1).toNat = i := by
      rw [UInt32.toNat_shiftRight, hn]
      show (2 * i) >>> 1 = _
      rw [Nat.shiftRight_eq_div_pow]; omega
    have hcl := congrArg (·[i]?) hm.classes
    simp only [List.getElem?_map, hc, Option.map_some] at hcl
    rcases hx : s.traits[i]? with _ | tr
    · rw [hx] at hcl; simp at hcl
    rw [hx] at hcl
    simp only [Option.map_some, Option.some.injEq] at hcl
    have hr : decodeTrait (UInt32.ofNat (2 * i)) s = (.ok tr, s) := by
      unfold decodeTrait
      rw [if_pos (by rw [and1_toNat, hn]; omega), GoM.bind_apply, GoM.get_apply]
      simp only [h1]
      rw [if_neg (by have := (List.getElem?_eq_some_iff.1 hx).1; omega)]
      simp [goIndex, hx]
    obtain ⟨p1, p2⟩ := hm.plain tr (List.mem_of_getElem? hx)
    obtain ⟨s', g1, g2⟩ := hf' tr hcl p1 p2 s rest hm hcg hd
    exact ⟨s', by rw [GoM.bind_apply, hr]; exact g1, g2⟩
  | @new u f b name t1 c ks t2 h hf4 h1 h2 =>
    obtain rfl : f = 0 := by simpa using hf
    have hlt := u29_lt h
    have hn : (UInt32.ofNat (8 * ks.length + 1)).toNat = 8 * ks.length + 1 := toNat_ofNat_lt _ (by omega)
    refine ⟨u, b ++ c, UInt32.ofNat (8 * ks.length + 1), rfl, isU29_ne h,
      takes_len (by rw [show 2 * (8 * ks.length + 1) + 1 = 16 * ks.length + 4 * 0 + 3 by omega]; exact h), ?_⟩
    intro g e y t'' hg
    refine Takes.bind (a := ⟨name, false, false, ks⟩) ?_ (hg _ rfl rfl rfl)
    unfold decodeTrait
    rw [if_neg (by rw [and1_toNat, hn]; omega)]
    have h3 : (UInt32.ofNat (8 * ks.length + 1) >>> 3).toNat = ks.length := by
      rw [UInt32.toNat_shiftRight, hn]
      show (8 * ks.length + 1) >>> 3 = _
      rw [Nat.shiftRight_eq_div_pow]; omega
    rw [h3]
    simp only [and_ne_one _ 2 rfl, and_ne_one _ 4 rfl]
    refine (takes_string h1).bind ?_
    refine (takes_names h2 []).last ?_
    intro s rest hm hc hd
    refine ⟨{ s with traits := s.traits ++ [⟨name, false, false, ks⟩] }, rfl, hd, ⟨rfl, rfl⟩, ⟨hm.strs, hm.len, hm.vals, hm.lost, ?_, ?_, hm.kinds⟩⟩
    · simp [hm.classes]
    · intro k hk
      rcases List.mem_append.1 hk with hk | hk
      · exact hm.plain k hk
      · rw [List.mem_singleton] at hk
        rw [hk]
        exact ⟨rfl, rfl⟩

variable {d : GoM St Val} {F : Nat}

/-- The decoder of the parts takes everything shorter than `F`. -/
def Reads (F : Nat) (d : GoM St Val) : Prop := ∀ t b v t', b.length < F → Read true t b v t' → Takes t d b v t'

theorem takes_dense (hd : Reads F d) {b vs t'} (h : ReadAll true t b vs t') (hb : b.length < F) :
    ∀ acc, Takes t (denseLoop d vs.length acc) b (acc ++ vs) t' := by
  induction vs generalizing t b with
  | nil =>
    intro acc
    cases h
    rw [List.append_nil]
    exact .pure _
  | cons v vs ih =>
    intro acc
    cases h with
    | cons h1 h2 =>
      rw [List.length_append] at hb
      refine (hd _ _ _ _ (by omega) h1).bind ?_
      have := ih h2 (by omega) (acc ++ [v])
      rwa [List.append_assoc] at this

theorem takes_props (hd : Reads F d) (ks : List Bytes) : ∀ {t b vs t'} (acc : List (Bytes × Val)), ReadAll true t b vs t' → b.length < F →
    vs.length = ks.length → Takes t (propVals d ks acc) b (Amf0.setAll acc (ks.zip vs)) t' := by
  induction ks with
  | nil =>
    intro t b vs t' acc h hb hl
    obtain rfl : vs = [] := List.length_eq_zero_iff.1 hl
    cases h
    exact .pure _
  | cons k ks ih =>
    intro t b vs t' acc h hb hl
    match vs, hl with
    | v :: vs, hl =>
      cases h with
      | cons h1 h2 =>
        rw [List.length_append] at hb
        refine (hd _ _ _ _ (by omega) h1).bind ?_
        exact ih (mapSet acc k v) h2 (by omega) (by simpa using hl)

theorem readStr_pos {b k t'} (h : ReadStr t b k t') : 0 < b.length := by
  cases h with
  | empty h => exact isU29_ne h
  | full h _ => have := isU29_ne h; rw [List.length_append]; omega
  | ref h _ => exact isU29_ne h

/-- After the first name has been read. -/
theorem takes_assoc (hd : Reads F d) (l : List (Bytes × Val)) : ∀ {t b t'} (acc : List (Bytes × Val)), ReadMembers true t b l t' → b.length < F →
    ∃ b0 key t1 c, b = b0 ++ c ∧ ReadStr t b0 key t1 ∧ ∀ n, c.length < n → Takes t1 (assocLoop d n key acc) c (Amf0.setAll acc l) t' := by
  induction l with
  | nil =>
    intro t b t' acc h hb
    cases h with
    | done h =>
      refine ⟨b, [], t', [], (List.append_nil b).symm, h, fun n hn => ?_⟩
      obtain ⟨n, rfl⟩ : ∃ k, n = k + 1 := ⟨n - 1, by omega⟩
      exact .pure _
  | cons e l ih =>
    intro t b t' acc h hb
    cases h with
    | @more _ b0 k t1 c v t2 d' _ _ h1 h2 h3 h4 =>
      rw [List.length_append, List.length_append] at hb
      refine ⟨b0, k, t1, c ++ d', rfl, h1, fun n hn => ?_⟩
      obtain ⟨b1, key, t3, e, rfl, g1, g2⟩ := ih (mapSet acc k v) h4 (by omega)
      rw [List.length_append, List.length_append] at hn
      rw [List.length_append] at hb
      obtain ⟨n, rfl⟩ : ∃ k, n = k + 1 := ⟨n - 1, by omega⟩
      rw [assocLoop, if_neg h2]
      refine (hd _ _ _ _ (by omega) h3).bind ?_
      refine (takes_string g1).bind ?_
      have := readStr_pos g1
      exact g2 n (by omega)

theorem takes_objRef {i : Nat} {v : Val} (hv : t.vals[i]? = some (some v)) : Takes t (objRef i) [] v t := by
  intro s rest hm hc hd
  have hg := hm.vals i v hv
  refine ⟨s, ?_, hd, ⟨rfl, rfl⟩, hm⟩
  unfold objRef
  rw [GoM.bind_apply, GoM.get_apply]
  simp only
  rw [if_neg (by have := (List.getElem?_eq_some_iff.1 hg).1; omega)]
  simp [goIndex, hg]

theorem takes_again (H : Handlers) (fuel : Nat) {m : UInt8} {u i v} (h : IsU29 u (2 * i)) (hv : t.vals[i]? = some (some v)) (hk : KindOk m v = true) :
    Takes t (branch H fuel m) u v t := by
  have hi : (UInt32.ofNat i).toNat = i := toNat_ofNat_lt i (by have := u29_lt h; omega)
  cases v with
  | time x =>
    have : m = 8 := by simpa [KindOk] using hk
    subst this
    show Takes t decodeDate _ _ _
    refine (takes_refHdr h).last ?_
    simp only [if_true, hi]
    exact (takes_objRef hv).step (.pure _)
  | str x =>
    have : m = 7 ∨ m = 11 := by simpa [KindOk] using hk
    have hx : Takes t decodeXmlDoc u (.str x) t := by
      refine (takes_refHdr h).last ?_
      simp only [if_true, hi]
      exact (takes_objRef hv).step (.pure _)
    rcases this with rfl | rfl <;> exact hx
  | bytes x =>
    have : m = 12 := by simpa [KindOk] using hk
    subst this
    show Takes t decodeByteArray _ _ _
    refine (takes_refHdr h).last ?_
    simp only [if_true, hi]
    exact (takes_objRef hv).step (.pure _)
  | _ => simp [KindOk] at hk

theorem takes_blob (H : Handlers) (fuel : Nat) {m : UInt8} {u x v} (h : IsU29 u (2 * x.length + 1)) (hx : x ≠ []) (hb : Blob m x v) :
    Takes t (branch H fuel m) (u ++ x) v (t.add (some v)) := by
  have h0 := ofNat_ne_zero x.length (by have := u29_lt h; omega) (by simpa using hx)
  have hX : Takes t decodeXmlDoc (u ++ x) (.str x) (t.add (some (.str x))) := by
    refine (takes_len h).bind ?_
    simp only [Bool.false_eq_true, if_false, h0, ofNat_toNat h]
    exact (takes_readPadded x hx).last ((takes_pushObj _ _ (.inl ⟨rfl, by simp⟩)).step (.pure _))
  have hY : Takes t decodeByteArray (u ++ x) (.bytes x) (t.add (some (.bytes x))) := by
    refine (takes_len h).bind ?_
    simp only [Bool.false_eq_true, if_false, h0, ofNat_toNat h]
    exact (takes_readPadded x hx).last ((takes_pushObj _ _ (.inl ⟨rfl, by simp⟩)).step (.pure _))
  cases hb with
  | xmlDoc => exact hX
  | xml => exact hX
  | bytes => exact hY

theorem takes_date {u k f sec} (h : IsU29 u (2 * k + 1)) (hs : Seconds f sec) (hp : Plain f) :
    Takes t decodeDate (u ++ be64 f) (.time sec) (t.add (some (.time sec))) := by
  have e : F64.toInt64 (F64.div1000 f) = sec := by
    obtain ⟨n, h1, h2, h3⟩ := hp
    have a := hs n h1 h2 h3
    have b := seconds_ok f n h1 h2 h3
    omega
  unfold decodeDate
  refine (takes_len h).bind ?_
  simp only [Bool.false_eq_true, if_false]
  have h1 : Takes t (mapErr .other readF64) (be64 f) f t := by
    intro s rest hm hc hd
    obtain ⟨s', g1, g2⟩ := takes_readF64 (t := t) f s rest hm hc hd
    exact ⟨s', by simp only [mapErr, g1], g2⟩
  refine h1.last ?_
  rw [e]
  exact (takes_pushObj _ _ (.inl ⟨rfl, by simp⟩)).step (.pure _)

theorem readStr_unadd {o : Option Val} {b k t1} (h : ReadStr (t.add o) b k t1) : ∃ t', ReadStr t b k t' ∧ t1 = t'.add o := by
  cases h with
  | empty h => exact ⟨t, .empty h, rfl⟩
  | full h h' => exact ⟨{ t with strs := t.strs ++ [k] }, .full h h', rfl⟩
  | ref h h' => exact ⟨t, .ref h h', rfl⟩

theorem takes_dec (H : Handlers) (fuel : Nat) : Reads fuel (dec H fuel) := by
  induction fuel with
  | zero => intro t b v t' hb; omega
  | succ fuel ih =>
    intro t b v t' hb h
    rw [dec_succ]
    have mk : ∀ {m c}, Takes t (branch H fuel m) c v t' → Takes t (readByte >>= branch H fuel) (m :: c) v t' :=
      fun {m c} hh => Takes.bind (b := [m]) (Takes.readByte m) hh
    cases h with
    | undefined => exact mk (m := 0) (.pure _)
    | null => exact mk (m := 1) (.pure _)
    | no => exact mk (m := 2) (.pure _)
    | yes => exact mk (m := 3) (.pure _)
    | @int _ u n hu hn =>
      refine mk (m := 4) ((takes_readUint29 hu).last ?_)
      have hlt := u29_lt hu
      rw [show (UInt32.ofNat n).toNat = n by rw [UInt32.toNat_ofNat', Nat.mod_eq_of_lt (by omega)]]
      exact .pure _
    | double f => exact mk (m := 5) ((takes_readF64 f).last (.pure _))
    | str hx => exact mk (m := 6) ((takes_string hx).last (.pure _))
    | blob hu hx hv => exact mk (takes_blob H fuel hu hx hv)
    | empty h => cases h
    | cut h => cases h
    | date hu hs hp => exact mk (m := 8) (takes_date hu hs (hp rfl))
    | again hu hv hk => exact mk (takes_again H fuel hu hv hk)
    | lost h => cases h
    | stray h => cases h
    | @arr _ u b named t1 c xs _ hu hm hx =>
      rw [List.length_cons, List.length_append, List.length_append] at hb
      refine mk (m := 9) ?_
      show Takes t (decodeArray (dec H fuel) fuel) _ _ _
      refine (takes_len hu).bind ?_
      simp only [Bool.false_eq_true, if_false, ofNat_toNat hu]
      obtain ⟨b0, key, t2, e, rfl, g1, g2⟩ := takes_assoc ih named [] hm (by omega)
      obtain ⟨t3, g3, rfl⟩ := readStr_unadd g1
      rw [List.length_append] at hb
      rw [List.append_assoc]
      refine (takes_string g3).bind ?_
      refine (takes_pushObj _ none (.inr ⟨rfl, .inr rfl⟩)).step ?_
      refine (g2 fuel (by omega)).bind ?_
      refine (takes_dense ih hx (by omega) []).last ?_
      rw [Amf0.setAll_nil]
      exact .pure _
    | @obj _ b flags ks t1 c vs _ hcl hf hv hlen =>
      rw [List.length_cons, List.length_append] at hb
      obtain ⟨u, e, n, rfl, hpos, g1, g2⟩ := class_hdr hcl (hf rfl)
      refine mk (m := 10) ?_
      show Takes t (decodeObject H (dec H fuel) fuel) _ _ _
      rw [List.append_assoc]
      refine g1.bind ?_
      simp only [Bool.false_eq_true, if_false]
      refine g2 _ _ _ _ fun tr e1 e2 e3 => ?_
      refine (takes_pushObj _ none (.inr ⟨rfl, .inl rfl⟩)).step ?_
      rw [e2, e3, e1]
      simp only [Bool.false_eq_true, if_false]
      refine (takes_props ih ks [] hv (by omega) hlen).last ?_
      rw [Amf0.setAll_nil]
      exact .pure _

theorem takes_decode (H : Handlers) {b v t'} (h : Read true t b v t') : Takes t (decode H) b v t' := by
  intro s rest hm hc hd
  exact takes_dec H (s.data.length + 1) t b v t' (by rw [hd, List.length_append]; omega) h s rest hm hc hd

end Verif.Amf3
