import Verif.Lemmas.AmfFrame
/-! # Reference tables of the AMF3 decoder -/
namespace Verif.Amf3
open Verif.Amf Verif.Spec.Amf3

/-- All three tables are unchanged. -/
def SameTabs (s s' : St) : Prop := s'.strTab = s.strTab ∧ s'.objTab = s.objTab ∧ s'.traits = s.traits

theorem frame_sameTabs : Frame SameTabs where
  refl _ := ⟨rfl, rfl, rfl⟩
  trans _ _ _ h1 h2 := ⟨h2.1.trans h1.1, h2.2.1.trans h1.2.1, h2.2.2.trans h1.2.2⟩
  data _ _ := ⟨rfl, rfl, rfl⟩

theorem u29_parts (n : Nat) (h : n < 2 ^ 29) : (UInt32.ofNat n &&& 1 == 0) = decide (n % 2 = 0) ∧
    (UInt32.ofNat n >>> 1) = UInt32.ofNat (n / 2) := by
  have h1 : (UInt32.ofNat n).toNat = n := by
    rw [UInt32.toNat_ofNat', Nat.mod_eq_of_lt]; omega
  constructor
  · have : (UInt32.ofNat n &&& 1 = 0) ↔ n % 2 = 0 := by
      constructor
      · intro h
        have := congrArg UInt32.toNat h
        rw [UInt32.toNat_and, h1] at this
        simpa [Nat.and_one_is_mod] using this
      · intro h
        apply UInt32.toNat_inj.mp
        rw [UInt32.toNat_and, h1]
        simpa [Nat.and_one_is_mod] using h
    rw [Bool.eq_iff_iff]
    simp only [beq_iff_eq, decide_eq_true_eq]
    exact this
  · apply UInt32.toNat_inj.mp
    rw [UInt32.toNat_shiftRight, h1, UInt32.toNat_ofNat', Nat.mod_eq_of_lt (show n / 2 < 2 ^ 32 by omega)]
    simp [Nat.shiftRight_eq_div_pow]

/-- Reading any U29 header. -/
theorem decodeUint29_run (n : Nat) (h : n < 2 ^ 29) (s : St) (rest : Bytes) (hc : s.Contig) (hd : s.data = u29 n ++ rest) :
    ∃ s', decodeUint29 s = (.ok (decide (n % 2 = 0), UInt32.ofNat (n / 2)), s') ∧ s'.data = rest ∧
      s'.eofOnEmpty = s.eofOnEmpty ∧ s'.lim = s.lim ∧ SameTabs s s' := by
  obtain ⟨s', h1, h2, h3, h4⟩ := (codec_readUint29 (rj := false) n h).parse s rest hc hd (by simp)
  have hk := keep_u29Loop frame_sameTabs 3 0 s
  have h1' : u29Loop 3 0 s = (.ok (UInt32.ofNat n), s') := h1
  rw [h1'] at hk
  obtain ⟨p1, p2⟩ := u29_parts n h
  refine ⟨s', ?_, h2, h3, h4, hk⟩
  unfold decodeUint29
  rw [GoM.bind_apply, h1]
  generalize UInt32.ofNat n = u at *
  simp [p1, p2]

theorem toNat_ofNat_lt (n : Nat) (h : n < 2 ^ 28) : (UInt32.ofNat n).toNat = n := by
  rw [UInt32.toNat_ofNat', Nat.mod_eq_of_lt]; omega

theorem readBytes_run (b : Bytes) (hb : b ≠ []) (s : St) (rest : Bytes) (hc : s.Contig) (hd : s.data = b ++ rest) :
    ∃ s', readBytes b.length s = (.ok b, s') ∧ s'.data = rest ∧
      s'.eofOnEmpty = s.eofOnEmpty ∧ s'.lim = s.lim ∧ SameTabs s s' := by
  obtain ⟨s', h1, h2, h3, h4⟩ := (Codec.readBytes (r := false) b).parse s rest hc hd (by simp [hb])
  have hk := Keep.readBytes frame_sameTabs b.length s
  rw [h1] at hk
  exact ⟨s', h1, h2, h3, h4, hk⟩

theorem readPadded_run (b : Bytes) (hb : b ≠ []) (s : St) (rest : Bytes) (hc : s.Contig) (hd : s.data = b ++ rest) :
    ∃ s', readPadded b.length s = (.ok b, s') ∧ s'.data = rest ∧
      s'.eofOnEmpty = s.eofOnEmpty ∧ s'.lim = s.lim ∧ SameTabs s s' := by
  obtain ⟨s', h1, h2, h3, h4⟩ := (codec_readPadded b hb).parse s rest hc hd (by simp)
  have hk := keep_readPadded frame_sameTabs b.length s
  rw [h1] at hk
  exact ⟨s', h1, h2, h3, h4, hk⟩

theorem ofNat_ne_zero (n : Nat) (h : n < 2 ^ 28) (h0 : n ≠ 0) : UInt32.ofNat n ≠ 0 := by
  intro he
  have := congrArg UInt32.toNat he
  rw [toNat_ofNat_lt n h] at this
  exact h0 this

/-- A string sent in full is appended to the table unless empty. -/
theorem decodeString_lit (x : Bytes) (hx : x.length < 2 ^ 28) (s : St) (rest : Bytes) (hc : s.Contig)
    (hd : s.data = utf8 x ++ rest) :
    ∃ s', decodeString s = (.ok x, s') ∧ s'.data = rest ∧ s'.eofOnEmpty = s.eofOnEmpty ∧ s'.lim = s.lim ∧
      s'.strTab = if x = [] then s.strTab else s.strTab ++ [x] := by
  obtain ⟨s1, h1, h2, h3, h4, h5⟩ := decodeUint29_run (2 * x.length + 1) (by omega) s (x ++ rest) hc (by simpa [utf8] using hd)
  have e1 : (2 * x.length + 1) % 2 = 1 := by omega
  have e2 : (2 * x.length + 1) / 2 = x.length := by omega
  unfold decodeString
  rw [GoM.bind_apply, h1]
  simp only [e1, e2]
  by_cases hxe : x = []
  · subst hxe
    exact ⟨s1, by simp, by simpa using h2, h3, h4, by simp [h5.1]⟩
  · have h0 := ofNat_ne_zero x.length hx (by simpa using hxe)
    obtain ⟨s2, g1, g2, g3, g4, g5⟩ := readBytes_run x hxe s1 rest (by unfold St.Contig; rw [h4]; exact hc) h2
    refine ⟨{ s2 with strTab := s2.strTab ++ [x] }, ?_, g2, g3.trans h3, g4.trans h4, by simp [hxe, g5.1, h5.1]⟩
    simp only [h0, if_false, toNat_ofNat_lt _ hx]
    simp [GoM.bind_apply, g1]

/-- A string sent as a reference is looked up. -/
theorem decodeString_ref (i : Nat) (hi : i < 2 ^ 28) (x : Bytes) (s : St) (rest : Bytes) (hc : s.Contig)
    (hd : s.data = u29 (2 * i) ++ rest) (hx : s.strTab[i]? = some x) :
    ∃ s', decodeString s = (.ok x, s') ∧ s'.data = rest ∧ s'.eofOnEmpty = s.eofOnEmpty ∧ s'.lim = s.lim ∧
      s'.strTab = s.strTab := by
  obtain ⟨s1, h1, h2, h3, h4, h5⟩ := decodeUint29_run (2 * i) (by omega) s rest hc hd
  have e1 : (2 * i) % 2 = 0 := by omega
  have e2 : (2 * i) / 2 = i := by omega
  have hlt : i < s1.strTab.length := by rw [h5.1]; exact (List.getElem?_eq_some_iff.mp hx).1
  have hg : goIndex s1.strTab (i : Int) = .ok x := by
    rw [h5.1]; simp [goIndex, hx]
  unfold decodeString
  rw [GoM.bind_apply, h1]
  refine ⟨s1, ?_, h2, h3, h4, h5.1⟩
  simp only [e1, e2, decide_true, if_true, GoM.bind_apply, GoM.get_apply, toNat_ofNat_lt _ hi]
  rw [if_neg (by omega)]
  simp [hg]

/-- A sequence of string values, in full or by reference, is decoded to the strings it denotes. -/
theorem sent_batch (H : Handlers) (items : List Sent) (hf : ∀ i ∈ items, i.Fits) (tab : List Bytes) (out : List Bytes)
    (ho : denote tab items = some out) (fuel : Nat) (hfu : items.length < fuel) (ret : List Val) (s : St) (hc : s.Contig)
    (ht : s.strTab = tab) (hd : s.data = items.flatMap Sent.bytes) :
    ∃ s', batchLoop (decode H) fuel ret s = (.ok (ret ++ out.map Val.str, none), s') := by
  induction items generalizing tab out fuel ret s with
  | nil =>
    obtain ⟨f, rfl⟩ : ∃ f, fuel = f + 1 := ⟨fuel - 1, by simp at hfu; omega⟩
    obtain ⟨s', he⟩ := (valCodec H).eof s (by simpa using hd)
    simp [denote] at ho
    exact ⟨s', by simp [batchLoop, he, ← ho]⟩
  | cons i r ih =>
    obtain ⟨f, rfl⟩ : ∃ f, fuel = f + 1 := ⟨fuel - 1, by simp at hfu; omega⟩
    have hrest : ∃ x out' tab' s1, out = x :: out' ∧ denote tab' r = some out' ∧ decode H s = (.ok (.str x), s1) ∧
        s1.data = r.flatMap Sent.bytes ∧ s1.lim = s.lim ∧ s1.strTab = tab' := by
      have hdec : ∀ body x s1, s.data = 6 :: body → decodeString { s with data := body } = (.ok x, s1) →
          decode H s = (.ok (.str x), s1) := by
        intro body x s1 hb hs1
        show dec H (s.data.length + 1) s = _
        rw [dec_succ, GoM.bind_apply, Safe.readByte_cons hb]
        show (decodeString >>= fun s => pure (Val.str s)) _ = _
        rw [GoM.bind_apply, hs1]
        rfl
      cases i with
      | lit x =>
        have hfx : x.length < 2 ^ 28 := hf (.lit x) (by simp)
        simp only [denote, Option.map_eq_some_iff] at ho
        obtain ⟨out', ho1, ho2⟩ := ho
        have hb : s.data = 6 :: (utf8 x ++ r.flatMap Sent.bytes) := by simpa [Sent.bytes] using hd
        obtain ⟨s1, h1, h2, h3, h4, h5⟩ := decodeString_lit x hfx { s with data := utf8 x ++ r.flatMap Sent.bytes }
          (r.flatMap Sent.bytes) hc rfl
        refine ⟨x, out', _, s1, ho2.symm, ho1, hdec _ x s1 hb h1, h2, h4, ?_⟩
        rw [h5]
        simp [ht]
      | ref k =>
        have hfk : k < 2 ^ 28 := hf (.ref k) (by simp)
        simp only [denote] at ho
        cases htk : tab[k]? with
        | none => rw [htk] at ho; simp at ho
        | some x =>
          rw [htk] at ho
          simp only [Option.map_eq_some_iff] at ho
          obtain ⟨out', ho1, ho2⟩ := ho
          have hb : s.data = 6 :: (u29 (2 * k) ++ r.flatMap Sent.bytes) := by simpa [Sent.bytes] using hd
          obtain ⟨s1, h1, h2, h3, h4, h5⟩ := decodeString_ref k hfk x { s with data := u29 (2 * k) ++ r.flatMap Sent.bytes }
            (r.flatMap Sent.bytes) hc rfl (by simpa [ht] using htk)
          exact ⟨x, out', tab, s1, ho2.symm, ho1, hdec _ x s1 hb h1, h2, h4, by rw [h5]; simpa using ht⟩
    obtain ⟨x, out', tab', s1, ho, ho', h1, h2, h3, h4⟩ := hrest
    obtain ⟨s', h5⟩ := ih (fun j hj => hf j (by simp [hj])) tab' out' ho' f (by simp at hfu; omega) (ret ++ [.str x]) s1
      (by unfold St.Contig; rw [h3]; exact hc) h4 h2
    exact ⟨s', by simp [batchLoop, h1, h5, ho]⟩

/-- A byte array or XML document sent in full enters the object table. -/
theorem decodeBlob_lit (m : UInt8) (hm : m = 7 ∨ m = 11 ∨ m = 12) (H : Handlers) (b : Bytes) (hb : b ≠ [])
    (hl : b.length < 2 ^ 28) (s : St) (rest : Bytes) (hc : s.Contig)
    (hd : s.data = m :: u29 (2 * b.length + 1) ++ b ++ rest) :
    ∃ s', decode H s = (.ok (if m = 12 then .bytes b else .str b), s') ∧ s'.data = rest ∧
      s'.objTab = s.objTab ++ [if m = 12 then .bytes b else .str b] := by
  obtain ⟨s1, h1, h2, h3, h4, h5⟩ := decodeUint29_run (2 * b.length + 1) (by omega)
    { s with data := u29 (2 * b.length + 1) ++ (b ++ rest) } (b ++ rest) hc rfl
  have e1 : (2 * b.length + 1) % 2 = 1 := by omega
  have e2 : (2 * b.length + 1) / 2 = b.length := by omega
  simp only [e1, e2] at h1
  have h0 := ofNat_ne_zero b.length hl (by simpa using hb)
  obtain ⟨s2, g1, g2, g3, g4, g5⟩ := readPadded_run b hb s1 rest (by unfold St.Contig; rw [h4]; exact hc) h2
  have hobj : s2.objTab = s.objTab := by rw [g5.2.1, h5.2.1]
  have hx : decodeXmlDoc { s with data := u29 (2 * b.length + 1) ++ (b ++ rest) } =
      (.ok (.str b), { s2 with objTab := s2.objTab ++ [.str b] }) := by
    unfold decodeXmlDoc
    rw [GoM.bind_apply, h1]
    simp only [h0, if_false, toNat_ofNat_lt _ hl]
    simp [pushObj, GoM.bind_apply, g1]
  have hy : decodeByteArray { s with data := u29 (2 * b.length + 1) ++ (b ++ rest) } =
      (.ok (.bytes b), { s2 with objTab := s2.objTab ++ [.bytes b] }) := by
    unfold decodeByteArray
    rw [GoM.bind_apply, h1]
    simp only [h0, if_false, toNat_ofNat_lt _ hl]
    simp [pushObj, GoM.bind_apply, g1]
  have hdec : decode H s = branch H s.data.length m { s with data := u29 (2 * b.length + 1) ++ (b ++ rest) } := by
    show dec H (s.data.length + 1) s = _
    rw [dec_succ, GoM.bind_apply, Safe.readByte_cons (x := m) (t := u29 (2 * b.length + 1) ++ (b ++ rest)) (by simpa using hd)]
  rw [hdec]
  rcases hm with rfl | rfl | rfl
  · exact ⟨_, hx, g2, by simp [hobj]⟩
  · exact ⟨_, hx, g2, by simp [hobj]⟩
  · exact ⟨_, hy, g2, by simp [hobj]⟩

/-- A date sent in full enters the object table. -/
theorem decodeDate_lit (H : Handlers) (f : UInt64) (s : St) (rest : Bytes) (hc : s.Contig)
    (hd : s.data = 8 :: u29 1 ++ be64 f ++ rest) :
    ∃ s', decode H s = (.ok (.time (F64.toInt64 (F64.div1000 f))), s') ∧ s'.data = rest ∧
      s'.objTab = s.objTab ++ [.time (F64.toInt64 (F64.div1000 f))] := by
  obtain ⟨s1, h1, h2, h3, h4, h5⟩ := decodeUint29_run 1 (by omega)
    { s with data := u29 1 ++ (be64 f ++ rest) } (be64 f ++ rest) hc rfl
  obtain ⟨s2, g1, g2, g3, g4⟩ := (codec_readF64 (rj := false) f).parse s1 rest (by unfold St.Contig; rw [h4]; exact hc) h2 (by simp)
  have g5 := keep_readF64 frame_sameTabs s1
  rw [g1] at g5
  have hobj : s2.objTab = s.objTab := by rw [g5.2.1, h5.2.1]
  have hx : decodeDate { s with data := u29 1 ++ (be64 f ++ rest) } =
      (.ok (.time (F64.toInt64 (F64.div1000 f))), { s2 with objTab := s2.objTab ++ [.time (F64.toInt64 (F64.div1000 f))] }) := by
    unfold decodeDate
    rw [GoM.bind_apply, h1]
    simp only [GoM.bind_apply, mapErr, g1]
    simp [pushObj, GoM.bind_apply, g1, mapErr]
  have hdec : decode H s = branch H s.data.length 8 { s with data := u29 1 ++ (be64 f ++ rest) } := by
    show dec H (s.data.length + 1) s = _
    rw [dec_succ, GoM.bind_apply, Safe.readByte_cons (x := 8) (t := u29 1 ++ (be64 f ++ rest)) (by simpa using hd)]
  rw [hdec]
  exact ⟨_, hx, g2, by simp [hobj]⟩

/-- A reference under a marker is looked up in the object table. -/
theorem objRef_run (i : Nat) (hi : i < 2 ^ 28) (v : Val) (s : St) (rest : Bytes) (hc : s.Contig)
    (hd : s.data = u29 (2 * i) ++ rest) (hv : s.objTab[i]? = some v) :
    ∃ s', decodeUint29 s = (.ok (true, UInt32.ofNat i), s') ∧ s'.data = rest ∧ s'.objTab = s.objTab ∧
      objRef (UInt32.ofNat i).toNat s' = (.ok v, s') := by
  obtain ⟨s1, h1, h2, h3, h4, h5⟩ := decodeUint29_run (2 * i) (by omega) s rest hc hd
  have e1 : (2 * i) % 2 = 0 := by omega
  have e2 : (2 * i) / 2 = i := by omega
  simp only [e1, e2, decide_true] at h1
  refine ⟨s1, h1, h2, h5.2.1, ?_⟩
  have hlt : i < s1.objTab.length := by rw [h5.2.1]; exact (List.getElem?_eq_some_iff.mp hv).1
  have hg : goIndex s1.objTab (i : Int) = .ok v := by
    rw [h5.2.1]; simp [goIndex, hv]
  rw [toNat_ofNat_lt _ hi]
  unfold objRef
  simp only [GoM.bind_apply, GoM.get_apply]
  rw [if_neg (by omega)]
  simp [hg]

/-- References to dates, XML documents, byte arrays, arrays and objects, each under its own marker. -/
theorem decode_ref (H : Handlers) (m : UInt8) (i : Nat) (hi : i < 2 ^ 28) (v : Val) (s : St) (rest : Bytes) (hc : s.Contig)
    (hd : s.data = m :: u29 (2 * i) ++ rest) (hv : s.objTab[i]? = some v)
    (hm : (m = 8 ∧ ∃ t, v = .time t) ∨ ((m = 7 ∨ m = 11) ∧ ∃ x, v = .str x) ∨ (m = 12 ∧ ∃ x, v = .bytes x) ∨
      (m = 9 ∧ ∃ d a, v = .ecma d a) ∨ m = 10) :
    ∃ s', decode H s = (.ok v, s') ∧ s'.data = rest := by
  obtain ⟨s1, h1, h2, h3, h4⟩ := objRef_run i hi v { s with data := u29 (2 * i) ++ rest } rest hc rfl hv
  have hdec : decode H s = branch H s.data.length m { s with data := u29 (2 * i) ++ rest } := by
    show dec H (s.data.length + 1) s = _
    rw [dec_succ, GoM.bind_apply, Safe.readByte_cons (x := m) (t := u29 (2 * i) ++ rest) (by simpa using hd)]
  rw [hdec]
  refine ⟨s1, ?_, h2⟩
  rcases hm with ⟨rfl, t, rfl⟩ | ⟨rfl | rfl, x, rfl⟩ | ⟨rfl, x, rfl⟩ | ⟨rfl, d, a, rfl⟩ | rfl
  · show decodeDate _ = _
    unfold decodeDate
    rw [GoM.bind_apply, h1]
    simp only [if_true, GoM.bind_apply, h4]
    rfl
  · show decodeXmlDoc _ = _
    unfold decodeXmlDoc
    rw [GoM.bind_apply, h1]
    simp only [if_true, GoM.bind_apply, h4]
    rfl
  · show decodeXmlDoc _ = _
    unfold decodeXmlDoc
    rw [GoM.bind_apply, h1]
    simp only [if_true, GoM.bind_apply, h4]
    rfl
  · show decodeByteArray _ = _
    unfold decodeByteArray
    rw [GoM.bind_apply, h1]
    simp only [if_true, GoM.bind_apply, h4]
    rfl
  · show decodeArray _ _ _ = _
    unfold decodeArray
    rw [GoM.bind_apply, h1]
    simp only [if_true, GoM.bind_apply, h4]
    rfl
  · show decodeObject _ _ _ _ = _
    unfold decodeObject
    rw [GoM.bind_apply, h1]
    simp only [if_true, h4]

end Verif.Amf3
