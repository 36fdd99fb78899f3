import Verif.Spec.SipsAccept
import Verif.Lemmas.SipsPeer
import Verif.Props.Sips
import Verif.Props.SipsLength
/-! # Lemmas about what `Parse` accepts -/
namespace Verif.Sips
open Verif.Str Verif.Spec Verif.Spec.Sips Verif.Props

theorem dropWhile_front (cut : UInt8 → Bool) (l : Bytes) (c : UInt8) (h : (l.dropWhile cut).head? = some c) : cut c = false := by
  induction l with
  | nil => simp at h
  | cons b l ih =>
    rw [List.dropWhile_cons] at h
    split at h
    · exact ih h
    · rename_i hb
      simp only [List.head?_cons, Option.some.injEq] at h
      rw [← h]; simpa using hb

theorem trim_ends (cut : UInt8 → Bool) (l : Bytes) : (∀ c, (trim cut l).head? = some c → cut c = false) ∧
    ∀ c, (trim cut l).getLast? = some c → cut c = false := by
  refine ⟨fun c hc => ?_, fun c hc => ?_⟩
  · obtain ⟨b, h3, -⟩ := dropWhile_split cut (l.dropWhile cut).reverse
    have h4 := congrArg List.reverse h3
    rw [List.reverse_reverse, List.reverse_append] at h4
    apply dropWhile_front cut l
    rw [h4, List.head?_append, show ((l.dropWhile cut).reverse.dropWhile cut).reverse = trim cut l from rfl, hc]
    rfl
  · rw [trim, List.getLast?_reverse] at hc
    exact dropWhile_front cut _ c hc

theorem stripped_trim (cut : UInt8 → Bool) (p : UInt8 → Prop) (l : Bytes) (h : ∀ c ∈ l, (cut c = true ↔ p c)) : Stripped p l (trim cut l) := by
  obtain ⟨a, b, h1, h2, h3⟩ := trim_split cut l
  have ha : ∀ c ∈ a, c ∈ l := fun c hc => by rw [h1]; simp [hc]
  have hb : ∀ c ∈ b, c ∈ l := fun c hc => by rw [h1]; simp [hc]
  have ht : ∀ c ∈ trim cut l, c ∈ l := fun c hc => by rw [h1]; simp [hc]
  refine ⟨a, b, h1, fun c hc => (h c (ha c hc)).1 (h2 c hc), fun c hc => (h c (hb c hc)).1 (h3 c hc), ?_, ?_⟩
  · intro c hc hp
    have := (trim_ends cut l).1 c hc
    rw [(h c (ht c (List.mem_of_head? hc))).2 hp] at this
    simp at this
  · intro c hc hp
    have := (trim_ends cut l).2 c hc
    rw [(h c (ht c (List.mem_of_getLast? hc))).2 hp] at this
    simp at this

theorem trimLeft_ascii : ∀ (s : Bytes) (n : Nat), s.length ≤ n → Ascii s → trimLeftAux n s = s.dropWhile asciiSpace := by
  intro s
  induction s with
  | nil => intro n _ _; cases n <;> rfl
  | cons b s ih =>
    intro n hn ha
    cases n with
    | zero => simp at hn
    | succ n =>
      have hb : b < 0x80 := ha b (by simp)
      rw [trimLeftAux, decodeRune_ascii hb]
      simp only [isSpace_ascii hb, List.drop_succ_cons, List.drop_zero]
      rw [List.dropWhile_cons, ih n (by simpa using hn) (fun c hc => ha c (by simp [hc]))]

theorem trimRight_ascii : ∀ (t : Bytes) (n : Nat), t.length ≤ n → Ascii t → trimRightAux n t.reverse = (t.dropWhile asciiSpace).reverse := by
  intro t
  induction t with
  | nil => intro n _ _; cases n <;> rfl
  | cons b t ih =>
    intro n hn ha
    cases n with
    | zero => simp at hn
    | succ n =>
      have hb : b < 0x80 := ha b (by simp)
      have e : trimRightAux (n + 1) (b :: t).reverse = if asciiSpace b = true then trimRightAux n t.reverse else (b :: t).reverse := by
        have hl : (t.reverse ++ [b]).getLast? = some b := by simp
        rw [List.reverse_cons]
        cases hr : t.reverse ++ [b] with
        | nil => simp at hr
        | cons x y =>
          rw [hr] at hl
          simp only [trimRightAux, decodeLastRune, hl, if_pos hb, isSpace_ascii hb]
          rw [← hr]
          simp
      rw [e, List.dropWhile_cons]
      split
      · exact ih n (by simpa using hn) (fun c hc => ha c (by simp [hc]))
      · rfl

theorem trimSpace_ascii {s : Bytes} (h : Ascii s) : trimSpace s = trim asciiSpace s := by
  rw [trimSpace, trimLeft_ascii s _ (Nat.le_refl _) h]
  have hd : Ascii (s.dropWhile asciiSpace) := fun b hb => h b ((List.dropWhile_sublist _).mem hb)
  have := trimRight_ascii (s.dropWhile asciiSpace).reverse (s.dropWhile asciiSpace).length (by simp) (fun b hb => hd b (by simpa using hb))
  rw [List.reverse_reverse] at this
  rw [this]
  rfl

theorem asciiSpace_iff (c : UInt8) : asciiSpace c = true ↔ Blank c := by
  simp only [asciiSpace, Blank, Bool.or_eq_true, Bool.and_eq_true, decide_eq_true_eq, beq_iff_eq]
  exact Or.comm

/-- The section read by the loop, and the state its lines lead to. -/
theorem lineLoop_section (U : Unicode) : ∀ (fuel : Nat) (first : Bool) (buf : Bytes) (s s1 : Sip) (r r1 : Rd) (b : Bytes) (o : Nat),
    r.Ok → lineLoop U fuel first buf buf.length s r = (.ok (b, o), s1, r1) →
    ∃ sec ls blank, b = buf ++ sec ++ blank ∧ o = (buf ++ sec).length ∧ r1.Ok ∧ r.all = sec ++ blank ++ r1.all ∧
      Section (blank ++ r1.all = []) sec ls ∧ runLines U first ls s = (.ok (), s1) := by
  intro fuel
  induction fuel with
  | zero => intro first buf s s1 r r1 b o hr h; simp [lineLoop] at h
  | succ fuel ih =>
    intro first buf s s1 r r1 b o hr h
    obtain ⟨l, e, r', g1, g2, g3, g4, g5, g6⟩ := readSlice_cases 10 r hr
    rw [lineLoop_step U fuel first buf buf.length s r r' l e g1] at h
    split at h
    · simp at h
    · rename_i c1
      split at h
      · rename_i c2
        simp only [Prod.mk.injEq, Res.ok.injEq] at h
        obtain ⟨⟨rfl, rfl⟩, rfl, rfl⟩ := h
        exact ⟨[], [], [], by simp, by simp, g3, by rw [g2, List.eq_nil_of_length_eq_zero c2.2]; simp, .nil, rfl⟩
      · split at h
        · simp only [Prod.mk.injEq, Res.ok.injEq] at h
          obtain ⟨⟨rfl, rfl⟩, rfl, rfl⟩ := h
          exact ⟨[], [], l, by simp, by simp, g3, by rw [g2]; simp, .nil, rfl⟩
        · rename_i c3
          have hne : trim crlf l ≠ [] := fun h => c3 (by rw [h]; rfl)
          rcases hp : parseLine U first (trim crlf l) s with ⟨_ | e | _ | _, s2⟩
          · rw [hp] at h
            have h : lineLoop U fuel false (buf ++ l) (buf.length + l.length) s2 r' = (.ok (b, o), s1, r1) := h
            have h0 := h
            rw [← List.length_append] at h
            have hcr : ∀ x : Bytes, (10 : UInt8) ∉ x → Stripped (· = 13) x (trim crlf x) := by
              intro x hx
              refine stripped_trim crlf _ x fun c hc => ?_
              simp only [crlf, Bool.or_eq_true, beq_iff_eq]
              exact ⟨fun h => h.elim id fun h => absurd (h ▸ hc) hx, .inl⟩
            obtain ⟨sec, ls, blank, k1, k2, k3, k3', k4, k5⟩ := ih false (buf ++ l) s2 s1 r' r1 b o g3 h
            rcases g6 with ⟨x, rfl, hx, -, -⟩ | ⟨-, -, rfl⟩ | ⟨hx, -, -, hend⟩
            · rw [trim_lf] at hp hne
              refine ⟨(x ++ [10]) ++ sec, trim crlf x :: ls, blank, by rw [k1]; simp, by rw [k2]; simp, k3, by rw [g2, k3']; simp, ?_, ?_⟩
              · rw [List.append_assoc]
                exact .line hx (hcr x hx) hne k4
              · rw [runLines, hp]; exact k5
            · simp at c1
            · refine ⟨l ++ sec, trim crlf l :: ls, blank, by rw [k1]; simp, by rw [k2]; simp, k3, by rw [g2, k3']; simp, ?_, ?_⟩
              · rw [hend] at k3'
                obtain ⟨hsb, hr1⟩ := List.append_eq_nil_iff.1 k3'.symm
                obtain ⟨hsec, hbl⟩ := List.append_eq_nil_iff.1 hsb
                subst hsec
                have hls : ls = [] := by
                  generalize hz : ([] : Bytes) = z at k4
                  cases k4 with
                  | nil => rfl
                  | line h1 h2 h3 h4 => simp at hz
                  | last h0 h1 h2 h3 =>
                    subst hz
                    obtain ⟨a, c, h4, -⟩ := h2
                    exfalso; apply h3
                    have := congrArg List.length h4
                    simp only [List.length_nil, List.length_append] at this
                    exact List.eq_nil_of_length_eq_zero (by omega)
                subst hls
                rw [List.append_nil]
                exact .last (by rw [hr1, hbl]; rfl) hx (hcr l hx) hne
              · rw [runLines, hp]; exact k5
          all_goals (rw [hp] at h; simp at h)

/-! ## The first line -/

/-- What the message holds of a first line. -/
def Told (s : Sip) : StartLine → Prop
  | .request m uri v => s.isResponse = false ∧ s.method = m ∧ s.version = v ∧ ∃ q, newSIPRequest uri = .ok q ∧ s.request = some q
  | .response v i p => s.isResponse = true ∧ s.version = v ∧ s.responseCode = i ∧ s.responseStatus = p

theorem methodWord (U : Unicode) {w : Bytes} {m : UInt16} (h : getSIPMethod U w = .ok m) : MethodWord w m := by
  intro ha
  by_cases he : ∃ e ∈ methods, SameText w (text e.2)
  · obtain ⟨e, he, hs⟩ := he
    refine ⟨e, he, hs, ?_⟩
    rw [(C71_methods U e he).2 w ha hs] at h
    exact (Res.ok.inj h).symm
  · obtain ⟨x, hx⟩ := C71_methods_other U w ha fun e h1 h2 => he ⟨e, h1, h2⟩
    rw [hx] at h; simp at h

theorem versionWord (U : Unicode) {w : Bytes} {v : UInt8} (h : getSIPVersion U w = .ok v) : VersionWord w v := by
  intro ha
  by_cases he : ∃ e ∈ versions, SameText w (text e.2)
  · obtain ⟨e, he, hs⟩ := he
    refine ⟨e, he, hs, ?_⟩
    rw [(C71_versions U e he).2 w ha hs] at h
    exact (Res.ok.inj h).symm
  · obtain ⟨x, hx⟩ := C71_versions_other U w ha fun e h1 h2 => he ⟨e, h1, h2⟩
    rw [hx] at h; simp at h

theorem splitN_free {sep : UInt8} {s a b c : Bytes} (h : splitN sep 2 s = [a, b, c]) :
    s = a ++ sep :: (b ++ sep :: c) ∧ sep ∉ a ∧ sep ∉ b := by
  have h0 := splitN_three h
  by_cases h1 : sep ∈ s
  · obtain ⟨x, y, rfl, hx, -⟩ := index_split h1
    rw [splitN_cons hx] at h
    obtain ⟨rfl, h⟩ := List.cons.inj h
    by_cases h2 : sep ∈ y
    · obtain ⟨z, w, rfl, hz, -⟩ := index_split h2
      rw [splitN_cons hz] at h
      exact ⟨h0, hx, (List.cons.inj (List.cons.inj h).2).1 ▸ hz⟩
    · rw [splitN, index_not_mem h2, if_pos (by omega)] at h
      simp at h
  · rw [splitN, index_not_mem h1, if_pos (by omega)] at h
    simp at h

theorem firstLine_says (U : Unicode) (l : Bytes) (s s1 : Sip) (h : parseFirstLine U l s = (.ok (), s1)) :
    ∃ f, Says l f ∧ s1.headers = s.headers ∧ s1.last = s.last ∧ (s.isResponse = false → Told s1 f) := by
  rw [parseFirstLine] at h
  rcases hw : splitN c!" " 2 l with _ | ⟨w0, _ | ⟨w1, _ | ⟨w2, _ | ⟨w3, ws⟩⟩⟩⟩ <;> simp only [hw] at h
  rotate_left 3
  · obtain ⟨rfl, n0, n1⟩ := splitN_free hw
    split at h
    · rename_i hpre
      rcases hv : getSIPVersion U w0 with v | e | _ | _ <;> simp only [hv] at h
      · rcases ha : atoi w1 with i | e | _ | _ <;> simp [GoM.bind_apply, GoM.modify_apply, GoM.lift_apply, ha] at h
        subst h
        obtain ⟨i1, i2, i3⟩ := (atoi_iff w1 i).1 ha
        refine ⟨.response v i w2, .response n0 ?_ (versionWord U hv) i1 i2 i3, rfl, rfl, fun _ => ⟨rfl, rfl, rfl, rfl⟩⟩
        rw [show text "SIP" = [83, 73, 80] by decide +kernel]
        simpa [hasPrefix] using hpre
      all_goals simp [GoM.bind_apply, GoM.modify_apply] at h
    · rcases hm : getSIPMethod U w0 with m | e | _ | _ <;> simp only [hm] at h
      · rcases hq : newSIPRequest w1 with q | e | _ | _ <;> simp [GoM.bind_apply, GoM.modify_apply, GoM.lift_apply, hq] at h
        rcases hv : getSIPVersion U w2 with v | e | _ | _ <;> simp only [hv] at h
        · simp [GoM.bind_apply, GoM.modify_apply] at h
          subst h
          exact ⟨.request m w1 v, .request n0 n1 (methodWord U hm) (versionWord U hv), rfl, rfl, fun h0 => ⟨h0, rfl, rfl, q, hq, rfl⟩⟩
        all_goals simp [GoM.bind_apply, GoM.modify_apply] at h
      all_goals simp [GoM.bind_apply, GoM.modify_apply] at h
  all_goals simp at h

/-! ## The header lines -/

theorem parseHeader_heads (U : Unicode) (l : Bytes) (s s1 : Sip) (h : parseHeader U l s = (.ok (), s1)) (hne : l ≠ []) (hd : Hdr)
    (hs : s.headers = some hd) (ls : List Bytes) (fs : List (Bytes × Bytes)) (hsh : Shows hd fs) (hh : Heads ls fs)
    (hl : ∀ gs k v, fs = gs ++ [(k, v)] → s.last = k) :
    ∃ hd' fs', s1 = { s with headers := some hd', last := s1.last } ∧ Shows hd' fs' ∧ Heads (ls ++ [l]) fs' ∧
      (∀ gs k v, fs' = gs ++ [(k, v)] → s1.last = k) := by
  obtain ⟨b, t, rfl⟩ := List.exists_cons_of_ne_nil hne
  rw [parseHeader.eq_def] at h
  simp only at h
  split at h
  · rename_i hb
    have hind : Indented (b :: t) := by rcases hb with rfl | rfl <;> simp [Indented]
    simp only [GoM.bind_apply, GoM.get_apply, GoM.lift_apply, Sip.hdr, hs, Option.getD_some, hsh.vals, putHeader] at h
    rcases List.eq_nil_or_concat fs with rfl | ⟨gs, ⟨k, v⟩, rfl⟩
    · simp [under', goIndex] at h
    · rw [List.concat_eq_append] at *
      obtain rfl := hl gs k v rfl
      rw [under_append, under_single, if_pos rfl] at h
      simp only [goIndex_last, goSet_last] at h
      rw [hs] at h
      simp only [Prod.mk.injEq, true_and] at h
      refine ⟨_, gs ++ [(s.last, v ++ 0x20 :: trimSpace (b :: t))], ?_, hsh.put, .fold hh hind fun ha => ?_, ?_⟩
      · rw [← h]; rfl
      · rw [trimSpace_ascii ha]
        exact stripped_trim _ _ _ fun c _ => asciiSpace_iff c
      · intro gs' k' v' e
        have := List.append_inj' e rfl
        rw [← h]
        simpa using congrArg Prod.fst (List.cons.inj this.2).1
  · rename_i hb
    have hind : ∀ x, (b :: t) = x → ¬ Indented x := by
      rintro x rfl (e | e) <;> (simp at e; simp [e] at hb)
    split at h
    · rename_i hi
      have hm : (0x3a : UInt8) ∈ b :: t := by
        refine Decidable.byContradiction fun hc => ?_
        rw [index_not_mem hc] at hi
        omega
      obtain ⟨n, v, e, hn, hidx⟩ := index_split hm
      have hind := hind _ e
      rw [e] at h hidx ⊢
      have e1 : goSlice (n ++ 0x3a :: v) 0 (n.length : Int) = .ok n := goSlice_prefix _ _ _ rfl
      have e2 : goSlice (n ++ 0x3a :: v) ((n.length : Int) + 1) ((n ++ 0x3a :: v).length : Nat) = .ok v := by
        have := goSlice_suffix (n ++ [0x3a]) v (n.length + 1) (by simp)
        simpa using this
      simp only [hidx, GoM.bind_apply, GoM.get_apply, GoM.lift_apply, e1, e2, putHeader, hs, Sip.hdr, Option.getD_some, GoM.modify_apply,
        Prod.mk.injEq, true_and] at h
      have sp : ∀ x : Bytes, Stripped (· = 0x20) x (trim (· == 0x20) x) := fun x => stripped_trim _ _ _ fun c _ => by simp
      refine ⟨_, fs ++ [(toLower U (trim (· == 0x20) n), trim (· == 0x20) v)], ?_, hsh.snoc _ _, .field hh hind hn (fun ha => ?_) (sp v), ?_⟩
      · rw [← h]
      · refine ⟨_, sp n, toLower_ascii U fun c hc => ?_⟩
        obtain ⟨a, z, h1, -⟩ := trim_split (· == 0x20) n
        exact ha c (by rw [h1]; simp [hc])
      · intro gs' k' v' e
        have := List.append_inj' e rfl
        rw [← h]
        simpa using congrArg Prod.fst (List.cons.inj this.2).1
    · rename_i hi
      simp only [GoM.pure_apply, Prod.mk.injEq, true_and] at h
      subst h
      refine ⟨hd, fs, by rw [← hs], hsh, .junk hh (hind _ rfl) fun hc => ?_, hl⟩
      obtain ⟨n, v, -, -, hidx⟩ := index_split hc
      rw [hidx] at hi
      omega

theorem runLines_heads (U : Unicode) : ∀ (ms : List Bytes) (ls : List Bytes) (fs : List (Bytes × Bytes)) (s s1 : Sip) (hd : Hdr),
    runLines U false ms s = (.ok (), s1) → (∀ l ∈ ms, l ≠ []) → s.headers = some hd → Shows hd fs → Heads ls fs →
    (∀ gs k v, fs = gs ++ [(k, v)] → s.last = k) →
    ∃ hd' last fs', s1 = { s with headers := some hd', last := last } ∧ Shows hd' fs' ∧ Heads (ls ++ ms) fs' := by
  intro ms
  induction ms with
  | nil =>
    intro ls fs s s1 hd h _ hs hsh hh _
    simp only [runLines, Prod.mk.injEq, true_and] at h
    subst h
    exact ⟨hd, s.last, fs, by rw [← hs], hsh, by simpa using hh⟩
  | cons l ms ih =>
    intro ls fs s s1 hd h hne hs hsh hh hl
    rw [runLines] at h
    rcases hp : parseLine U false l s with ⟨_ | e | _ | _, s2⟩ <;> rw [hp] at h
    · obtain ⟨hd', fs', g1, g2, g3, g4⟩ := parseHeader_heads U l s s2 hp (hne l (by simp)) hd hs ls fs hsh hh hl
      obtain ⟨hd'', last, fs'', k1, k2, k3⟩ := ih (ls ++ [l]) fs' s2 s1 hd' h (fun m hm => hne m (by simp [hm])) (by rw [g1]) g2 g3 g4
      refine ⟨hd'', last, fs'', ?_, k2, by simpa using k3⟩
      rw [k1, g1]
    all_goals simp at h

theorem section_ne {e : Prop} {b : Bytes} {ls : List Bytes} (h : Section e b ls) : ∀ l ∈ ls, l ≠ [] := by
  induction h with
  | nil => simp
  | last h0 h1 h2 h3 => simpa using h3
  | line h1 h2 h3 h4 ih =>
    intro l hl
    rcases List.mem_cons.1 hl with rfl | hl
    · exact h3
    · exact ih l hl

/-! ## The whole message -/

theorem under_valuesOf (U : Unicode) (fs : List (Bytes × Bytes)) {n : Bytes} (h : Ascii n) : under' fs (toLower U n) = valuesOf fs n := by
  rw [toLower_ascii U h]; rfl

end Verif.Sips
