import Verif.Spec.SipsDialog
import Verif.Props.SipsShare
import Verif.Props.SipsHeader
/-!
# Property C153: a request and its answer
-/
namespace Verif.Props
open Verif Verif.Sips Verif.Str Verif.Spec.Sips

/-! ## What the setters write -/

/-- The value written. -/
def putText (U : Unicode) : Put → Bytes
  | .from_ u | .to_ u | .contact u => u.bytes U
  | .via v => v.bytes
  | .cseq c => c.bytes
  | .callID x => x
  | .header _ v => v

theorem word_arg {s : Bytes} (h : Word s) : ArgText s := by
  refine argText_ascii (fun b hb => ?_) ?_ ?_
  · obtain ⟨h1, h2, h3, h4, h5, h6, -⟩ := h b hb
    refine ⟨⟨?_, h2⟩, h3, h4, h6⟩
    rw [UInt8.le_iff_toNat_le] at h1 ⊢
    simp at h1 ⊢; omega
  · intro e
    have := (h _ (List.mem_of_head? e)).1
    revert this; decide
  · intro e
    have := (h _ (List.mem_of_getLast? e)).1
    revert this; decide

theorem params_argMap {a : Args} (h : Params a) : ArgMap a :=
  ⟨h.distinct, fun e he => ⟨word_arg (h.keys e he).2, (h.keys e he).1, fun hm => ((h.keys e he).2 _ hm).2.2.2.2.2.2.2.1 rfl⟩,
    fun e he => word_arg (h.values e he)⟩

/-- Printable characters. -/
def CleanText (s : Bytes) : Prop := ∀ b ∈ s, 0x20 ≤ b ∧ b ≤ 0x7e

theorem CleanText.append {x y : Bytes} (hx : CleanText x) (hy : CleanText y) : CleanText (x ++ y) := by
  intro b hb
  rcases List.mem_append.1 hb with h | h
  · exact hx b h
  · exact hy b h

theorem CleanText.value {s : Bytes} (h : CleanText s) (h1 : s.head? ≠ some 0x20) (h2 : s.getLast? ≠ some 0x20) : HeaderValue s := by
  refine ⟨fun b hb => ?_, h1, h2⟩
  have := (h b hb).1
  constructor <;> (rintro rfl; revert this; decide)

/-- VisibleText characters. -/
def VisibleText (s : Bytes) : Prop := ∀ b ∈ s, 0x21 ≤ b ∧ b ≤ 0x7e

theorem VisibleText.append {x y : Bytes} (hx : VisibleText x) (hy : VisibleText y) : VisibleText (x ++ y) := by
  intro b hb
  rcases List.mem_append.1 hb with h | h
  · exact hx b h
  · exact hy b h

theorem VisibleText.clean {s : Bytes} (h : VisibleText s) : CleanText s := by
  intro b hb
  obtain ⟨h1, h2⟩ := h b hb
  refine ⟨?_, h2⟩
  rw [UInt8.le_iff_toNat_le] at h1 ⊢
  simp at h1 ⊢; omega

theorem VisibleText.last {x s : Bytes} (h : VisibleText s) (hx : s = [] → x.getLast? ≠ some 0x20) : (x ++ s).getLast? ≠ some 0x20 := by
  intro e
  by_cases hs : s = []
  · exact hx hs (by simpa [hs] using e)
  · rw [List.getLast?_append, List.getLast?_eq_some_getLast hs] at e
    simp only [Option.some_or, Option.some.injEq] at e
    have := (h _ (List.getLast_mem hs)).1
    rw [e] at this
    revert this; decide

theorem _root_.Verif.Spec.Sips.Word.visible {s : Bytes} (h : Word s) : VisibleText s := fun b hb => ⟨(h b hb).1, (h b hb).2.1⟩

theorem _root_.Verif.Spec.Sips.Word.vp {s : Bytes} (h : Word s) : ValuesPresent s := vp_of_not_mem fun hm => (h _ hm).2.2.2.2.2.2.2.1 rfl

theorem visible_port {p : Bytes} (h : Word p) : VisibleText (portBytes p) ∧ ValuesPresent (portBytes p) := by
  rw [portBytes]
  split
  · exact ⟨.append (by unfold VisibleText; decide) h.visible, vp_append (vp_of_not_mem (by decide)) h.vp⟩
  · exact ⟨by unfold VisibleText; decide, vp_nil⟩

theorem visible_item {e : Bytes × Bytes} (h1 : Word e.1) (h2 : Word e.2) : VisibleText (semiItem e) ∧ ValuesPresent (semiItem e) := by
  rw [semiItem]
  split
  · exact ⟨.append (by unfold VisibleText; decide) h1.visible, vp_append (vp_of_not_mem (by decide)) h1.vp⟩
  · next hne =>
    refine ⟨.append (.append (.append (by unfold VisibleText; decide) h1.visible) (by unfold VisibleText; decide)) h2.visible, ?_⟩
    rw [List.append_assoc]
    refine vp_append (vp_append (vp_of_not_mem (by decide)) h1.vp) ?_
    intro x r hx
    cases x with
    | nil =>
      have hx : e.2 = r := by simpa using hx
      subst hx
      cases hv : e.2 with
      | nil => exact absurd hv hne
      | cons c t =>
        obtain ⟨k1, k2, k3, k4, k5, k6, k7, k8, k9, k10, k11⟩ := h2 c (by simp [hv])
        exact .inl ⟨c, t, rfl, k1, k2, k3, k4, k6, k11⟩
    | cons y x =>
      have hx : e.2 = x ++ 0x3d :: r := by
        have := congrArg List.tail hx
        simpa using this
      exact h2.vp x r hx

theorem visible_args {a : Args} (h : Params a) : VisibleText (argsBytes a) ∧ ValuesPresent (argsBytes a) := by
  have key : ∀ l : Args, (∀ e ∈ l, Word e.1 ∧ Word e.2) → VisibleText (semicolonString l) ∧ ValuesPresent (semicolonString l) := by
    intro l
    induction l with
    | nil => exact fun _ => ⟨by intro b hb; simp [semicolonString] at hb, vp_nil⟩
    | cons e l ih =>
      intro hl
      obtain ⟨i1, i2⟩ := ih fun x hx => hl x (by simp [hx])
      obtain ⟨j1, j2⟩ := visible_item (hl e (by simp)).1 (hl e (by simp)).2
      rw [show semicolonString (e :: l) = semiItem e ++ semicolonString l from rfl]
      exact ⟨j1.append i1, vp_append j2 i2⟩
  rw [argsBytes]
  split
  · exact key a fun e he => ⟨(h.keys e he).2, h.values e he⟩
  · exact ⟨by intro b hb; simp at hb, vp_nil⟩

theorem quote_plain (U : Unicode) {n : Bytes} (h : ∀ b ∈ n, 0x20 ≤ b ∧ b ≤ 0x7e ∧ b ≠ 0x22 ∧ b ≠ 0x3a ∧ b ≠ 0x3b ∧ b ≠ 0x3d ∧ b ≠ 0x5c) :
    quote U n = [0x22] ++ n ++ [0x22] := by
  have hb : ∀ b ∈ n, b < 0x80 := by
    intro b hb
    have := (h b hb).2.1
    rw [UInt8.le_iff_toNat_le] at this
    rw [UInt8.lt_iff_toNat_lt]
    simp at this ⊢; omega
  have hq : n.map quoteByte = n.map fun b => [b] := by
    refine List.map_congr_left fun b hm => ?_
    obtain ⟨h1, h2, h3, -, -, -, h4⟩ := h b hm
    have h2' : b < 0x7f := by
      rw [UInt8.le_iff_toNat_le] at h2
      rw [UInt8.lt_iff_toNat_lt]
      simp at h2 ⊢; omega
    rw [quoteByte, if_neg (fun e => e.elim h3 h4), if_pos ⟨h1, h2'⟩]
  have hf : ∀ l : Bytes, (l.map fun b => [b]).flatten = l := by
    intro l; induction l with
    | nil => rfl
    | cons b l ih => simp [ih]
  have ha : isAscii n = true := by
    simp only [isAscii, List.all_eq_true, decide_eq_true_eq]
    exact hb
  rw [quote, ha, hq, hf]
  rfl

theorem clean_name (U : Unicode) {n : Bytes} (h : ∀ b ∈ n, 0x20 ≤ b ∧ b ≤ 0x7e ∧ b ≠ 0x22 ∧ b ≠ 0x3a ∧ b ≠ 0x3b ∧ b ≠ 0x3d ∧ b ≠ 0x5c) :
    CleanText (nameBytes U n) ∧ ValuesPresent (nameBytes U n) ∧ ∀ x : Bytes, (nameBytes U n ++ 0x3c :: x).head? ≠ some 0x20 := by
  have hc : CleanText n := fun b hb => ⟨(h b hb).1, (h b hb).2.1⟩
  have hv : ValuesPresent n := vp_of_not_mem fun hm => (h _ hm).2.2.2.2.2.1 rfl
  rw [nameBytes]
  split
  · split
    · next e =>
      rw [e]
      exact ⟨by unfold CleanText; decide, vp_of_not_mem (by decide), fun x => by simp⟩
    · rw [quote_plain U h]
      refine ⟨.append (.append (.append (by unfold CleanText; decide) hc) (by unfold CleanText; decide)) (by unfold CleanText; decide), ?_, fun x => by simp⟩
      exact vp_append (vp_append (vp_append (vp_of_not_mem (by decide)) hv) (vp_of_not_mem (by decide))) (vp_of_not_mem (by decide))
  · exact ⟨by unfold CleanText; simp, vp_nil, fun x => by simp⟩

theorem user_text (U : Unicode) {u : User} (h : PlainUser u) : HeaderValue (u.bytes U) ∧ ValuesPresent (u.bytes U) := by
  obtain ⟨n1, n2, n3⟩ := clean_name U h.name
  obtain ⟨p1, p2⟩ := visible_port h.port
  obtain ⟨a1, a2⟩ := visible_args h.args
  have hs : VisibleText u.uriType ∧ (0x3d : UInt8) ∉ u.uriType := by
    rcases h.scheme with e | e | e <;> rw [e] <;> (unfold VisibleText; decide +kernel)
  have hx : User.bytes U u = nameBytes U u.name ++ (0x3c :: (u.uriType ++ b!":" ++ u.user ++ b!"@" ++ u.host ++ portBytes u.port ++ b!">" ++ argsBytes u.args)) := by
    simp [User.bytes]
  have hc : CleanText (User.bytes U u) := by
    refine .append (.append (.append (.append (.append (.append (.append (.append (.append n1 ?_) hs.1.clean) ?_) h.user.visible.clean) ?_)
      h.host.visible.clean) p1.clean) ?_) a1.clean <;> (unfold CleanText; decide)
  refine ⟨hc.value ?_ ?_, ?_⟩
  · rw [hx]; exact n3 _
  · rw [User.bytes]
    exact a1.last fun _ => VisibleText.last (by unfold VisibleText; decide) (by simp)
  · refine vp_append (vp_append (vp_append (vp_append (vp_append (vp_append (vp_append (vp_append (vp_append n2 ?_) (vp_of_not_mem hs.2)) ?_) h.user.vp) ?_)
      h.host.vp) p2) ?_) a2 <;> exact vp_of_not_mem (by decide)

theorem via_text {v : Via} (h : PlainVia v) : HeaderValue v.bytes ∧ ValuesPresent v.bytes := by
  obtain ⟨p1, p2⟩ := visible_port h.port
  obtain ⟨a1, a2⟩ := visible_args h.args
  have hs : VisibleText v.trans ∧ (0x3d : UInt8) ∉ v.trans := by
    rcases h.trans with e | e | e | e <;> rw [e] <;> (unfold VisibleText; decide +kernel)
  have hc : CleanText v.bytes := by
    refine .append (.append (.append (.append (.append (.append ?_ ?_) hs.1.clean) ?_) h.host.2.visible.clean) p1.clean) a1.clean <;>
      (unfold CleanText; decide)
  refine ⟨hc.value ?_ ?_, ?_⟩
  · simp [Via.bytes, versionString]
  · rw [Via.bytes]
    exact a1.last fun _ => p1.last fun _ => h.host.2.visible.last fun e => absurd e h.host.1
  · refine vp_append (vp_append (vp_append (vp_append (vp_append (vp_append ?_ ?_) (vp_of_not_mem hs.2)) ?_) h.host.2.vp) p2) a2 <;>
      exact vp_of_not_mem (by decide)

theorem cseq_text {c : Cseq} (h1 : c.id ≠ [] ∧ Word c.id) (h2 : c.method ≠ [] ∧ Word c.method) : HeaderValue c.bytes := by
  refine CleanText.value (.append (.append h1.2.visible.clean (by unfold CleanText; decide)) h2.2.visible.clean) ?_ ?_
  · rw [Cseq.bytes]
    cases hc : c.id with
    | nil => exact absurd hc h1.1
    | cons b t =>
      have := (h1.2 b (by simp [hc])).1
      simp only [List.cons_append, List.head?_cons, ne_eq, Option.some.injEq]
      rintro rfl
      revert this; decide
  · rw [Cseq.bytes]
    exact h2.2.visible.last fun e => absurd e h2.1

/-! ## One call -/

theorem name_ascii {n : Bytes} (h : ∀ b ∈ n, 0x21 ≤ b ∧ b ≤ 0x7e ∧ b ≠ 0x3a) : ∀ b ∈ n, b < 0x80 := by
  intro b hb
  have := (h b hb).2.1
  rw [UInt8.le_iff_toNat_le] at this
  rw [UInt8.lt_iff_toNat_lt]
  simp at this ⊢
  omega

theorem put_apply (U : Unicode) (h : Hdr) {o : Put} (hf : o.Fits U) : o.apply U h = mset h o.name [putText U o] := by
  have key : ∀ (n k : Bytes), (∀ b ∈ n, b < 0x80 ∧ ¬ (0x41 ≤ b ∧ b ≤ 0x5a)) → n = k → toLower U n = k := by
    rintro n _ hn rfl
    exact toLower_keep U hn
  cases o with
  | header n v =>
    show mset h (toLower U n) [v] = mset h (n.map lowerAscii) [v]
    rw [toLower_ascii U (name_ascii hf.1.2)]
  | from_ u => exact congrArg (mset h · [u.bytes U]) (key b!"from" (text "from") (by decide) (by decide +kernel))
  | to_ u => exact congrArg (mset h · [u.bytes U]) (key b!"to" (text "to") (by decide) (by decide +kernel))
  | contact u => exact congrArg (mset h · [u.bytes U]) (key b!"contact" (text "contact") (by decide) (by decide +kernel))
  | via u => exact congrArg (mset h · [u.bytes]) (key b!"via" (text "via") (by decide) (by decide +kernel))
  | cseq u => exact congrArg (mset h · [u.bytes]) (key b!"cseq" (text "cseq") (by decide) (by decide +kernel))
  | callID u => exact congrArg (mset h · [u]) (key b!"call-id" (text "call-id") (by decide) (by decide +kernel))

theorem put_name (U : Unicode) {o : Put} (hf : o.Fits U) : HeaderName o.name ∧ o.name.map lowerAscii = o.name ∧ o.name ≠ text "content-length" := by
  have key : ∀ k : Bytes, (k ≠ [] ∧ (∀ b ∈ k, 0x21 ≤ b ∧ b ≤ 0x7e ∧ b ≠ 0x3a ∧ ¬ (0x41 ≤ b ∧ b ≤ 0x5a)) ∧ k.map lowerAscii = k ∧
      k ≠ text "content-length") → HeaderName k ∧ k.map lowerAscii = k ∧ k ≠ text "content-length" :=
    fun k h => ⟨⟨h.1, h.2.1⟩, h.2.2⟩
  cases o with
  | header n v =>
    refine ⟨lower_name hf.1, lower_lower n, fun h => hf.2.2.2 ?_⟩
    rw [show n.map lowerAscii = text "content-length" from h]
    simp
  | from_ => exact key (text "from") (by decide +kernel)
  | to_ => exact key (text "to") (by decide +kernel)
  | contact => exact key (text "contact") (by decide +kernel)
  | via => exact key (text "via") (by decide +kernel)
  | cseq => exact key (text "cseq") (by decide +kernel)
  | callID => exact key (text "call-id") (by decide +kernel)

theorem put_text (U : Unicode) {o : Put} (hf : o.Fits U) : HeaderValue (putText U o) ∧ o.name.length + (putText U o).length + 4 ≤ 4096 ∧
    ((o.name = text "contact" ∨ o.name = text "from" ∨ o.name = text "to" ∨ o.name = text "via") → ValuesPresent (putText U o)) := by
  have l1 : (text "from").length = 4 := by decide +kernel
  have l2 : (text "to").length = 2 := by decide +kernel
  have l3 : (text "contact").length = 7 := by decide +kernel
  have l4 : (text "via").length = 3 := by decide +kernel
  have l5 : (text "cseq").length = 4 := by decide +kernel
  have l6 : (text "call-id").length = 7 := by decide +kernel
  cases o with
  | header n v =>
    obtain ⟨-, h1, h2, h3⟩ := hf
    refine ⟨h1, by simp only [Put.name, putText, List.length_map]; omega, fun h => absurd ?_ h3⟩
    rcases h with h | h | h | h <;> rw [show n.map lowerAscii = _ from h] <;> simp
  | from_ u => exact ⟨(user_text U hf.1).1, by have := hf.2; simp only [Put.name, putText]; omega, fun _ => (user_text U hf.1).2⟩
  | to_ u => exact ⟨(user_text U hf.1).1, by have := hf.2; simp only [Put.name, putText]; omega, fun _ => (user_text U hf.1).2⟩
  | contact u => exact ⟨(user_text U hf.1).1, by have := hf.2; simp only [Put.name, putText]; omega, fun _ => (user_text U hf.1).2⟩
  | via u => exact ⟨(via_text hf.1).1, by have := hf.2; simp only [Put.name, putText]; omega, fun _ => (via_text hf.1).2⟩
  | cseq c =>
    obtain ⟨h1, h2, h3⟩ := hf
    refine ⟨cseq_text h1 h2, by simp [Put.name, putText, Cseq.bytes]; omega, fun h => ?_⟩
    exfalso
    revert h
    show ¬ (text "cseq" = _ ∨ text "cseq" = _ ∨ text "cseq" = _ ∨ text "cseq" = _)
    decide +kernel
  | callID x =>
    refine ⟨hf.1, by have := hf.2; simp only [Put.name, putText]; omega, fun h => ?_⟩
    exfalso
    revert h
    show ¬ (text "call-id" = _ ∨ text "call-id" = _ ∨ text "call-id" = _ ∨ text "call-id" = _)
    decide +kernel

/-! ## All calls -/

theorem stands_snoc {os : List Put} {o x : Put} (h : Stands (os ++ [o]) x) : x = o ∨ (Stands os x ∧ x.name ≠ o.name) := by
  obtain ⟨a, b, e, hb⟩ := h
  rcases List.eq_nil_or_concat b with rfl | ⟨b', y, rfl⟩
  · left
    have := (List.append_inj' e rfl).2
    simpa using this.symm
  · right
    have e' : os ++ [o] = (a ++ x :: b') ++ [y] := by rw [e]; simp
    obtain ⟨h1, h2⟩ := List.append_inj' e' rfl
    simp only [List.cons.injEq, and_true] at h2
    subst h2
    exact ⟨⟨a, b', h1, fun z hz => hb z (by simp [hz])⟩, fun h => hb o (by simp) h.symm⟩

theorem puts_map (U : Unicode) : ∀ (os done : List Put) (h : Hdr), (∀ o ∈ os, o.Fits U) → (h.map Prod.fst).Nodup →
    (∀ e ∈ h, ∃ o ∈ done, e = (o.name, [putText U o])) → (∀ o, Stands done o → (o.name, [putText U o]) ∈ h) →
    ((os.foldl (Put.apply U) h).map Prod.fst).Nodup ∧ (∀ e ∈ os.foldl (Put.apply U) h, ∃ o ∈ done ++ os, e = (o.name, [putText U o])) ∧
      ∀ o, Stands (done ++ os) o → (o.name, [putText U o]) ∈ os.foldl (Put.apply U) h
  | [], done, h, _, h1, h2, h3 => by
    rw [List.append_nil]
    exact ⟨h1, h2, h3⟩
  | o :: os, done, h, hf, h1, h2, h3 => by
    have ih := puts_map U os (done ++ [o]) (o.apply U h) (fun x hx => hf x (by simp [hx])) ?_ ?_ ?_
    · simpa using ih
    · rw [put_apply U h (hf o (by simp))]
      exact mset_keys_nodup _ _ h1
    · intro e he
      rw [put_apply U h (hf o (by simp)), mem_mset_iff] at he
      rcases he with rfl | ⟨he, -⟩
      · exact ⟨o, by simp, rfl⟩
      · obtain ⟨x, hx, rfl⟩ := h2 e he
        exact ⟨x, by simp [hx], rfl⟩
    · intro x hx
      rw [put_apply U h (hf o (by simp)), mem_mset_iff]
      rcases stands_snoc hx with rfl | ⟨h4, h5⟩
      · exact .inl rfl
      · exact .inr ⟨h3 x h4, h5⟩

/-- The headers that the calls leave behind. -/
theorem puts_headers (U : Unicode) (os : List Put) (hf : ∀ o ∈ os, o.Fits U) :
    ∃ hs : List (Bytes × Bytes), os.foldl (Put.apply U) [] = (hs.map fun e => (e.1, [e.2])) ∧ HeadersOk hs ∧
      (∀ o, Stands os o → (o.name, putText U o) ∈ hs) := by
  obtain ⟨h1, h2, h3⟩ := puts_map U os [] [] hf (by simp) (by simp) (by
    rintro o ⟨a, b, e, -⟩
    simp at e)
  rw [List.nil_append] at h2 h3
  obtain ⟨hs, e⟩ := exists_ones (h := os.foldl (Put.apply U) []) (by
    intro e he
    obtain ⟨o, -, rfl⟩ := h2 e he
    exact ⟨_, rfl⟩)
  have hmem : ∀ e ∈ hs, ∃ o ∈ os, e = (o.name, putText U o) := by
    intro x hx
    obtain ⟨o, ho, h⟩ := h2 (one x) (by rw [e]; exact List.mem_map_of_mem hx)
    obtain ⟨g1, g2⟩ := Prod.mk.inj h
    exact ⟨o, ho, Prod.ext g1 (List.cons.inj g2).1⟩
  refine ⟨hs, e, ⟨?_, ?_, ?_, ?_, ?_⟩, ?_⟩
  · rw [e, List.map_map] at h1
    exact h1
  · intro x hx
    obtain ⟨o, ho, rfl⟩ := hmem x hx
    exact (put_name U (hf o ho)).1
  · intro x hx
    obtain ⟨o, ho, rfl⟩ := hmem x hx
    exact (put_text U (hf o ho)).1
  · intro x hx
    obtain ⟨o, ho, rfl⟩ := hmem x hx
    exact (put_text U (hf o ho)).2.1
  · intro x hx
    obtain ⟨o, ho, rfl⟩ := hmem x hx
    exact (put_text U (hf o ho)).2.2
  · intro o ho
    have := h3 o ho
    rw [e, List.mem_map] at this
    obtain ⟨x, hx, h⟩ := this
    obtain ⟨g1, g2⟩ := Prod.mk.inj h
    rw [show (o.name, putText U o) = x from Prod.ext g1.symm (List.cons.inj g2).1.symm]
    exact hx

/-! ## What the other side finds -/

theorem plain_user (U : Unicode) {u : User} (h : PlainUser u) : ∃ a, newSIPUser (u.bytes U) = .ok { u with name := [], args := a } ∧ a.Perm u.args := by
  refine C74_user_round_trip U u u.args (.refl _) h.scheme ?_ ?_ ?_ ?_ (params_argMap h.args)
  · intro b hb
    obtain ⟨-, h2, -, h3, h4, -⟩ := h.name b hb
    refine ⟨?_, h3, h4⟩
    rw [UInt8.le_iff_toNat_le] at h2
    rw [UInt8.lt_iff_toNat_lt]
    simp at h2 ⊢; omega
  all_goals
    intro b hb
    first
    | obtain ⟨k1, k2, k3, k4, k5, k6, k7, k8, k9, k10, k11⟩ := h.user b hb
      exact ⟨by rintro rfl; revert k1; decide, k6, k9, k10⟩
    | obtain ⟨k1, k2, k3, k4, k5, k6, k7, k8, k9, k10, k11⟩ := h.host b hb
      exact ⟨by rintro rfl; revert k1; decide, k5, k6, k9⟩
    | obtain ⟨k1, k2, k3, k4, k5, k6, k7, k8, k9, k10, k11⟩ := h.port b hb
      exact ⟨by rintro rfl; revert k1; decide, k6, k9⟩

theorem plain_via {v : Via} (h : PlainVia v) : ∃ a, newSIPVia v.bytes = .ok { v with args := a } ∧ a.Perm v.args := by
  refine C73_via_round_trip v v.args (.refl _) h.trans ?_ ?_ (params_argMap h.args)
  · intro b hb
    obtain ⟨k1, k2, k3, k4, k5, k6, k7, k8, k9, k10, k11⟩ := h.host.2 b hb
    exact ⟨by rintro rfl; revert k1; decide, k5, k6⟩
  · intro b hb
    obtain ⟨k1, k2, k3, k4, k5, k6, k7, k8, k9, k10, k11⟩ := h.port b hb
    exact ⟨by rintro rfl; revert k1; decide, k6⟩

theorem lookup_of {m : Sip} {hs : List (Bytes × Bytes)} {body : Bytes} (hr : Recovered m hs body) (U : Unicode) {n v : Bytes}
    (hn : ∀ b ∈ n, b < 0x80) (hc : n.map lowerAscii ≠ text "content-length") (hm : (n.map lowerAscii, v) ∈ hs) :
    getFirstHeader U m.hdr n = v ∧ getHeader U m.hdr n = [v] := by
  obtain ⟨d, -, hnod, hmem⟩ := hr.headers
  exact C79_lookup_partial U m.hdr hnod (n.map lowerAscii) n v [] (lower_lower n) hn (by rw [SameText, lower_lower])
    ((hmem _).2 (.inr ⟨hc, v, rfl, hm⟩))

theorem found_of {m : Sip} {hs : List (Bytes × Bytes)} {body : Bytes} (hr : Recovered m hs body) (U : Unicode) {o : Put} (hf : o.Fits U)
    (hm : (o.name, putText U o) ∈ hs) : Found U m o := by
  have key : ∀ n : Bytes, (∀ b ∈ n, b < 0x80) → n.map lowerAscii = o.name → getFirstHeader U m.hdr n = putText U o ∧ getHeader U m.hdr n = [putText U o] := by
    intro n hn h
    exact lookup_of hr U hn (by rw [h]; exact (put_name U hf).2.2) (by rw [h]; exact hm)
  cases o with
  | from_ u =>
    obtain ⟨a, h1, h2⟩ := plain_user U hf.1
    obtain ⟨x, h3, h4⟩ := hr.from_ _ hm
    rw [show newSIPUser (putText U (.from_ u)) = _ from h1] at h3
    simp only [Res.ok.injEq] at h3
    refine ⟨a, h2, by rw [h4, h3], ?_⟩
    rw [getSIPFrom, (key b!"from" (by decide) (show _ = text "from" by decide +kernel)).1]
    exact h1
  | to_ u =>
    obtain ⟨a, h1, h2⟩ := plain_user U hf.1
    obtain ⟨x, h3, h4⟩ := hr.to_ _ hm
    rw [show newSIPUser (putText U (.to_ u)) = _ from h1] at h3
    simp only [Res.ok.injEq] at h3
    refine ⟨a, h2, by rw [h4, h3], ?_⟩
    rw [getSIPTo, (key b!"to" (by decide) (show _ = text "to" by decide +kernel)).1]
    exact h1
  | contact u =>
    obtain ⟨a, h1, h2⟩ := plain_user U hf.1
    obtain ⟨x, h3, h4⟩ := hr.contact _ hm
    rw [show newSIPUser (putText U (.contact u)) = _ from h1] at h3
    simp only [Res.ok.injEq] at h3
    refine ⟨a, h2, by rw [h4, h3], ?_⟩
    rw [getSIPContact, (key b!"contact" (by decide) (show _ = text "contact" by decide +kernel)).1]
    exact h1
  | via v =>
    obtain ⟨a, h1, h2⟩ := plain_via hf.1
    obtain ⟨x, h3, h4⟩ := hr.via _ hm
    rw [show newSIPVia (putText U (.via v)) = _ from h1] at h3
    simp only [Res.ok.injEq] at h3
    refine ⟨a, h2, by rw [h4, h3], ?_⟩
    rw [getSIPVia, (key b!"via" (by decide) (show _ = text "via" by decide +kernel)).1]
    exact h1
  | cseq c =>
    have h1 : newSIPCseq c.bytes = c := C69_cseq_round_trip c fun hb => by
      have := (hf.1.2 _ hb).1
      revert this; decide
    refine ⟨by rw [hr.cseq _ hm]; exact congrArg some h1, ?_⟩
    rw [getSIPCseq, (key b!"cseq" (by decide) (show _ = text "cseq" by decide +kernel)).1]
    exact h1
  | callID x =>
    show getFirstHeader U m.hdr b!"call-id" = x
    rw [(key b!"call-id" (by decide) (show _ = text "call-id" by decide +kernel)).1]
    rfl
  | header n v =>
    obtain ⟨h1, h2⟩ := key n (name_ascii hf.1.2) rfl
    exact ⟨h2, h1⟩

/-- What `CopyFrom` takes out of a message that was received. -/
theorem copied_ok (U : Unicode) {m : Sip} {hs : List (Bytes × Bytes)} {body : Bytes} (hok : HeadersOk hs) (hr : Recovered m hs body)
    (hbody : body.length < 2 ^ 63) (ns : List Bytes) (hns : ∀ n ∈ ns, n ≠ [] ∧ ∀ b ∈ n, 0x21 ≤ b ∧ b ≤ 0x7e ∧ b ≠ 0x3a)
    (hd : (ns.map fun n => n.map lowerAscii).Nodup) (hlen : ∀ n ∈ ns, n.length ≤ 4000) :
    HeadersOk (ns.map fun n => (n.map lowerAscii, getFirstHeader U m.hdr n)) := by
  obtain ⟨d, hdec, hnod, hmem⟩ := hr.headers
  have key : ∀ n ∈ ns, getFirstHeader U m.hdr n = [] ∨ (n.map lowerAscii = text "content-length" ∧ getFirstHeader U m.hdr n = d) ∨
      (n.map lowerAscii, getFirstHeader U m.hdr n) ∈ hs := by
    intro n hn
    have hl : toLower U n = n.map lowerAscii := toLower_ascii U (name_ascii (hns n hn).2)
    cases hg : mget m.hdr (n.map lowerAscii) with
    | none => left; exact getFirstHeader_none U (by rw [hl]; exact hg)
    | some vs =>
      right
      have hx := mget_mem hg
      have hv : ∀ v, vs = [v] → getFirstHeader U m.hdr n = v := by
        rintro v rfl
        simp [getFirstHeader, hl, hg, Sips.vals]
      rcases (hmem _).1 hx with h | ⟨-, v, h1, h2⟩
      · obtain ⟨g1, g2⟩ := Prod.mk.inj h
        exact .inl ⟨g1, hv d g2⟩
      · rw [hv v h1]
        exact .inr h2
  refine ⟨by rw [List.map_map]; exact hd, ?_, ?_, ?_, ?_⟩
  · intro e he
    obtain ⟨n, hn, rfl⟩ := List.mem_map.1 he
    exact lower_name (hns n hn)
  · intro e he
    obtain ⟨n, hn, rfl⟩ := List.mem_map.1 he
    rcases key n hn with h | ⟨-, h⟩ | h
    · rw [h]; exact ⟨by simp, by simp, by simp⟩
    · show HeaderValue (getFirstHeader U m.hdr n)
      rw [h]
      refine ⟨fun b hb => ?_, fun e => ?_, fun e => ?_⟩
      · have := (hdec.2.1 b hb).1
        constructor <;> (rintro rfl; revert this; decide)
      · have := (hdec.2.1 _ (List.mem_of_head? e)).1
        revert this; decide
      · have := (hdec.2.1 _ (List.mem_of_getLast? e)).1
        revert this; decide
    · exact hok.values _ h
  · intro e he
    obtain ⟨n, hn, rfl⟩ := List.mem_map.1 he
    have hl := hlen n hn
    rcases key n hn with h | ⟨-, h⟩ | h
    · simp only [h, List.length_map, List.length_nil]; omega
    · have := isDecimal_length hdec hbody
      simp only [h, List.length_map]; omega
    · exact hok.short _ h
  · intro e he hx
    obtain ⟨n, hn, rfl⟩ := List.mem_map.1 he
    rcases key n hn with h | ⟨h, -⟩ | h
    · simp only [h]; exact vp_nil
    · exfalso
      simp only [h] at hx
      revert hx
      decide +kernel
    · exact hok.addresses _ h hx

/-- C153 (partial): a request whose header was filled by the calls `os`, sent and parsed by the other side, shows there what the last
call for each header has set, in the parsed fields as well as by the look-up functions; an answer whose header the other side copies
from the request, under any names in any letter case, sent and parsed by the first side, shows it there as well.
(Missing: display names, see `C153_display_name_refuted`; the body, C80.) -/
theorem C153_exchange_partial (U : Unicode) (order order' : Hdr → Hdr) (ho : ∀ x, (order x).Perm x) (ho' : ∀ x, (order' x).Perm x)
    (e : UInt16 × String) (he : e ∈ methods) (q : Request) (ht : q.uriType = text "sip" ∨ q.uriType = text "sips" ∨ q.uriType = text "tel")
    (hqu : Word q.user) (hqh : Word q.host) (hqp : Word q.port) (hqa : Params q.args) (hql : q.bytes.length ≤ 4000)
    (os : List Put) (hf : ∀ o ∈ os, o.Fits U) (body : Bytes) (hbody : body.length < 2 ^ 63)
    (ns : List Bytes) (hns : ∀ n ∈ ns, n ≠ [] ∧ ∀ b ∈ n, 0x21 ≤ b ∧ b ≤ 0x7e ∧ b ≠ 0x3a) (hd : (ns.map fun n => n.map lowerAscii).Nodup)
    (hlen : ∀ n ∈ ns, n.length ≤ 4000) (code : Int) (hc1 : -2 ^ 63 ≤ code) (hc2 : code < 2 ^ 63) (body' : Bytes) (hbody' : body'.length < 2 ^ 63) :
    ∃ w m w' r, ((makeRequest e.1 (some q) (some (os.foldl (Put.apply U) [])) body).bytes U order).1 = .ok w ∧
      parseBytes U Sip.new w = (.ok (), m) ∧ m.isResponse = false ∧ m.method = e.1 ∧ m.version = 2 ∧ m.request = some q ∧
      (∀ o, Stands os o → Found U m o) ∧
      ((makeResponse code (some (copyFrom U [] m.hdr ns)) body').bytes U order').1 = .ok w' ∧
      parseBytes U Sip.new w' = (.ok (), r) ∧ r.isResponse = true ∧ r.responseCode = code ∧ r.version = 2 ∧
      ∀ o, Stands os o → (∃ n ∈ ns, n.map lowerAscii = o.name) → Found U r o := by
  have hst : ∀ o, Stands os o → o.Fits U := by
    rintro o ⟨a, b, rfl, -⟩
    exact hf o (by simp)
  have hv : ∀ {s : Bytes}, VisibleText s → ∀ b ∈ s, b ≠ 0x20 ∧ b ≠ 13 ∧ b ≠ 10 := by
    intro s hs b hb
    have := (hs b hb).1
    refine ⟨?_, ?_, ?_⟩ <;> (rintro rfl; revert this; decide)
  have hq : VisibleText q.bytes := by
    rw [Request.bytes]
    refine .append (.append (.append (.append (.append (.append ?_ ?_) hqu.visible) ?_) hqh.visible) (visible_port hqp).1) (visible_args hqa).1
    · rcases ht with e | e | e <;> rw [e] <;> (unfold VisibleText; decide +kernel)
    all_goals (unfold VisibleText; decide)
  obtain ⟨hs, h1, hok, h2⟩ := puts_headers U os hf
  obtain ⟨w, m, g1, g2, g3, g4, g5, g6, g7⟩ := C80_request_partial U order ho e he q ht
    (fun b hb => ⟨(hqu b hb).2.2.2.2.2.2.2.2.2.1, (hqu b hb).2.2.2.2.2.1⟩) (fun b hb => ⟨(hqh b hb).2.2.2.2.1, (hqh b hb).2.2.2.2.2.1⟩)
    (fun b hb => (hqp b hb).2.2.2.2.2.1) (params_argMap hqa) (hv hq) hql hs hok body hbody
  have hcopy := copyFrom_new U m.hdr ns [] (fun n hn => name_ascii (hns n hn).2) (by simpa using hd)
  rw [List.nil_append] at hcopy
  have hok2 := copied_ok U hok g7 hbody ns hns hd hlen
  obtain ⟨w', r, k1, k2, k3, k4, -, k5, k6⟩ := C80_response_partial U order' ho' code hc1 hc2 _ hok2 body' hbody'
  rw [List.map_map] at k1
  refine ⟨w, m, w', r, by rw [h1]; exact g1, g2, g3, g4, g5, g6, fun o hs => found_of g7 U (hst o hs) (h2 o hs), by rw [hcopy]; exact k1, k2, k3, k4, k5, ?_⟩
  rintro o hs ⟨n, hn, h⟩
  refine found_of k6 U (hst o hs) (List.mem_map.2 ⟨n, hn, ?_⟩)
  rw [h, (lookup_of g7 U (name_ascii (hns n hn).2) (by rw [h]; exact (put_name U (hst o hs)).2.2) (by rw [h]; exact h2 o hs)).1]

/-- C153 fails for display names: an address that is set with one is found without it. -/
theorem C153_display_name_refuted (U : Unicode) (order : Hdr → Hdr) (ho : ∀ x, (order x).Perm x)
    (e : UInt16 × String) (he : e ∈ methods) (q : Request) (ht : q.uriType = text "sip" ∨ q.uriType = text "sips" ∨ q.uriType = text "tel")
    (hqu : Word q.user) (hqh : Word q.host) (hqp : Word q.port) (hqa : Params q.args) (hql : q.bytes.length ≤ 4000)
    (os : List Put) (hf : ∀ o ∈ os, o.Fits U) (body : Bytes) (hbody : body.length < 2 ^ 63) (u : User) (hn : u.name ≠ []) (w : Bytes) (m : Sip)
    (hw : ((makeRequest e.1 (some q) (some (os.foldl (Put.apply U) [])) body).bytes U order).1 = .ok w)
    (hp : parseBytes U Sip.new w = (.ok (), m)) :
    (Stands os (.from_ u) → m.fromU ≠ some u ∧ getSIPFrom U m.hdr ≠ .ok u) ∧ (Stands os (.to_ u) → m.toU ≠ some u ∧ getSIPTo U m.hdr ≠ .ok u) ∧
      (Stands os (.contact u) → m.contact ≠ some u ∧ getSIPContact U m.hdr ≠ .ok u) := by
  obtain ⟨w', m', -, -, h1, h2, -, -, -, -, hfound, -⟩ := C153_exchange_partial U order id ho (fun x => .refl x) e he q ht hqu hqh hqp hqa hql os hf body hbody
    [] (by simp) (by simp) (by simp) 200 (by decide) (by decide) [] (by decide)
  rw [h1] at hw
  simp only [Res.ok.injEq] at hw
  rw [← hw, h2] at hp
  simp only [Prod.mk.injEq, true_and] at hp
  subst hp
  have key : ∀ a : Args, { u with name := [], args := a } ≠ u := fun a h => hn (congrArg User.name h).symm
  refine ⟨?_, ?_, ?_⟩ <;>
  · intro hs
    obtain ⟨a, -, h1, h2⟩ := hfound _ hs
    rw [h1, h2]
    exact ⟨fun h => key a (Option.some.inj h), fun h => key a (Res.ok.inj h)⟩

/-- The calls of the examples: the sequence number is set twice. -/
def somePuts : List Put := [.cseq ⟨text "1", text "ACK"⟩, .from_ ⟨text "sips", text "Bob B.", text "bob", text "b.org", [], [(text "tag", text "a6c85cf")]⟩,
  .via ⟨text "TLS", text "b.org", text "5061", [(text "branch", text "z9hG4bK"), (text "rport", [])]⟩, .header (text "Max-Forwards") (text "70"),
  .callID (text "a84b4c76e66710@b.org"), .cseq ⟨text "2", text "BYE"⟩]

theorem somePuts_fit (U : Unicode) : ∀ o ∈ somePuts, o.Fits U := by
  have hb : (User.bytes U ⟨text "sips", text "Bob B.", text "bob", text "b.org", [], [(text "tag", text "a6c85cf")]⟩).length ≤ 4000 := by
    rw [User.bytes, nameBytes, if_pos (by decide +kernel), if_neg (by decide +kernel), quote_plain U (by decide +kernel)]
    decide +kernel
  intro o ho
  simp only [somePuts, List.mem_cons, List.not_mem_nil, or_false] at ho
  rcases ho with rfl | rfl | rfl | rfl | rfl | rfl
  · simp only [Put.Fits, Word]; decide +kernel
  · exact ⟨⟨.inr (.inl rfl), by decide +kernel, by unfold Word; decide +kernel, by unfold Word; decide +kernel, by unfold Word; decide +kernel,
      by decide +kernel, by unfold Word; decide +kernel, by unfold Word; decide +kernel⟩, hb⟩
  · exact ⟨⟨.inr (.inr (.inl rfl)), by unfold Word; decide +kernel, by unfold Word; decide +kernel,
      by decide +kernel, by unfold Word; decide +kernel, by unfold Word; decide +kernel⟩, by decide +kernel⟩
  · exact ⟨by decide +kernel, ⟨by decide +kernel, by decide +kernel, by decide +kernel⟩, by decide +kernel⟩
  · exact ⟨⟨by decide +kernel, by decide +kernel, by decide +kernel⟩, by decide +kernel⟩
  · simp only [Put.Fits, Word]; decide +kernel

/-- A BYE and its answer: both sides find the second sequence number and the call id, and `Bob B.` without a name. -/
example (U : Unicode) : ∃ w m w' r,
    ((makeRequest 3 (some ⟨text "sip", text "a", text "b", [], []⟩) (some (somePuts.foldl (Put.apply U) [])) []).bytes U id).1 = .ok w ∧
    parseBytes U Sip.new w = (.ok (), m) ∧ m.cseq = some ⟨text "2", text "BYE"⟩ ∧ (∃ a, m.fromU = some ⟨text "sips", [], text "bob", text "b.org", [], a⟩) ∧
    ((makeResponse 200 (some (copyFrom U [] m.hdr [text "CSeq", text "call-ID"])) []).bytes U id).1 = .ok w' ∧
    parseBytes U Sip.new w' = (.ok (), r) ∧ r.cseq = some ⟨text "2", text "BYE"⟩ ∧ getCallID U r.hdr = text "a84b4c76e66710@b.org" := by
  have s1 : Stands somePuts (.cseq ⟨text "2", text "BYE"⟩) := ⟨somePuts.take 5, [], rfl, by simp⟩
  have s2 : Stands somePuts (.callID (text "a84b4c76e66710@b.org")) := ⟨somePuts.take 4, somePuts.drop 5, rfl, by
    intro x hx
    simp only [somePuts, List.drop, List.mem_cons, List.not_mem_nil, or_false] at hx
    subst hx
    decide +kernel⟩
  have s3 : Stands somePuts (.from_ ⟨text "sips", text "Bob B.", text "bob", text "b.org", [], [(text "tag", text "a6c85cf")]⟩) :=
    ⟨somePuts.take 1, somePuts.drop 2, rfl, by
      intro x hx
      simp only [somePuts, List.drop, List.mem_cons, List.not_mem_nil, or_false] at hx
      rcases hx with rfl | rfl | rfl | rfl <;> decide +kernel⟩
  obtain ⟨w, m, w', r, h1, h2, -, -, -, -, h3, h4, h5, -, -, -, h6⟩ := C153_exchange_partial U id id (fun x => .refl x) (fun x => .refl x) (3, "BYE") (by decide)
    ⟨text "sip", text "a", text "b", [], []⟩ (.inl rfl) (by unfold Word; decide +kernel) (by unfold Word; decide +kernel) (by unfold Word; decide +kernel)
    ⟨by simp, by simp, by simp⟩ (by decide +kernel) somePuts (somePuts_fit U) [] (by decide) [text "CSeq", text "call-ID"] (by decide +kernel) (by decide +kernel)
    (by decide +kernel) 200 (by decide) (by decide) [] (by decide)
  obtain ⟨a, -, hfrom, -⟩ := h3 _ s3
  exact ⟨w, m, w', r, h1, h2, (h3 _ s1).1, ⟨a, hfrom⟩, h4, h5, (h6 _ s1 ⟨text "CSeq", by simp, by decide +kernel⟩).1,
    h6 _ s2 ⟨text "call-ID", by simp, by decide +kernel⟩⟩

end Verif.Props
