import Verif.Lemmas.Amf0
import Verif.Lemmas.Amf3
/-! # Lemmas about the AMF0 decoder: termination and the only way to panic -/
namespace Verif.Amf0
open Verif.Amf

variable {pan : Bool} {N : Nat}

theorem safe_readU16 : Safe pan N 2 readU16 := Safe.readFull.bindl fun _ _ => Safe.pure _
theorem safe_readU32 : Safe pan N 4 readU32 := Safe.readFull.bindl fun _ _ => Safe.pure _

theorem safe_decodeString : Safe pan N 2 decodeString :=
  safe_readU16.bindl fun _ n => (Safe.readBytes n).mono (Nat.le_refl _) (Nat.zero_le _)
theorem safe_decodeLongString : Safe pan N 4 decodeLongString :=
  safe_readU32.bindl fun _ n => (Safe.readBytes n).mono (Nat.le_refl _) (Nat.zero_le _)

theorem safe_pushRef (v : Ref0) : Safe pan N 0 (pushRef v) := by
  intro s _ ht
  simp [pushRef]
  exact ht

theorem safe_objLoop {d : GoM St Val} {fuel : Nat} (hN : N < fuel) (hd : Safe pan N 1 d) (id : Nat) (acc) :
    Safe pan N 0 (objLoop d id fuel acc) := by
  induction fuel generalizing N acc with
  | zero => omega
  | succ n ih =>
    unfold objLoop
    refine (safe_decodeString.mono (Nat.le_refl _) (Nat.zero_le _)).bind0 fun key => ?_
    refine Safe.ite (fun _ => ?_) (fun _ => ?_)
    · exact ((Safe.nextByteMustBe _).mono (Nat.le_refl _) (Nat.zero_le _)).bind0 fun _ => Safe.pure _
    · refine (Safe.bindl hd fun h v => ?_).mono (Nat.le_refl _) (Nat.zero_le _)
      refine Safe.bind0 (Safe.modify _ (fun _ => rfl) (fun _ h => h)) fun _ => ?_
      exact ih (by omega) (hd.mono (by omega) (Nat.le_refl _)) _

theorem safe_decodeObject {d : GoM St Val} {fuel : Nat} (hN : N < fuel) (hd : Safe pan N 1 d) :
    Safe pan N 0 (decodeObject d fuel) := (safe_pushRef _).bind0 fun id => safe_objLoop hN hd id _

theorem safe_arrLoop {d : GoM St Val} (hd : Safe pan N 1 d) (n : Nat) (acc) : Safe pan N 0 (arrLoop d n acc) := by
  induction n generalizing acc with
  | zero => exact Safe.pure _
  | succ n ih => exact (hd.mono (Nat.le_refl _) (Nat.zero_le _)).bind0 fun v => ih _

theorem safe_decodeDate : Safe pan N 0 decodeDate :=
  (Safe.readFull.mono (Nat.le_refl _) (Nat.zero_le _)).bind0 fun _ =>
    ((Safe.readBytes 2).mono (Nat.le_refl _) (Nat.zero_le _)).bind0 fun _ => Safe.pure _

theorem decodeReference_spec (s : St) (ht : TraitsOk s) :
    (decodeReference s).1 ≠ .diverge ∧ ((decodeReference s).1 = .panic → ∃ a b t, s.data = a :: b :: t) ∧
    (decodeReference s).2.data <:+ s.data ∧ TraitsOk (decodeReference s).2 := by
  have hu : (s.data = [] ∧ readU16 s = (.err .eof, s)) ∨
      (readU16 s = (.err .unexpectedEof, { s with data := [] })) ∨
      ∃ a b t, s.data = a :: b :: t ∧ readU16 s = (.ok (beNat [a, b]), { s with data := t }) := by
    unfold readU16
    rw [GoM.bind_apply]; unfold readFull
    rcases hs : s.data with _ | ⟨a, _ | ⟨b, t⟩⟩
    · exact .inl (by simp)
    · exact .inr (.inl (by simp))
    · exact .inr (.inr ⟨a, b, t, by simp [show ¬ t.length + 1 + 1 < 2 by omega]⟩)
  unfold decodeReference
  rw [GoM.bind_apply]
  rcases hu with ⟨_, h⟩ | h | ⟨a, b, t, hd, h⟩
  · rw [h]; simp [ht]
  · rw [h]; simp; exact ht
  · rw [h]
    have hsuf : t <:+ s.data := ⟨[a, b], by simp [hd]⟩
    simp only [GoM.bind_apply, GoM.get_apply]
    split
    · exact ⟨by simp, by simp, hsuf, ht⟩
    · simp only [GoM.bind_apply, GoM.lift_apply]
      rcases hg : goIndex s.refs0 (beNat [a, b] : Nat) with r | e | _ | _
      · cases r <;> exact ⟨by simp, by simp, hsuf, ht⟩
      · exact ⟨by simp, by simp, hsuf, ht⟩
      · exact ⟨by simp, fun _ => ⟨a, b, t, hd⟩, hsuf, ht⟩
      · simp only [goIndex] at hg
        split at hg
        · simp at hg
        · split at hg <;> simp at hg

theorem safe_dec (fuel : Nat) (hN : N < fuel) : Safe true N 1 (dec fuel) := by
  induction fuel generalizing N with
  | zero => omega
  | succ n ih =>
    intro s hs ht
    rw [dec_succ]
    rcases hd : s.data with _ | ⟨x, t⟩
    · simp only [GoM.bind_apply, Safe.readByte_nil hd]
      exact ⟨by simp, by simp, by simp [hd], by simp, ht⟩
    · simp only [GoM.bind_apply, Safe.readByte_cons hd]
      rw [hd] at hs
      simp only [List.length_cons] at hs
      by_cases h7 : x = 7
      · subst h7
        have hb : branch n 7 = decodeReference := rfl
        obtain ⟨h1, h2, h3, h4⟩ := decodeReference_spec { s with data := t } ht
        rw [hb]
        refine ⟨h1, fun hp => ⟨trivial, ?_⟩, h3.trans ⟨[7], rfl⟩, fun a ha => ?_, h4⟩
        · obtain ⟨a, b, t', e⟩ := h2 hp
          have e : t = a :: b :: t' := e
          exact ⟨a, b, [], t', by rw [e]; simp⟩
        · have := h3.length_le
          simp at this ⊢; omega
      · have hn : N - 1 < n := by omega
        have hbr : Safe true (N - 1) 0 (branch n x) := by
          unfold branch
          repeat' refine Safe.ite (fun _ => ?_) (fun _ => ?_)
          all_goals first
            | exact Safe.pure _
            | exact Safe.fail _
            | exact absurd ‹x = 7› h7
            | exact (Safe.readFull.mono (Nat.le_refl _) (Nat.zero_le _)).bind0 fun _ => Safe.pure _
            | exact (Safe.readByte.mono (Nat.le_refl _) (Nat.zero_le _)).bind0 fun _ => Safe.pure _
            | exact (safe_decodeString.mono (Nat.le_refl _) (Nat.zero_le _)).bind0 fun _ => Safe.pure _
            | exact (safe_decodeLongString.mono (Nat.le_refl _) (Nat.zero_le _)).bind0 fun _ => Safe.pure _
            | exact (safe_decodeObject hn (ih hn)).bind0 fun _ => Safe.pure _
            | exact ((safe_readU32.mono (Nat.le_refl _) (Nat.zero_le _)).bind0 fun _ => safe_decodeObject hn (ih hn)).bind0 fun _ => Safe.pure _
            | exact ((safe_readU32.mono (Nat.le_refl _) (Nat.zero_le _)).bind0 fun k => (safe_pushRef _).bind0 fun _ => safe_arrLoop (ih hn) k _).bind0 fun _ => Safe.pure _
            | exact safe_decodeDate.bind0 fun _ => Safe.pure _
            | exact ((safe_pushRef _).bind0 fun _ => (safe_decodeString.mono (Nat.le_refl _) (Nat.zero_le _)).bind0 fun k => (safe_decodeObject hn (ih hn)).bind0 fun _ => Safe.pure _).bind0 fun p => Safe.pure _
            | exact (Amf3.safe_decode _).mono (Nat.le_refl _) (Nat.zero_le _)
        obtain ⟨h1, h2, h3, h4, h5⟩ := hbr { s with data := t } (by simp; omega) ht
        refine ⟨h1, fun hp => ⟨trivial, (h2 hp).2.mono ⟨[x], by simp⟩⟩, h3.trans ⟨[x], by simp⟩, fun a ha => ?_, h5⟩
        have := h3.length_le
        simp at this ⊢; omega

theorem safe_decode : Safe true N 1 decode := by
  intro s hs ht
  exact safe_dec (N := s.data.length) (s.data.length + 1) (Nat.lt_succ_self _) s (Nat.le_refl _) ht

end Verif.Amf0
