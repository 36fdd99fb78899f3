import Verif.Props.Amf3
import Verif.Lemmas.Amf3Peer
/-!
# Properties C96–C97: AMF3 messages of other producers

What such messages look like and what they mean is specified in `Verif/Spec/Amf3Peer.lean`.
-/
namespace Verif.Props
open Verif Verif.Amf Verif.Spec.Amf

section Amf3Peer
open Verif.Amf3 Verif.Spec.Amf3

/-! ## C96 -/

theorem peer_batch (H : Handlers) (ps : List PVal) (hp : FitsL ps) (t t' : Sofar) (vs : List Val)
    (h : denL t ps = some (vs, t')) (fuel : Nat) (hfu : ps.length < fuel) (ret : List Val) (s : St) (hc : s.Contig)
    (hm : Match t s) (hd : s.data = pwireL ps) :
    ∃ s', batchLoop (Amf3.decode H) fuel ret s = (.ok (ret ++ vs, none), s') ∧ Match t' s' := by
  induction ps generalizing t vs fuel ret s with
  | nil =>
    obtain ⟨f, rfl⟩ : ∃ f, fuel = f + 1 := ⟨fuel - 1, by simp at hfu; omega⟩
    have hdata : s.data = [] := by simpa [pwireL] using hd
    have he : Amf3.decode H s = (.err .eof, s) := by
      unfold Amf3.decode
      rw [dec_succ, GoM.bind_apply, Safe.readByte_nil hdata]
    simp only [denL, Option.some.injEq, Prod.mk.injEq] at h
    exact ⟨s, by simp [batchLoop, he, ← h.1], by rw [← h.2]; exact hm⟩
  | cons p ps ih =>
    obtain ⟨f, rfl⟩ : ∃ f, fuel = f + 1 := ⟨fuel - 1, by simp at hfu; omega⟩
    simp only [denL] at h
    rcases h1 : p.den t with _ | ⟨x, t1⟩
    · simp [h1] at h
    rw [h1] at h
    simp only at h
    rcases h2 : denL t1 ps with _ | ⟨xs, t2⟩
    · simp [h2] at h
    rw [h2] at h
    simp only [Option.some.injEq, Prod.mk.injEq] at h
    obtain ⟨rfl, rfl⟩ := h
    simp only [FitsL] at hp
    obtain ⟨s1, g1, g2, g3, g4⟩ := gives_val H p hp.1 t x t1 h1 (s.data.length + 1) (by rw [hd, pwireL]; simp; omega)
      s (pwireL ps) hm hc hd
    obtain ⟨s', h5, h6⟩ := ih hp.2 t1 xs h2 f (by simp at hfu; omega) (ret ++ [x]) s1
      (by unfold St.Contig; rw [g3.1]; exact hc) g4 g2
    refine ⟨s', ?_, h6⟩
    have g1' : Amf3.decode H s = (.ok x, s1) := g1
    simp [batchLoop, g1', h5]

/-- C96: a fresh decoder fed the messages of any producer that sends sealed objects, arrays with named and
indexed members, strings and class descriptions in full or by reference, and references to dates, XML documents
and byte arrays yields exactly the values they denote, in order and without an error. -/
theorem C96_amf3_peer_messages (H : Handlers) (ps : List PVal) (hp : FitsL ps) (vs : List Val) (t : Sofar)
    (h : denL Sofar.none ps = some (vs, t)) (eofOnEmpty : Bool) (lim : Nat → Nat) (hc : ∀ n, n ≤ lim n) :
    ∃ s', Amf3.decodeBatch H (fresh (pwireL ps) eofOnEmpty lim) = (.ok (vs, none), s') := by
  have hlen : ps.length ≤ (pwireL ps).length := by
    clear hp h
    induction ps with
    | nil => simp
    | cons p r ih =>
      have : 0 < p.wire.length := by cases p <;> simp [PVal.wire]
      simp only [pwireL, List.length_append, List.length_cons]; omega
  obtain ⟨s', h5, _⟩ := peer_batch H ps hp Sofar.none t vs h ((pwireL ps).length + 1) (by omega) []
    (fresh (pwireL ps) eofOnEmpty lim) hc ⟨rfl, rfl, by simp [Sofar.none], rfl, by simp [Sofar.none]⟩ rfl
  exact ⟨s', by simpa [Amf3.decodeBatch, fresh] using h5⟩

/-- An array {"a": 1, "b": "a", "a": 7; 2.0-bits, object} whose third name refers back to its first, followed by an object of the
same class by reference and the date of the first object again. -/
def somePeer : List PVal :=
  [.arr [(.lit [97], .int 1), (.lit [98], .str (.ref 0)), (.ref 0, .int 7)]
     [.double 0x4000000000000000, .obj (.new (.lit [67]) [.lit [100], .ref 0]) [.date 1700000000, .undefined]],
   .obj (.ref 0) [.again 8 2, .bytes [1, 2]],
   .again 12 4]

theorem somePeer_den : denL Sofar.none somePeer = some
    ([.ecma [.f64 0x4000000000000000, .obj [([100], .time 1700000000), ([97], .nil)]] [([97], .uint false 7), ([98], .str [97])],
      .obj [([100], .time 1700000000), ([97], .bytes [1, 2])], .bytes [1, 2]],
     ⟨[[97], [98], [67], [100]], [none, none, some (.time 1700000000), none, some (.bytes [1, 2])], [some [[100], [97]]]⟩) := by
  simp [denL, somePeer, PVal.den, denA, PStr.den, PTrait.den, denNames, Sofar.none, Sofar.add, KindOk]
  decide +kernel

example : ∃ s', Amf3.decodeBatch (fun _ => none) (fresh (pwireL somePeer) true (fun n => n)) =
    (.ok ([.ecma [.f64 0x4000000000000000, .obj [([100], .time 1700000000), ([97], .nil)]]
        [([97], .uint false 7), ([98], .str [97])],
      .obj [([100], .time 1700000000), ([97], .bytes [1, 2])], .bytes [1, 2]], none), s') :=
  C96_amf3_peer_messages (fun _ => none) somePeer
    (by simp [somePeer, FitsL, FitsA, PVal.Fits, PStr.Fits, PTrait.Fits]) _ _ somePeer_den true (fun n => n) (fun _ => Nat.le_refl _)

/-! ## C97 -/

/-- C97 (partial): non-negative integers below 2^28 are sent as the integer they are and integers sent by
others below 2^28 are decoded as what they are.  Missing: the negative half of the range, see the
refutations. -/
theorem C97_amf3_integer_meaning_partial (H : Handlers) (n : Nat) (h : n < 2 ^ 28) (s : St) (rest : Bytes) (hc : s.Contig)
    (hd : s.data = 4 :: u29 n ++ rest) :
    int29 n = n ∧ amf3Bytes (.uint false n) = 4 :: u29 n ∧ amf3Bytes (.int false n) = 4 :: u29 n ∧
    ∃ s', Amf3.decode H s = (.ok (.uint false n), s') ∧ s'.data = rest := by
  have h1 : amf3Bytes (.uint false n) = 4 :: u29 n := by
    rw [amf3Bytes_wire _ (by simp [Encodable]), wire, if_pos (by omega)]
  have h2 : amf3Bytes (.int false n) = 4 :: u29 n := by
    rw [amf3Bytes_wire _ (by simp [Encodable]), wire, if_pos (by omega)]
    simp
  refine ⟨by simp [int29, h], h1, h2, ?_⟩
  obtain ⟨s', h3, h4, h5, h6⟩ := (codec_int (rj := false) H s.data.length n (by omega)).parse s rest hc hd (by simp)
  exact ⟨s', h3, h4⟩

example : ∃ s', Amf3.decode (fun _ => none) (St.buffer (4 :: u29 300 ++ [9])) = (.ok (.uint false 300), s') ∧ s'.data = [9] :=
  (C97_amf3_integer_meaning_partial (fun _ => none) 300 (by decide) (St.buffer (4 :: u29 300 ++ [9])) [9]
    (fun _ => Nat.le_refl _) rfl).2.2.2

/-- C97 fails for every unsigned or signed integer from 2^28 to 2^29 - 2: it is sent as the U29 of a negative
number. -/
theorem C97_amf3_large_refuted (n : Nat) (h : 2 ^ 28 ≤ n) (h' : n < 2 ^ 29 - 1) :
    amf3Bytes (.uint false n) = 4 :: u29 n ∧ amf3Bytes (.int false n) = 4 :: u29 n ∧ int29 n < 0 := by
  refine ⟨?_, ?_, by simp only [int29]; rw [if_neg (by omega)]; omega⟩
  · rw [amf3Bytes_wire _ (by simp [Encodable]), wire, if_pos (by omega)]
  · rw [amf3Bytes_wire _ (by simp [Encodable]), wire, if_pos (by omega)]
    simp

example : amf3Bytes (.uint false 300000000) = [4, 0x80 + 71, 0x80 + 67, 0x80 + 35, 0] ∧ int29 300000000 = -236870912 :=
  ⟨(C97_amf3_large_refuted 300000000 (by decide) (by decide)).1.trans (by decide), by decide⟩

/-- C97 fails for every negative integer another implementation sends: it is decoded as a positive number. -/
theorem C97_amf3_negative_refuted (H : Handlers) (i : Int) (h : -2 ^ 28 ≤ i) (h' : i < 0) (s : St) (rest : Bytes)
    (hc : s.Contig) (n : Nat) (hn : n < 2 ^ 29) (hi : int29 n = i) (hd : s.data = 4 :: u29 n ++ rest) :
    ∃ m s', Amf3.decode H s = (.ok (.uint false m), s') ∧ (m : Int) = i + 2 ^ 29 := by
  have hge : ¬ n < 2 ^ 28 := fun hlt => by simp only [int29, if_pos hlt] at hi; omega
  simp only [int29, if_neg hge] at hi
  obtain ⟨s', h3, h4, h5, h6⟩ := (codec_marker (rj := false) H (m := 4) (fuel := s.data.length)
    ((codec_readUint29 n hn).map fun u => Val.uint false u.toNat)).parse s rest hc hd (by simp)
  refine ⟨_, s', h3, ?_⟩
  rw [UInt32.toNat_ofNat', Nat.mod_eq_of_lt (by omega)]
  omega

/-- -1 as any other implementation sends it. -/
example : ∃ m s', Amf3.decode (fun _ => none) (St.buffer [4, 255, 255, 255, 255]) = (.ok (.uint false m), s') ∧ (m : Int) = -1 + 2 ^ 29 :=
  C97_amf3_negative_refuted (fun _ => none) (-1) (by decide) (by decide) (St.buffer [4, 255, 255, 255, 255]) []
    (fun _ => Nat.le_refl _) 536870911 (by decide) (by decide) (by decide)

/-! ## C35: empty byte arrays -/

/-- C35 fails after an empty XML document or byte array: it takes no place in the reference table, so that a
reference to the value sent next, whatever it is, is out of range. -/
theorem C35_amf3_empty_refuted (H : Handlers) (m : UInt8) (hm : m = 7 ∨ m = 11 ∨ m = 12) (b : Bytes) (hb : b ≠ [])
    (hl : b.length < 2 ^ 28) :
    ∃ e s', Amf3.decodeBatch H (St.buffer ([m, 1] ++ (12 :: u29 (2 * b.length + 1) ++ b) ++ [12, 2])) =
      (.ok ([if m = 12 then .bytes [] else .str [], .bytes b], some e), s') := by
  have hstep : ∀ (d : GoM St Val) f ret s v s', d s = (.ok v, s') → batchLoop d (f + 1) ret s = batchLoop d f (ret ++ [v]) s' := by
    intro d f ret s v s' h
    simp [batchLoop, h]
  have hbuf : ∀ d, (St.buffer d).Contig := fun _ _ => Nat.le_refl _
  have hempty : ∀ (t : Sofar) fuel, Gives t (dec H (fuel + 1)) [m, 1] (if m = 12 then Val.bytes [] else .str []) t := by
    intro t fuel
    refine gives_marker H fuel ?_
    have hx : Gives t decodeXmlDoc [1] (.str []) t := by
      unfold decodeXmlDoc
      refine Gives.bind (b := [1]) (c := []) (gives_len 0 (by decide)) ?_
      simpa using Gives.pure _
    have hy : Gives t decodeByteArray [1] (.bytes []) t := by
      unfold decodeByteArray
      refine Gives.bind (b := [1]) (c := []) (gives_len 0 (by decide)) ?_
      simpa using Gives.pure _
    rcases hm with rfl | rfl | rfl
    · exact hx
    · exact hx
    · exact hy
  generalize hdata : [m, 1] ++ (12 :: u29 (2 * b.length + 1) ++ b) ++ [12, 2] = data
  have hlen : ∃ k, data.length = k + 3 := ⟨data.length - 3, by rw [← hdata]; simp⟩
  obtain ⟨k, hk⟩ := hlen
  obtain ⟨s1, a1, a2, a3, a4⟩ := hempty Sofar.none data.length (St.buffer data) ((12 :: u29 (2 * b.length + 1) ++ b) ++ [12, 2])
    ⟨rfl, rfl, by simp [Sofar.none], rfl, by simp [Sofar.none]⟩ (hbuf _) (by rw [← hdata]; simp [St.buffer])
  have hc1 : s1.Contig := by unfold St.Contig; rw [a3.1]; exact hbuf data
  obtain ⟨s2, b1, b2, b3, b4⟩ := gives_marker H s1.data.length (gives_blob (t := Sofar.none) 12 (by simp) H s1.data.length b hb hl _ rfl) s1 [12, 2]
    a4 hc1 (by rw [a2]; simp)
  have hc2 : s2.Contig := by unfold St.Contig; rw [b3.1]; exact hc1
  have hl2 : s2.objTab.length = 1 := by rw [b4.len]; rfl
  have hthird : ∃ e s', Amf3.decode H s2 = (.err e, s') ∧ e ≠ .eof := by
    obtain ⟨s4, d1, d2, d3, d4⟩ := Gives.readByte (t := Sofar.none.add (some (.bytes b))) 12 s2 [2] b4 hc2 (by rw [b2]; rfl)
    obtain ⟨s5, e1, e2, e3, e4⟩ := gives_refHdr (t := Sofar.none.add (some (.bytes b))) 1 (by decide) s4 [] d4 (by unfold St.Contig; rw [d3.1]; exact hc2) (by rw [d2]; rfl)
    refine ⟨.other, s5, ?_, by simp⟩
    show dec H (s2.data.length + 1) s2 = _
    rw [dec_succ, GoM.bind_apply, d1]
    show decodeByteArray s4 = _
    unfold decodeByteArray
    rw [GoM.bind_apply, e1]
    have : s5.objTab.length = 1 := by rw [e4.len]; rfl
    simp only [if_true, GoM.bind_apply, objRef, GoM.get_apply]
    rw [if_pos (by rw [this]; decide)]
    rfl
  obtain ⟨e, s', f1, f2⟩ := hthird
  refine ⟨e, s', ?_⟩
  have a1' : Amf3.decode H (St.buffer data) = (.ok (if m = 12 then Val.bytes [] else .str []), s1) := a1
  have b1' : Amf3.decode H s1 = (.ok (.bytes b), s2) := b1
  show batchLoop (Amf3.decode H) (data.length + 1) [] (St.buffer data) = _
  rw [hk, hstep _ _ _ _ _ _ a1', hstep _ _ _ _ _ _ b1']
  unfold batchLoop
  rw [f1]
  cases e <;> simp_all

example : ∃ e s', Amf3.decodeBatch (fun _ => none) (St.buffer [12, 1, 12, 3, 255, 12, 2]) =
    (.ok ([.bytes [], .bytes [255]], some e), s') :=
  C35_amf3_empty_refuted (fun _ => none) 12 (by simp) [255] (by simp) (by simp)

end Amf3Peer
end Verif.Props
