import Verif.Props.Amf3Peer
import Verif.Props.Amf0Peer
import Verif.Lemmas.AmfReuse
/-!
# Property C138: a decoder can be used for one message after the other

What messages look like and what they mean is specified in `Verif/Spec/Amf3Peer.lean` and `Verif/Spec/Amf0Peer.lean`; every
message begins with nothing sent (`Sofar.none`, `Known.none`).
-/
namespace Verif.Props
open Verif Verif.Amf Verif.Spec.Amf

section Amf3
open Verif.Amf3 Verif.Spec.Amf3

/-- C138 (partial), AMF3: a message without references is decoded to the values it denotes by any decoder, whatever it
was used for before and however that ended.  Missing: messages with references (`C138_amf3_reuse_refuted`). -/
theorem C138_amf3_reuse_partial (H : Handlers) (ps : List PVal) (hp : FitsL ps) (hf : FullL ps) (vs : List Val) (t : Sofar)
    (h : denL Sofar.none ps = some (vs, t)) (s : St) (hc : s.Contig) (hd : s.data = pwireL ps) :
    ∃ s', Amf3.decodeBatch H s = (.ok (vs, none), s') := by
  obtain ⟨u, hu, _⟩ := full_denL ps hf _ _ _ h (tabsOf s)
  have hlen : ps.length ≤ (pwireL ps).length := by
    clear hp h hu hd hf
    induction ps with
    | nil => simp
    | cons p r ih =>
      have : 0 < p.wire.length := by cases p <;> simp [PVal.wire]
      simp only [pwireL, List.length_append, List.length_cons]; omega
  obtain ⟨s', h5, _⟩ := peer_batch H ps hp _ u vs hu (s.data.length + 1) (by rw [hd]; omega) [] s hc (match_tabsOf s) hd
  exact ⟨s', by simpa [Amf3.decodeBatch] using h5⟩

/-- A decoder whose tables are filled, one of the classes being dynamic. -/
example : ∃ s', Amf3.decodeBatch (fun _ => none)
      ⟨pwireL [.arr [(.lit [97], .int 1)] [.str (.lit [98])], .obj (.new (.lit [67]) [.lit [97]]) [.date 5]], true, id,
        [], [[120], [121]], [.nil], [⟨[65], false, true, []⟩]⟩ =
    (.ok ([.ecma [.str [98]] [([97], .uint false 1)], .obj [([97], .time 5)]], none), s') :=
  C138_amf3_reuse_partial (fun _ => none) _ (by simp [FitsL, FitsA, PVal.Fits, PStr.Fits, PTrait.Fits])
    (by simp [FullL, FullA, PVal.Full, PStr.Full, PTrait.Full]) _
    ⟨[[97], [98], [67], [97]], [none, none, some (.time 5)], [some [[97]]]⟩
    (by simp [denL, PVal.den, denA, PStr.den, PTrait.den, denNames, Sofar.none, Sofar.add]; decide +kernel)
    _ (fun _ => Nat.le_refl _) rfl

/-- C138 fails in AMF3 after every message with a string: when the next message is a string and a reference to it,
the reference is decoded to the first string of the former message. -/
theorem C138_amf3_reuse_refuted (H : Handlers) (ps : List PVal) (hp : FitsL ps) (vs : List Val) (t : Sofar)
    (h : denL Sofar.none ps = some (vs, t)) (x : Bytes) (l : List Bytes) (hx : t.strs = x :: l)
    (y : Bytes) (hy : y ≠ []) (hl : y.length < 2 ^ 28) (hxy : x ≠ y)
    (eofOnEmpty : Bool) (lim : Nat → Nat) (hc : ∀ n, n ≤ lim n) :
    denL Sofar.none [.str (.lit y), .str (.ref 0)] = some ([.str y, .str y], ⟨[y], [], []⟩) ∧
    ∃ s', Amf3.decodeBatch H (fresh (pwireL ps) eofOnEmpty lim) = (.ok (vs, none), s') ∧
      ∃ s'', Amf3.decodeBatch H { s' with data := pwireL [.str (.lit y), .str (.ref 0)], eofOnEmpty := eofOnEmpty, lim := lim } =
        (.ok ([.str y, .str x], none), s'') ∧ Val.str x ≠ .str y := by
  refine ⟨by simp [denL, PVal.den, PStr.den, Sofar.none, hy], ?_⟩
  have hlen : ps.length ≤ (pwireL ps).length := by
    clear hp h hx
    induction ps with
    | nil => simp
    | cons p r ih =>
      have : 0 < p.wire.length := by cases p <;> simp [PVal.wire]
      simp only [pwireL, List.length_append, List.length_cons]; omega
  obtain ⟨s', h5, h6⟩ := peer_batch H ps hp Sofar.none t vs h ((pwireL ps).length + 1) (by omega) []
    (fresh (pwireL ps) eofOnEmpty lim) hc ⟨rfl, rfl, by simp [Sofar.none], rfl, by simp [Sofar.none]⟩ rfl
  refine ⟨s', by simpa [Amf3.decodeBatch, fresh] using h5, ?_⟩
  obtain ⟨s'', h7, _⟩ := peer_batch H [.str (.lit y), .str (.ref 0)] (by simp [FitsL, PVal.Fits, PStr.Fits, hl]) t
    { t with strs := t.strs ++ [y] } [.str y, .str x]
    (by simp [denL, PVal.den, PStr.den, hy, hx])
    ((pwireL [.str (.lit y), .str (.ref 0)]).length + 1) (by simp [pwireL, PVal.wire]; omega) []
    { s' with data := pwireL [.str (.lit y), .str (.ref 0)], eofOnEmpty := eofOnEmpty, lim := lim } hc
    (h6.same ⟨rfl, rfl, rfl⟩) rfl
  exact ⟨s'', by simpa [Amf3.decodeBatch] using h7, by simpa using hxy⟩

/-- The messages "x" and ["y", "y"]. -/
example : ∃ s', Amf3.decodeBatch (fun _ => none) (St.buffer [6, 3, 120]) = (.ok ([.str [120]], none), s') ∧
    ∃ s'', Amf3.decodeBatch (fun _ => none) { s' with data := [6, 3, 121, 6, 0], eofOnEmpty := false, lim := id } =
      (.ok ([.str [121], .str [120]], none), s'') :=
  have h := C138_amf3_reuse_refuted (fun _ => none) [.str (.lit [120])] (by simp [FitsL, PVal.Fits, PStr.Fits])
    [.str [120]] ⟨[[120]], [], []⟩ (by simp [denL, PVal.den, PStr.den, Sofar.none]) [120] [] rfl [121] (by simp) (by simp) (by simp)
    false id (fun _ => Nat.le_refl _)
  h.2.imp fun _ h => ⟨h.1, h.2.imp fun _ h => h.1⟩

end Amf3

section Amf0
open Verif.Amf0 Verif.Spec.Amf0

/-- C138 (partial), AMF0: a message without references is decoded to the values it denotes by any decoder on a `bytes.Buffer` (or any
reader that does not report EOF for an empty read), whatever it was used for before and however that
ended.  Missing: messages with references (`C138_amf0_reuse_refuted`). -/
theorem C138_amf0_reuse_partial (ps : List P0) (hp : P0FitsL ps) (hf : P0FullL ps) (vs : List Val) (t : Known)
    (h : p0denL Known.none ps = some (vs, t)) (s : St) (hc : s.Contig) (he : s.eofOnEmpty = false) (hd : s.data = p0wireL ps) :
    ∃ s', Amf0.decodeBatch s = (.ok (vs, none), s') := by
  obtain ⟨u, hu, _⟩ := full_denL ps hf _ _ _ h ⟨Amf3.tabsOf s, [], true⟩
  have hlen : ps.length ≤ (p0wireL ps).length := by
    clear hp h hu hd hf
    induction ps with
    | nil => simp
    | cons p r ih =>
      have : 0 < p.wire.length := by cases p <;> simp [P0.wire]
      simp only [p0wireL, List.length_append, List.length_cons]; omega
  obtain ⟨s', h5, _⟩ := peer0_batch ps hp _ u vs hu (s.data.length + 1) (by rw [hd]; omega) [] s hc he (match0_any s) hd
  exact ⟨s', by simpa [Amf0.decodeBatch] using h5⟩

example : ∃ s', Amf0.decodeBatch
      ⟨p0wireL [.str [97], .obj [([98], .amf3 (.str (.lit [99])))], .strict [.null]], false, id,
        [.object [([120], .nil)]], [[120]], [.nil], [⟨[65], false, true, []⟩]⟩ =
    (.ok ([.str [97], .obj [([98], .str [99])], .arr [.nil]], none), s') :=
  C138_amf0_reuse_partial _ (by simp [P0FitsL, P0FitsF, P0.Fits, Spec.Amf3.PVal.Fits, Spec.Amf3.PStr.Fits])
    (by simp [P0FullL, P0FullF, P0.Full, Spec.Amf3.PVal.Full, Spec.Amf3.PStr.Full]) _
    ⟨⟨[[99]], [], []⟩, [.obj [([98], .str [99])], .other], false⟩
    (by simp [p0denL, P0.den, p0denF, Known.none, Known.add, Known.put, Spec.Amf3.PVal.den, Spec.Amf3.PStr.den, Spec.Amf3.Sofar.none]
        decide +kernel)
    _ (fun _ => Nat.le_refl _) rfl rfl

/-- C138 fails in AMF0 after every message whose first complex value was an object (and without typed objects): when the next
message is an object and a reference to it, the reference yields the object of the former message. -/
theorem C138_amf0_reuse_refuted (ps : List P0) (hp : P0FitsL ps) (vs : List Val) (t : Known)
    (h : p0denL Known.none ps = some (vs, t)) (ht : t.typed = false) (members : List (Bytes × Val)) (l : List Complex)
    (hx : t.complex = .obj members :: l) (k : Bytes) (hk : k ≠ []) (hl : k.length < 65536) (hkm : members ≠ [(k, .nil)])
    (lim : Nat → Nat) (hc : ∀ n, n ≤ lim n) :
    p0denL Known.none [.obj [(k, .null)], .ref 0] =
      some ([.obj [(k, .nil)], .shared 0], ⟨Spec.Amf3.Sofar.none, [.obj [(k, .nil)]], false⟩) ∧
    ∃ s', Amf0.decodeBatch (fresh (p0wireL ps) false lim) = (.ok (vs, none), s') ∧
      ∃ s'', Amf0.decodeBatch { s' with data := p0wireL [.obj [(k, .null)], .ref 0], eofOnEmpty := false, lim := lim } =
        (.ok ([.obj [(k, .nil)], .shared 0], none), s'') ∧
        s''.refs0[0]? = some (.object members) ∧ s''.refs0[0]? ≠ some (.object [(k, .nil)]) := by
  have hw : Spec.Amf3.lastWins [(k, .nil)] = [(k, .nil)] := by
    simp [Spec.Amf3.lastWins, List.eraseDups_cons]
  refine ⟨by simp [p0denL, P0.den, p0denF, Known.none, Known.add, Known.put, hw], ?_⟩
  have hlen : ps.length ≤ (p0wireL ps).length := by
    clear hp h hx ht
    induction ps with
    | nil => simp
    | cons p r ih =>
      have : 0 < p.wire.length := by cases p <;> simp [P0.wire]
      simp only [p0wireL, List.length_append, List.length_cons]; omega
  obtain ⟨s', h5, h6⟩ := peer0_batch ps hp Known.none t vs h ((p0wireL ps).length + 1) (by omega) []
    (fresh (p0wireL ps) false lim) hc rfl (Match0.fresh _ _ _) rfl
  refine ⟨s', by simpa [Amf0.decodeBatch, fresh] using h5, ?_⟩
  obtain ⟨s'', h7, h8⟩ := peer0_batch [.obj [(k, .null)], .ref 0] (by simp [P0FitsL, P0FitsF, P0.Fits, hk, hl]) t
    { t with complex := t.complex ++ [.obj [(k, .nil)]] } [.obj [(k, .nil)], .shared 0]
    (by simp [p0denL, P0.den, p0denF, Known.add, Known.put, hw, ht, hx])
    ((p0wireL [.obj [(k, .null)], .ref 0]).length + 1) (by simp [p0wireL, P0.wire]; omega) []
    { s' with data := p0wireL [.obj [(k, .null)], .ref 0], eofOnEmpty := false, lim := lim } hc rfl
    (h6.same ⟨⟨rfl, rfl, rfl⟩, rfl⟩) rfl
  have h9 := (h8.refs ht).2 0 members (by simp [hx])
  exact ⟨s'', by simpa [Amf0.decodeBatch] using h7, h9, by rw [h9]; simpa using hkm⟩

/-- The messages {"a": true} and [o, o] with o = {"b": null}. -/
example : ∃ s', Amf0.decodeBatch (St.buffer [3, 0, 1, 97, 1, 1, 0, 0, 9]) = (.ok ([.obj [([97], .bool true)]], none), s') ∧
    ∃ s'', Amf0.decodeBatch { s' with data := [3, 0, 1, 98, 5, 0, 0, 9, 7, 0, 0], eofOnEmpty := false, lim := id } =
      (.ok ([.obj [([98], .nil)], .shared 0], none), s'') ∧ s''.refs0[0]? = some (.object [([97], .bool true)]) :=
  have h := C138_amf0_reuse_refuted [.obj [([97], .bool 1)]] (by simp [P0FitsL, P0FitsF, P0.Fits])
    [.obj [([97], .bool true)]] ⟨Spec.Amf3.Sofar.none, [.obj [([97], .bool true)]], false⟩
    (by simp [p0denL, P0.den, p0denF, Known.none, Known.add, Known.put]; decide +kernel) rfl [([97], .bool true)] [] rfl [98]
    (by simp) (by simp) (by simp) id (fun _ => Nat.le_refl _)
  h.2.imp fun _ h => ⟨h.1, h.2.imp fun _ h => ⟨h.1, h.2.1⟩⟩

end Amf0
end Verif.Props
