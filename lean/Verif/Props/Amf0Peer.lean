import Verif.Props.Amf0
import Verif.Lemmas.Amf0Peer
/-!
# Properties C98–C99: AMF0 messages of other producers

What such messages look like and what they mean is specified in `Verif/Spec/Amf0Peer.lean`.
-/
namespace Verif.Props
open Verif Verif.Amf Verif.Spec.Amf

section Amf0Peer
open Verif.Amf0 Verif.Spec.Amf0
open Verif.Spec.Amf3 (Sofar)

theorem peer0_batch (ps : List P0) (hp : P0FitsL ps) (t t' : Known) (vs : List Val) (h : p0denL t ps = some (vs, t'))
    (fuel : Nat) (hfu : ps.length < fuel) (ret : List Val) (s : St) (hc : s.Contig) (he : s.eofOnEmpty = false)
    (hm : Match0 t s) (hd : s.data = p0wireL ps) :
    ∃ s', Amf3.batchLoop Amf0.decode fuel ret s = (.ok (ret ++ vs, none), s') ∧ Match0 t' s' := by
  induction ps generalizing t vs fuel ret s with
  | nil =>
    obtain ⟨f, rfl⟩ : ∃ f, fuel = f + 1 := ⟨fuel - 1, by simp at hfu; omega⟩
    have hdata : s.data = [] := by simpa [p0wireL] using hd
    have hE : Amf0.decode s = (.err .eof, s) := by
      unfold Amf0.decode
      rw [dec_succ, GoM.bind_apply, Safe.readByte_nil hdata]
    simp only [p0denL, Option.some.injEq, Prod.mk.injEq] at h
    exact ⟨s, by simp [Amf3.batchLoop, hE, ← h.1], by rw [← h.2]; exact hm⟩
  | cons p ps ih =>
    obtain ⟨f, rfl⟩ : ∃ f, fuel = f + 1 := ⟨fuel - 1, by simp at hfu; omega⟩
    simp only [p0denL] at h
    rcases h1 : p.den t with _ | ⟨x, t1⟩
    · simp [h1] at h
    rw [h1] at h
    simp only at h
    rcases h2 : p0denL t1 ps with _ | ⟨xs, t2⟩
    · simp [h2] at h
    rw [h2] at h
    simp only [Option.some.injEq, Prod.mk.injEq] at h
    obtain ⟨rfl, rfl⟩ := h
    simp only [P0FitsL] at hp
    obtain ⟨s1, g1, g2, g3, g4⟩ := gives0_val p hp.1 t x t1 h1 (s.data.length + 1) (by rw [hd, p0wireL]; simp; omega)
      s (p0wireL ps) hm hc (.inl he) hd
    obtain ⟨s', h5, h6⟩ := ih hp.2 t1 xs h2 f (by simp at hfu; omega) (ret ++ [x]) s1
      (by unfold St.Contig; rw [g3.1]; exact hc) (by rw [g3.2]; exact he) g4 g2
    refine ⟨s', ?_, h6⟩
    have g1' : Amf0.decode s = (.ok x, s1) := g1
    simp [Amf3.batchLoop, g1', h5]

/-- C98 (partial): a fresh decoder on a `bytes.Buffer` (or any reader that does not report EOF for an empty read) with the
messages of any producer that uses short and long strings, XML documents, objects, ECMA arrays with whatever count, typed objects, strict
arrays, dates with whatever time zone, AMF3 values and references yields exactly the values they denote, in order and without
an error.  A reference yields the very object it refers to (`shared`), also from inside that object, and this
object has at the end the members that were sent for it.  Missing: references to strict arrays and behind a typed
object (`C25_amf0_references_refuted`) and true sent as another byte than 1 (`C98_amf0_bool_refuted`); on a
`bytes.Reader` a final empty string is refused (C19). -/
theorem C98_amf0_peer_messages_partial (ps : List P0) (hp : P0FitsL ps) (vs : List Val) (t : Known)
    (h : p0denL Known.none ps = some (vs, t)) (lim : Nat → Nat) (hc : ∀ n, n ≤ lim n) :
    ∃ s', Amf0.decodeBatch (fresh (p0wireL ps) false lim) = (.ok (vs, none), s') ∧
      (t.typed = false → ∀ (i : Nat) members, t.complex[i]? = some (.obj members) → s'.refs0[i]? = some (.object members)) := by
  have hlen : ps.length ≤ (p0wireL ps).length := by
    clear hp h
    induction ps with
    | nil => simp
    | cons p r ih =>
      have : 0 < p.wire.length := by cases p <;> simp [P0.wire]
      simp only [p0wireL, List.length_append, List.length_cons]; omega
  obtain ⟨s', h5, h6⟩ := peer0_batch ps hp Known.none t vs h ((p0wireL ps).length + 1) (by omega) []
    (fresh (p0wireL ps) false lim) hc rfl (Match0.fresh _ _ _) rfl
  exact ⟨s', by simpa [Amf0.decodeBatch, fresh] using h5, fun ht => (h6.refs ht).2⟩

/-- The same for one value on any reader, other data following: it is read exactly to its end. -/
theorem C98_amf0_peer_value_partial (p : P0) (hp : p.Fits) (v : Val) (t : Known) (h : p.den Known.none = some (v, t))
    (rest : Bytes) (eofOnEmpty : Bool) (hr : eofOnEmpty = false ∨ rest ≠ []) (lim : Nat → Nat) (hc : ∀ n, n ≤ lim n) :
    ∃ s', Amf0.decode (fresh (p.wire ++ rest) eofOnEmpty lim) = (.ok v, s') ∧ s'.data = rest ∧
      (t.typed = false → ∀ (i : Nat) members, t.complex[i]? = some (.obj members) → s'.refs0[i]? = some (.object members)) := by
  obtain ⟨s', h1, h2, _, h4⟩ := gives0_val p hp Known.none v t h ((p.wire ++ rest).length + 1) (by simp; omega)
    (fresh (p.wire ++ rest) eofOnEmpty lim) rest (Match0.fresh _ _ _) hc hr rfl
  exact ⟨s', h1, h2, fun ht => (h4.refs ht).2⟩

/-- As sent by other RTMP implementations: a command name as a long string, an ECMA array with count 0, an empty
string and a name sent twice, a date in some time zone in a strict array, and an AMF3 string sent twice, the second time by reference. -/
def somePeer0 : List P0 :=
  [.longStr [99], .ecma 0 [([97], .str []), ([98], .bool 1), ([97], .number 0)], .strict [.date 0 60, .undefined],
   .amf3 (.str (.lit [120])), .typed [84] [([97], .amf3 (.str (.ref 0)))]]

theorem somePeer0_den : p0denL Known.none somePeer0 = some
    ([.str [99], .obj [([97], .f64 0), ([98], .bool true)], .arr [.f64 0, .nil], .str [120], .typed [84] [([97], .str [120])]],
     ⟨⟨[[120]], [], []⟩, [.obj [([97], .f64 0), ([98], .bool true)], .other, .other], true⟩) := by
  simp [p0denL, somePeer0, P0.den, p0denF, Spec.Amf3.PVal.den, Spec.Amf3.PStr.den, Sofar.none, Known.none, Known.add, Known.put]
  decide +kernel

theorem somePeer0_fits : P0FitsL somePeer0 := by
  simp [somePeer0, P0FitsL, P0FitsF, P0.Fits, Spec.Amf3.PVal.Fits, Spec.Amf3.PStr.Fits]

example : ∃ s', Amf0.decodeBatch (fresh (p0wireL somePeer0) false (fun n => n)) =
    (.ok ([.str [99], .obj [([97], .f64 0), ([98], .bool true)], .arr [.f64 0, .nil], .str [120],
      .typed [84] [([97], .str [120])]], none), s') :=
  (C98_amf0_peer_messages_partial somePeer0 somePeer0_fits _ _ somePeer0_den (fun n => n) (fun _ => Nat.le_refl _)).imp fun _ h => h.1

/-- An object that contains itself and, behind a strict array, an object that is later referred to. -/
def cyclicPeer0 : List P0 :=
  [.obj [([97], .ref 0), ([98], .strict [.obj [([99], .null)]])], .ref 2, .ref 0]

example : ∃ s', Amf0.decodeBatch (fresh (p0wireL cyclicPeer0) false (fun n => n)) =
    (.ok ([.obj [([97], .shared 0), ([98], .arr [.obj [([99], .nil)]])], .shared 2, .shared 0], none), s') ∧
    s'.refs0[0]? = some (.object [([97], .shared 0), ([98], .arr [.obj [([99], .nil)]])]) ∧
    s'.refs0[2]? = some (.object [([99], .nil)]) :=
  (C98_amf0_peer_messages_partial cyclicPeer0 (by simp [cyclicPeer0, P0FitsL, P0FitsF, P0.Fits]) _
    ⟨Sofar.none, [.obj [([97], .shared 0), ([98], .arr [.obj [([99], .nil)]])], .other, .obj [([99], .nil)]], false⟩
    (by simp [p0denL, cyclicPeer0, P0.den, p0denF, Known.none, Known.add, Known.put]; decide +kernel) (fun n => n) (fun _ => Nat.le_refl _)).imp
      fun _ h => ⟨h.1, h.2 rfl 0 _ rfl, h.2 rfl 2 _ rfl⟩

example : ∃ s', Amf0.decode (fresh (8 :: 0 :: 0 :: 0 :: 7 :: [0, 1, 97, 2, 0, 0, 0, 0, 9] ++ [5]) true (fun n => n)) =
    (.ok (.obj [([97], .str [])]), s') ∧ s'.data = [5] :=
  (C98_amf0_peer_value_partial (.ecma 7 [([97], .str [])]) (by simp [P0.Fits, P0FitsF]) _ ⟨Sofar.none, [.obj [([97], .str [])]], false⟩
    (by simp [P0.den, p0denF, Known.none, Known.add, Known.put]; decide +kernel)
    [5] true (.inr (by simp)) (fun n => n) (fun _ => Nat.le_refl _)).imp fun _ h => ⟨h.1, h.2.1⟩

/-- C98 fails for every true boolean sent as another byte than 1: it is decoded as false. -/
theorem C98_amf0_bool_refuted (b : UInt8) (h0 : b ≠ 0) (h1 : b ≠ 1) (s : St) (rest : Bytes)
    (hd : s.data = (P0.bool b).wire ++ rest) :
    (P0.bool b).den Known.none = some (.bool true, Known.none) ∧
    ∃ s', Amf0.decode s = (.ok (.bool false), s') ∧ s'.data = rest := by
  refine ⟨by simp [P0.den, h0], { s with data := rest }, ?_, rfl⟩
  unfold Amf0.decode
  rw [dec_succ, GoM.bind_apply, Safe.readByte_cons (x := 1) (t := b :: rest) (by simpa [P0.wire] using hd)]
  have h2 : readByte { s with data := b :: rest } = (.ok b, { s with data := rest }) := Safe.readByte_cons rfl
  simp [branch, GoM.bind_apply, h2, h1]

example : ∃ s', Amf0.decode (St.buffer [1, 255]) = (.ok (.bool false), s') ∧ s'.data = [] :=
  (C98_amf0_bool_refuted 255 (by decide) (by decide) (St.buffer [1, 255]) [] rfl).2

/-! ## C99 -/

/-- C99 (partial): a header sent as a string is removed exactly.  Missing: as a long string, see below. -/
theorem C99_del_header_partial (st : St) (q : Bytes) :
    Amf0.delMetaHeader Amf0.decode st ((P0.str setDataFrameChars).wire ++ q) = .ok q := by
  have hw : (P0.str setDataFrameChars).wire = metaHeader := by rw [← chars_eq]; decide
  rw [hw]
  exact C28_del_header st q

example : Amf0.delMetaHeader Amf0.decode (St.buffer []) ((P0.str setDataFrameChars).wire ++ sampleMeta) = .ok sampleMeta :=
  C99_del_header_partial (St.buffer []) sampleMeta

/-- C99 fails for a metadata header sent as a long string: deleting it leaves its last two characters before
whatever follows. -/
theorem C99_del_long_header_refuted (st : St) (q : Bytes) :
    startsWithString st ((P0.longStr setDataFrameChars).wire ++ q) setDataFrameChars ∧
    Amf0.delMetaHeader Amf0.decode st ((P0.longStr setDataFrameChars).wire ++ q) = .ok ([109, 101] ++ q) := by
  rw [← chars_eq]
  obtain ⟨s', hd, _⟩ := decode_marker (m := 12) (b := false) (body := utf8Long Amf0.setDataFrame) (x := .str Amf0.setDataFrame)
    { st with data := (P0.longStr Amf0.setDataFrame).wire ++ q, eofOnEmpty := true, lim := id } q
    (fun _ => Nat.le_refl _) (by simp [P0.wire]) (by simp)
    (Codec.map (codec_longString Amf0.setDataFrame (by decide)) Val.str)
  refine ⟨⟨s', hd⟩, ?_⟩
  simp only [Amf0.delMetaHeader, hd, metaHeader_eq, if_true]
  have hl : metaHeader.length = 16 := rfl
  have hw : (P0.longStr Amf0.setDataFrame).wire = [12, 0, 0, 0, 13, 64, 115, 101, 116, 68, 97, 116, 97, 70, 114, 97] ++ [109, 101] := by
    decide
  unfold goSlice
  rw [if_pos (by simp [hl, hw]; omega)]
  have : (((P0.longStr Amf0.setDataFrame).wire ++ q).length : Int).toNat = ((P0.longStr Amf0.setDataFrame).wire ++ q).length := Int.toNat_natCast _
  rw [this, List.take_length, Int.toNat_natCast, hl, hw]
  rfl

/-- So that a muxer that deletes the header and decodes on finds no string there. -/
example : Amf0.delMetaHeader Amf0.decode (St.buffer []) ((P0.longStr setDataFrameChars).wire ++ sampleMeta) =
    .ok ([109, 101] ++ sampleMeta) ∧
    (Amf0.decode (St.buffer ([109, 101] ++ sampleMeta))).1 = .err .other :=
  ⟨(C99_del_long_header_refuted (St.buffer []) sampleMeta).2, by decide +kernel⟩

end Amf0Peer
end Verif.Props
