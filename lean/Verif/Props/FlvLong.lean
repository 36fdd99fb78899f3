import Verif.Props.Flv
import Verif.Props.Amf0Peer
/-!
# Property C14: the metadata header as a long string
-/
namespace Verif.Props
open Verif Verif.Flv Verif.Spec.Flv Verif.Amf Verif.Spec.Amf Verif.Spec.Amf0

/-- C14 fails for all script data behind a metadata header sent as a long string: the tag written and the packet returned begin with
the last two characters of the header. -/
theorem C14_long_header_refuted (m : Mixer) (h : MixerReached m) (hw : m.flv.Reliable) (p : Packet) (pts : UInt32) (d : Bytes)
    (ht : p.type = 2) (hd : p.data = [12, 0, 0, 0, 13] ++ setDataFrameChars ++ d) (hl : d.length + 2 < 2 ^ 24) :
    ∃ m', m.mux p pts = (.ok (), m', { p with data := [109, 101] ++ d }) ∧
      m'.flv.out = m.flv.out ++ (TagRec.mk 18 pts.toNat ([109, 101] ++ d)).bytes := by
  have hp : prep p = .ok { p with data := [109, 101] ++ d } := by
    unfold prep
    have hd : p.data = (P0.longStr setDataFrameChars).wire ++ d := hd.trans (by congr 1; decide +kernel)
    rw [if_neg (by omega), if_pos ht, hd, (C99_del_long_header_refuted _ d).2]
  obtain ⟨m', h1, h2⟩ := mixer_mux_prep m h hw p _ pts hp (by simp; omega)
  refine ⟨m', h1, h2.trans ?_⟩
  simp [tagOf, ht]

example : ∃ m', sampleMixer.mux { type := 2, data := [12, 0, 0, 0, 13] ++ setDataFrameChars ++ sampleMeta } 7 =
      (.ok (), m', { type := 2, data := [109, 101] ++ sampleMeta }) ∧
    m'.flv.out = sampleMixer.flv.out ++ (TagRec.mk 18 7 ([109, 101] ++ sampleMeta)).bytes :=
  C14_long_header_refuted sampleMixer sampleMixer_reached (fun _ => rfl) { type := 2, data := [12, 0, 0, 0, 13] ++ setDataFrameChars ++ sampleMeta } 7
    sampleMeta rfl rfl (by decide)

end Verif.Props
