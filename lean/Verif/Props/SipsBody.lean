import Verif.Model.SipsBody
import Verif.Props.SipsSlice
import Verif.Props.SipsLife
/-!
# Property C166: the body of a message is kept

`Verif/Model/SipsBody.lean` has the array behind the body.
-/
namespace Verif.Props
open Verif Verif.Str Verif.Sips Verif.Spec Verif.Spec.Sips

/-- What a program may do with messages and byte slices without writing into the window `t`: parse other messages, on whatever
object, write messages, append to slices that do not end within or before `t` (such as `t` itself), and write into bytes
outside `t`. -/
inductive Meanwhile (U : Unicode) (t : Slice) (m : Arrays) : Arrays → Prop
  | now : Meanwhile U t m m
  | parse {m'} (spare : Nat) (pieces : List Bytes) (s : BodyMsg) (r : Rd) :
      Meanwhile U t m m' → Meanwhile U t m (s.parse U spare pieces r m').2.2.2
  | bytes {m'} (order : Hdr → Hdr) (spare : Nat) (s : BodyMsg) : Meanwhile U t m m' → Meanwhile U t m (s.bytes U order spare m').2.2
  | append {m'} (spare : Nat) (s : Slice) (x : Bytes) : Inside s m' → (s.arr ≠ t.arr ∨ t.off + t.len ≤ s.off + s.len) →
      Meanwhile U t m m' → Meanwhile U t m (s.append spare x m').2
  | put {m'} (s : Slice) (k : Nat) (b : UInt8) : (s.arr ≠ t.arr ∨ t.off + t.len ≤ s.off + k ∨ s.off + k < t.off) →
      Meanwhile U t m m' → Meanwhile U t m (s.put k b m')

/-- The arrays that exist are untouched and new ones may be added. -/
def Grown (m m' : Arrays) : Prop := ∀ i < m.length, m'[i]? = m[i]?

theorem grown_length {m m' : Arrays} (h : Grown m m') : m.length ≤ m'.length := by
  rcases Nat.eq_zero_or_pos m.length with h0 | h0
  · omega
  · have := h (m.length - 1) (by omega)
    rw [List.getElem?_eq_getElem (l := m) (by omega)] at this
    have := (List.getElem?_eq_some_iff.1 this).1
    omega

theorem grown_append (spare : Nat) (m : Arrays) (x : Bytes) (s : Slice) (m' : Arrays) (h : Grown m m')
    (hs : s.cap = 0 ∨ m.length ≤ s.arr) :
    Grown m (s.append spare x m').2 ∧ ((s.append spare x m').1.cap = 0 ∨ m.length ≤ (s.append spare x m').1.arr) := by
  have hl := grown_length h
  by_cases hc : s.len + x.length ≤ s.cap
  · simp only [Slice.append, if_pos hc]
    refine ⟨?_, hs⟩
    intro i hi
    rcases hs with hs | hs
    · have hx : x = [] := List.eq_nil_of_length_eq_zero (by omega)
      subst hx
      simp only [List.length_nil, Nat.add_zero, List.append_nil, List.take_append_drop]
      rw [← h i hi]
      by_cases he : s.arr = i
      · subst he
        rw [List.getElem?_set_self (by omega), List.getElem?_eq_getElem (by omega)]
        rfl
      · rw [List.getElem?_set_ne he]
    · rw [List.getElem?_set_ne (by omega)]
      exact h i hi
  · simp only [Slice.append, if_neg hc]
    refine ⟨?_, .inr hl⟩
    intro i hi
    rw [List.getElem?_append_left (by omega)]
    exact h i hi

theorem grown_buildBuffer (spare : Nat) (m : Arrays) : ∀ (xs : List Bytes) (s : Slice) (m' : Arrays), Grown m m' →
    (s.cap = 0 ∨ m.length ≤ s.arr) → Grown m (buildBuffer spare xs s m').2 ∧
      ((buildBuffer spare xs s m').1.cap = 0 ∨ m.length ≤ (buildBuffer spare xs s m').1.arr)
  | [], _, _, h, hs => ⟨h, hs⟩
  | x :: xs, s, m', h, hs => by
    obtain ⟨h1, h2⟩ := grown_append spare m x s m' h hs
    rw [buildBuffer]
    exact grown_buildBuffer spare m xs _ _ h1 h2

theorem grown_get {m m' : Arrays} (h : Grown m m') (t : Slice) (ht : Inside t m) : t.get m' = t.get m := by
  by_cases ha : t.arr < m.length
  · rw [Slice.get, Slice.get, h _ ha]
  · simp [Slice.get, inside_len_zero ht (Nat.le_of_not_lt ha)]

theorem grown_parse (U : Unicode) (spare : Nat) (pieces : List Bytes) (s : BodyMsg) (r : Rd) (m : Arrays) :
    Grown m (s.parse U spare pieces r m).2.2.2 := by
  rw [BodyMsg.parse]
  generalize Sips.parse U (s.view m) r = q
  obtain ⟨e, c, r'⟩ := q
  cases e with
  | ok _ =>
    simp only [storeMessage]
    exact (grown_buildBuffer spare m pieces _ m (fun _ _ => rfl) (.inl rfl)).1
  | _ => exact fun _ _ => rfl

theorem grown_bytes (U : Unicode) (order : Hdr → Hdr) (spare : Nat) (s : BodyMsg) (m : Arrays) : Grown m (s.bytes U order spare m).2.2 := by
  rw [BodyMsg.bytes]
  generalize (s.view m).bytes U order = q
  obtain ⟨e, c⟩ := q
  cases e with
  | ok _ =>
    intro i hi
    simp only
    rw [List.getElem?_append_left hi]
  | _ => exact fun _ _ => rfl

theorem inside_of_length {t : Slice} {m m' : Arrays} (h : ((m'[t.arr]?).getD []).length = ((m[t.arr]?).getD []).length)
    (ht : Inside t m) : Inside t m' := by
  rw [Inside, h]; exact ht

theorem inside_grown {t : Slice} {m m' : Arrays} (h : Grown m m') (ht : Inside t m) : Inside t m' := by
  by_cases ha : t.arr < m.length
  · exact inside_of_length (by rw [h _ ha]) ht
  · obtain ⟨h1, h2⟩ := ht
    rw [List.getElem?_eq_none (Nat.le_of_not_lt ha)] at h2
    simp at h2
    exact ⟨h1, by omega⟩

theorem meanwhile_get (U : Unicode) (t : Slice) (m m' : Arrays) (ht : Inside t m) (h : Meanwhile U t m m') :
    Inside t m' ∧ t.get m' = t.get m := by
  induction h with
  | now => exact ⟨ht, rfl⟩
  | @parse m1 spare pieces s r _ ih =>
    have g := grown_parse U spare pieces s r m1
    exact ⟨inside_grown g ih.1, (grown_get g t ih.1).trans ih.2⟩
  | @bytes m1 order spare s _ ih =>
    have g := grown_bytes U order spare s m1
    exact ⟨inside_grown g ih.1, (grown_get g t ih.1).trans ih.2⟩
  | @append m1 spare s x hs hd _ ih =>
    obtain ⟨i1, i2⟩ := ih
    by_cases he : s.arr = t.arr
    · rcases hd with hd | hd
      · exact absurd he hd
      · refine ⟨?_, (append_frame spare s t x m1 hs i1 (.inl hd)).trans i2⟩
        rw [Slice.append]
        split
        · refine inside_of_length ?_ i1
          by_cases ha : t.arr < m1.length
          · rw [he, slice_set_same _ _ _ ha]
            obtain ⟨h1, h2⟩ := hs
            rw [he] at h2
            simp only [List.length_append, List.length_take, List.length_drop]
            omega
          · simp only
            rw [List.set_eq_of_length_le (by omega)]
        · exact inside_grown (fun i hi => List.getElem?_append_left hi) i1
    · have g : (s.append spare x m1).2[t.arr]? = m1[t.arr]? ∨ m1.length ≤ t.arr := by
        rw [Slice.append]
        split
        · exact .inl (List.getElem?_set_ne he)
        · by_cases ha : t.arr < m1.length
          · exact .inl (List.getElem?_append_left ha)
          · exact .inr (by omega)
      rcases g with g | g
      · exact ⟨inside_of_length (by rw [g]) i1, by rw [← i2, Slice.get, Slice.get, g]⟩
      · have hz := inside_len_zero i1 g
        obtain ⟨h1, h2⟩ := i1
        rw [List.getElem?_eq_none g] at h2
        simp at h2
        exact ⟨⟨h1, by omega⟩, by rw [← i2]; simp [Slice.get, hz]⟩
  | @put m1 s k b hd _ ih =>
    obtain ⟨i1, i2⟩ := ih
    have hl : (((s.put k b m1)[t.arr]?).getD []).length = ((m1[t.arr]?).getD []).length := by
      rw [Slice.put]
      by_cases he : s.arr = t.arr
      · by_cases ha : t.arr < m1.length
        · rw [he, slice_set_same _ _ _ ha, List.length_set]
        · rw [List.set_eq_of_length_le (by omega)]
      · rw [List.getElem?_set_ne he]
    refine ⟨inside_of_length hl i1, ?_⟩
    rw [← i2]
    rcases hd with hd | hd
    · rw [Slice.put, Slice.get, Slice.get, List.getElem?_set_ne hd]
    · exact put_frame s t k b m1 hd

theorem body_fill (s : Sip) (hs : s.payload = []) (header : Option Hdr) (body : Slice) (m : Arrays) (hb : Inside body m) :
    (BodyMsg.fill s header body).view m = Sip.fill s header (body.get m) ∧
    (BodyMsg.fill s header body).body.get m = body.get m ∧ (body.len ≠ 0 → (BodyMsg.fill s header body).body = body) := by
  have hl : (body.get m).length = body.len := by
    obtain ⟨h1, h2⟩ := hb
    simp [Slice.get]; omega
  unfold BodyMsg.fill Sip.fill
  rw [hl]
  by_cases h : body.len > 0
  · simp [h, BodyMsg.setBody, BodyMsg.view, Sip.setBody]
  · have h0 : body.len = 0 := by omega
    have hg : body.get m = [] := List.eq_nil_of_length_eq_zero (by omega)
    have h' : ¬ (0 > 0) := by omega
    simp only [BodyMsg.view, hg, h0, h', if_false]
    refine ⟨?_, by simp [Slice.get], fun h => absurd rfl h⟩
    have : ({ arr := 0, off := 0, len := 0, cap := 0 } : Slice).get m = [] := by simp [Slice.get]
    rw [this]
    split <;> simp [Sip.setHeader, ← hs]

/-- C166 (partial): a message made by `MakeRequest` or `MakeResponse`, or one whose body was set by `SetBody`, with the body in a
slice of the program is the message with these bytes as body. -/
theorem C166_given_partial (m : Arrays) (body : Slice) (hb : Inside body m) :
    (∀ method request header, (BodyMsg.makeRequest method request header body).view m = Sips.makeRequest method request header (body.get m)) ∧
    (∀ code header, (BodyMsg.makeResponse code header body).view m = Sips.makeResponse code header (body.get m)) ∧
    ∀ s : BodyMsg, (s.setBody body).view m = (s.view m).setBody (body.get m) :=
  ⟨fun _ _ _ => (body_fill _ rfl _ _ _ hb).1, fun _ _ => (body_fill _ rfl _ _ _ hb).1, fun _ => rfl⟩

/-- C166 (partial): the message, and what `Bytes` writes for it, remain the same whatever is done with other messages, including
further messages that are received with the object the body comes from, and with bytes outside the body, including what is
appended to the body itself.  Missing from the property: bytes that are written into the slice that was given. -/
theorem C166_kept_partial (U : Unicode) (order : Hdr → Hdr) (s : BodyMsg) (m m' : Arrays) (hs : Inside s.body m)
    (h : Meanwhile U s.body m m') :
    s.view m' = s.view m ∧ ((s.view m').bytes U order) = ((s.view m).bytes U order) := by
  have e : s.view m' = s.view m := by rw [BodyMsg.view, BodyMsg.view, (meanwhile_get U s.body m m' hs h).2]
  exact ⟨e, by rw [e]⟩

/-- A buffer of eight bytes of the program, the first three of which are given as body. -/
def bodyBuffer : Slice := ⟨0, 0, 3, 8⟩
def bodyArrays : Arrays := [[1, 2, 3, 0, 0, 0, 0, 0]]
def bodyMsg : BodyMsg := BodyMsg.makeResponse 200 none bodyBuffer

example : Inside bodyMsg.body bodyArrays ∧ (bodyMsg.view bodyArrays).payload = [1, 2, 3] := by
  constructor
  · exact ⟨by decide, by decide⟩
  · decide

/-- Another message is received and bytes are appended to the body. -/
example : Meanwhile plainU bodyMsg.body bodyArrays
    (bodyBuffer.append 0 [9] (BodyMsg.parse plainU 4 [text "SIP/2.0 200 OK\r\n"] ⟨Sip.new, ⟨0, 0, 0, 0⟩⟩
      (Rd.ofBytes (text "SIP/2.0 200 OK\r\n")) bodyArrays).2.2.2).2 :=
  .append _ _ _ (inside_grown (grown_parse _ _ _ _ _ _) ⟨by decide, by decide⟩) (.inr (by decide)) (.parse _ _ _ _ .now)

/-- C166: what `Bytes` returns is the text of the message in an array that no other slice of the program reaches; it remains the
text whatever happens to the message and its body.  The message itself is left as `Bytes` leaves it. -/
theorem C166_text (U : Unicode) (order : Hdr → Hdr) (spare : Nat) (s : BodyMsg) (m : Arrays) (w : Slice) (s' : BodyMsg) (m' : Arrays)
    (h : s.bytes U order spare m = (.ok w, s', m')) :
    ((s.view m).bytes U order).1 = .ok (w.get m') ∧ Inside w m' ∧ (∀ t : Slice, Inside t m → t.get m' = t.get m) ∧
    (∀ t : Slice, Inside t m → t.len ≠ 0 → t.arr ≠ w.arr) ∧ s'.body = s.body ∧ s'.view m' = { ((s.view m).bytes U order).2 with payload := s.body.get m' } := by
  have g := grown_bytes U order spare s m
  rw [h] at g
  rw [BodyMsg.bytes] at h
  generalize hq : (s.view m).bytes U order = q at h
  obtain ⟨e, c⟩ := q
  cases e with
  | ok x =>
    simp only [Prod.mk.injEq, Res.ok.injEq] at h
    obtain ⟨rfl, rfl, rfl⟩ := h
    refine ⟨?_, ⟨by simp, by simp⟩, fun t ht => grown_get g t ht, fun t ht hn he => hn (inside_len_zero ht (by rw [he]; exact Nat.le_refl _)), rfl, rfl⟩
    simp [Slice.get]
  | _ => simp at h

theorem bodyMsg_bytes : ((bodyMsg.view bodyArrays).bytes plainU id).1 =
    .ok (text "SIP/2.0 200 OK\r\ncontent-length: 3\r\n\r\n" ++ [1, 2, 3]) := by decide +kernel

example : ∃ w s' m', bodyMsg.bytes plainU id 10 bodyArrays = (.ok w, s', m') := by
  have hw := bodyMsg_bytes
  rw [BodyMsg.bytes]
  generalize (bodyMsg.view bodyArrays).bytes plainU id = q at hw ⊢
  obtain ⟨e, c⟩ := q
  simp only at hw
  subst hw
  exact ⟨_, _, _, rfl⟩

/-- C166 (partial): a message received by `Parse` has a body in an array of its own: nothing the program holds shares it. -/
theorem C166_received_partial (U : Unicode) (spare : Nat) (pieces : List Bytes) (s s' : BodyMsg) (r r' : Rd) (hr : r.Ok) (m m' : Arrays)
    (h : s.parse U spare pieces r m = (.ok (), s', r', m')) (hp : pieces.flatten ++ r'.all = r.all) :
    ∃ c, Sips.parse U (s.view m) r = (.ok (), c, r') ∧ s'.view m' = c ∧
    (∀ t : Slice, Inside t m → t.get m' = t.get m) ∧ ∀ t : Slice, Inside t m → t.len ≠ 0 → s'.body.len ≠ 0 → t.arr ≠ s'.body.arr := by
  have g := grown_parse U spare pieces s r m
  rw [h] at g
  rw [BodyMsg.parse] at h
  generalize hq : Sips.parse U (s.view m) r = q at h
  obtain ⟨e, c, r1⟩ := q
  cases e with
  | ok _ =>
    simp only [Prod.mk.injEq, true_and] at h
    obtain ⟨rfl, rfl, rfl⟩ := h
    have hv := C160_views U (s.view m) c r r1 hr hq spare pieces m hp
    refine ⟨c, rfl, ?_, fun t ht => grown_get g t ht, ?_⟩
    · rw [BodyMsg.view]
      simp only [hv.2]
    · intro t ht hn hb he
      simp only [storeMessage, layers] at hb he
      rcases (grown_buildBuffer spare m pieces ⟨0, 0, 0, 0⟩ m (fun _ _ => rfl) (.inl rfl)).2 with h0 | h0
      · have hi := (buildBuffer_get spare pieces ⟨0, 0, 0, 0⟩ m (inside_nil m)).1.1
        omega
      · exact hn (inside_len_zero ht (by rw [he]; exact h0))
  | _ => simp at h

example : ∃ s' r' m', BodyMsg.parse plainU 4 [text "SIP/2.0 200 OK\r\n", text "Content-Length: 3\r\n", text "\r\n", text "x"]
    bodyMsg (Rd.ofBytes (text "SIP/2.0 200 OK\r\nContent-Length: 3\r\n\r\nx")) bodyArrays = (.ok (), s', r', m') := by
  have h : (Sips.parse plainU (bodyMsg.view bodyArrays) (Rd.ofBytes (text "SIP/2.0 200 OK\r\nContent-Length: 3\r\n\r\nx"))).1 = .ok () := by
    decide +kernel
  rw [BodyMsg.parse]
  generalize Sips.parse plainU (bodyMsg.view bodyArrays) _ = q at h ⊢
  obtain ⟨e, c, r⟩ := q
  simp only at h
  subst h
  exact ⟨_, _, _, rfl⟩

/-- C166 fails for bytes that are written into the slice that was given, such as a buffer that is used for the next message: for
every message with a body and every byte of it, what `Bytes` writes afterwards has the new byte. -/
theorem C166_refuted (U : Unicode) (order : Hdr → Hdr) (s : BodyMsg) (m : Arrays) (hs : Inside s.body m) (k : Nat) (hk : k < s.body.len)
    (b : UInt8) (w : Bytes) (hw : ((s.view m).bytes U order).1 = .ok w) :
    ∃ head, w = head ++ s.body.get m ∧ ((s.view (s.body.put k b m)).bytes U order).1 = .ok (head ++ (s.body.get m).set k b) := by
  have hg := put_get s.body k b m hs hk
  have hl : (s.body.get m).length = s.body.len := by
    obtain ⟨h1, h2⟩ := hs
    simp [Slice.get]; omega
  have hf : firstLineBytes (s.view (s.body.put k b m)) = firstLineBytes (s.view m) := rfl
  simp only [Sip.bytes, hf] at hw ⊢
  generalize firstLineBytes (s.view m) = l at *
  have e1 : (s.view m).payload = s.body.get m := rfl
  have e2 : (s.view (s.body.put k b m)).payload = (s.body.get m).set k b := by rw [← hg]; rfl
  have e3 : (s.view m).headers = s.core.headers := rfl
  have e4 : (s.view (s.body.put k b m)).headers = s.core.headers := rfl
  simp only [e1, e2, e3, e4] at *
  cases l with
  | ok l =>
    cases hh : s.core.headers with
    | none => simp [hh] at hw
    | some hd =>
      simp only [hh, Res.ok.injEq, hl, show s.body.len > 0 by omega, if_true] at hw
      refine ⟨l ++ b!"\r\n" ++ hdrBytes (order (setContentLength U hd s.body.len)) ++ b!"\r\n", ?_, ?_⟩
      · rw [← hw]; simp [List.append_assoc]
      · simp [List.append_assoc, hl, show s.body.len > 0 by omega]
  | _ => simp at hw

/-- The buffer is used for something else: the response is sent with another body. -/
example : ∃ head w, w = head ++ [1, 2, 3] ∧ ((bodyMsg.view bodyArrays).bytes plainU id).1 = .ok w ∧
    ((bodyMsg.view (bodyBuffer.put 1 7 bodyArrays)).bytes plainU id).1 = .ok (head ++ [1, 7, 3]) := by
  obtain ⟨head, h1, h2⟩ := C166_refuted plainU id bodyMsg bodyArrays ⟨by decide, by decide⟩ 1 (by decide) 7 _ bodyMsg_bytes
  exact ⟨head, _, h1, bodyMsg_bytes, h2⟩

end Verif.Props
