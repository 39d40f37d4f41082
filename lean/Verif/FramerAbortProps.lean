import Verif.FramerAbortLemmas

/-!
# Property C179: after an abort the next frame is received
-/

namespace Diminuto.Framer

/-- C179: the result is two exactly if both octets have been taken by the stream and it has been flushed, and `EOF` otherwise; what is written is never more than an abort. -/
theorem abort_result (taken : Nat) (flushes : Bool) :
    ((abort taken flushes).1 = 2 ↔ 2 ≤ taken ∧ flushes = true) ∧ ((abort taken flushes).1 = 2 ∨ (abort taken flushes).1 = -1) ∧
      (abort taken flushes).2 = [0x7d#8, 0x7e#8].take taken := by
  unfold abort
  by_cases h : taken < 2
  · rw [if_pos h]
    exact ⟨⟨fun h' => absurd (show (-1 : Int) = 2 from h') (by decide), fun h' => absurd h'.1 (by omega)⟩, Or.inr rfl, rfl⟩
  · rw [if_neg h]
    have ht : [0x7d#8, 0x7e#8].take taken = [ESCAPE, FLAG] := by
      rw [List.take_of_length_le (by simp; omega)]; rfl
    cases flushes
    · rw [if_neg (by decide)]
      exact ⟨⟨fun h' => absurd h' (by decide), fun h' => absurd h'.2 (by decide)⟩, Or.inr rfl, ht.symm⟩
    · rw [if_pos rfl]
      exact ⟨⟨fun _ => ⟨by omega, rfl⟩, fun _ => rfl⟩, Or.inl rfl, ht.symm⟩

/-- C179: from every stream some payloads are read until its end, and no others. -/
theorem reads_total (buffer : List Byte) (size : Nat) (hb : size ≤ buffer.length) (stream : List Byte) : ∃ payloads, Reads buffer size stream payloads ∧ ∀ others, Reads buffer size stream others → others = payloads := by
  induction hn : stream.length using Nat.strongRecOn generalizing stream with
  | _ n ih =>
    rcases readLoop_append buffer size hb [] stream [] (init buffer size) rfl (by simp [Stuck, init]) with ⟨g, tail, h1, h2, _⟩ | ⟨g, _, _, h1, _⟩
    · obtain ⟨ps, hp, hu⟩ := ih tail.length (by omega) tail rfl
      refine ⟨_, .frame h1 hp, ?_⟩
      intro others ho
      have h1' : read stream buffer size = some (.frame g tail) := h1
      cases ho with
      | eof h => rw [h1'] at h; cases h
      | frame h h' => rw [h1'] at h; cases h; rw [hu _ h']
    · refine ⟨[], .eof h1, ?_⟩
      intro others ho
      have h1' : read stream buffer size = some (.eof g) := h1
      cases ho with
      | eof _ => rfl
      | frame h _ => rw [h1'] at h; cases h

/-- C179: whatever has been sent before an abort, be it part of a frame or noise, a frame after the abort is received, and before it only what was received without the abort; what comes after the frame is received as if nothing had been before it. -/
theorem abort_recovers (buffer : List Byte) (size : Nat) (hb : size ≤ buffer.length) (before wire payload after : List Byte) (seq : BitVec 16) (hw : IsFrame wire payload seq) (hn : payload.length ≤ size) (hne : payload ≠ [])
    (taken : Nat) (flushes : Bool) (hr : (abort taken flushes).1 = 2) (ps qs : List (List Byte)) (hp : Reads buffer size before ps) (hq : Reads buffer size after qs) :
    Reads buffer size (before ++ (abort taken flushes).2 ++ wire ++ after) (ps ++ payload :: qs) := by
  have ha : (abort taken flushes).2 = [ESCAPE, FLAG] := by
    rw [(abort_result taken flushes).2.2, List.take_of_length_le (by have := ((abort_result taken flushes).1.1 hr).1; simpa using this)]
    rfl
  rw [ha, List.append_assoc, List.append_assoc]
  have hcat : [ESCAPE, FLAG] ++ (wire ++ after) = ESCAPE :: FLAG :: (wire ++ after) := rfl
  rw [hcat]
  induction hp with
  | @eof stream g h =>
    rcases readLoop_append buffer size hb (ESCAPE :: FLAG :: (wire ++ after)) stream [] (init buffer size) rfl (by simp [Stuck, init]) with ⟨g', tail, h1, _⟩ | ⟨g', hist, f, _, h2, h3, h4⟩
    · have h1' : read stream buffer size = some (.frame g' tail) := h1
      rw [h1'] at h; cases h
    · obtain ⟨x, hx, hsize, hlen, _⟩ := TInv.all buffer size hb hist
      rw [h2] at hx
      cases hx
      obtain ⟨y, h5, h6, h7, h8⟩ := readLoop_abort f h3 (wire ++ after)
      obtain ⟨z, h9, _, h10, _⟩ := readLoop_starts y (by rw [h7, h8, hlen, show f.size = size from hsize]; exact hb) h6 wire payload after seq hw (by rw [h7, show f.size = size from hsize]; exact hn) hne
      have hz : read (stream ++ ESCAPE :: FLAG :: (wire ++ after)) buffer size = some (.frame z after) := by
        rw [read, h4, h5, h9]
      rw [List.nil_append, ← h10]
      exact .frame hz hq
  | @frame stream g rest ps h _ ih =>
    rcases readLoop_append buffer size hb (ESCAPE :: FLAG :: (wire ++ after)) stream [] (init buffer size) rfl (by simp [Stuck, init]) with ⟨g', tail, h1, _, h3⟩ | ⟨g', _, _, h1, _⟩
    · have h1' : read stream buffer size = some (.frame g' tail) := h1
      rw [h1'] at h
      cases h
      exact .frame h3 ih
    · have h1' : read stream buffer size = some (.eof g') := h1
      rw [h1'] at h; cases h

/-- A frame, part of another that ends in the middle of an escape sequence, an abort, and a frame. -/
example :
    let s := init [] 0
    let send (s : Framer) (p : List Byte) := (writer s p).getD ([], s)
    let (w1, s1) := send s [0x41]
    let (w2, s2) := send s1 [0x7e, 0x43]
    let (w3, _) := send s2 [0x0a, 0x45]
    (w2.take 8).getLast? = some ESCAPE ∧ readAll [0#8, 0#8] 2 5 (w1 ++ w2.take 8 ++ (abort 2 true).2 ++ w3) = some [[0x41], [0x0a, 0x45]] := by
  decide +kernel

/-- C179, false without an abort: a frame after part of a frame that ends in the middle of an escape sequence is lost. -/
theorem abort_counterexample :
    let s := init [] 0
    let send (s : Framer) (p : List Byte) := (writer s p).getD ([], s)
    let (w2, s2) := send s [0x7e, 0x43]
    let (w3, _) := send s2 [0x0a, 0x45]
    readAll [0#8, 0#8] 2 5 (w2.take 8 ++ w3) = some [] ∧ readAll [0#8, 0#8] 2 5 (w2.take 8 ++ (abort 2 true).2 ++ w3) = some [[0x0a, 0x45]] ∧
      (abort 1 true).1 = -1 ∧ readAll [0#8, 0#8] 2 5 (w2.take 7 ++ (abort 1 true).2 ++ w3) = some [] ∧ readAll [0#8, 0#8] 2 5 (w2.take 7 ++ (abort 1 true).2 ++ (abort 2 true).2 ++ w3) = some [[0x0a, 0x45]] := by
  decide +kernel

end Diminuto.Framer
