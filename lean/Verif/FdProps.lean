import Verif.FdLemmas

/-!
# Property C46: reading and writing under any schedule of short transfers
-/

namespace Diminuto.Fd

/-- C46, reading: whatever the kernel does, nothing outside of the buffer is touched, and if the
function returns, the buffer holds, from its beginning, exactly the bytes of the replies, which
are the next bytes of the stream; no more than the maximum; the system calls are those and only those
that are needed; the number of bytes is returned, and an error only if there are none. -/
theorem fd_read_exact (k : List Source) (mem : List Byte) (min max : BitVec 64)
    (hmin : min.toNat < 2 ^ 63) (hmem : max.toNat ≤ mem.length) :
    readGeneric k mem min max ≠ .undefined ∧
    ∀ g, readGeneric k mem min max = .done g →
      ReadCalls min.toNat max.toNat g.calls ∧
      available k = bytesOf g.calls ++ available g.kernel ∧
      g.mem = bytesOf g.calls ++ mem.drop (bytesOf g.calls).length ∧
      (bytesOf g.calls).length ≤ max.toNat ∧
      g.ret = if bytesOf g.calls = [] ∧ g.calls.getLast?.map Prod.snd = some .error then -1
        else ((bytesOf g.calls).length : Int) := by
  have h := readLoop_done min.toNat max.toNat k mem 0 (Nat.zero_le _) hmem
  rw [← toInt_small min hmin] at h
  have e : readLoop min.toInt k mem 0 (max.toNat - 0) ((0 : Nat) : Int) = readGeneric k mem min max := rfl
  rw [e] at h
  constructor
  · intro hu
    rw [hu] at h
    exact h
  · intro g hg
    rw [hg] at h
    obtain ⟨d, rfl, h2, h3, h4, h5, h6⟩ := h
    simp only [Nat.zero_add] at h3 h4 h5 h6
    refine ⟨h6, h2, by simpa using h3, h4, ?_⟩
    rw [h5]
    simp only [List.length_eq_zero_iff]

/-- C46, reading, the minimum: if less is returned, end of file or an error was the reason. -/
theorem fd_read_minimum (k : List Source) (mem : List Byte) (min max : BitVec 64)
    (hmin : min.toNat ≤ max.toNat) (hmax : max.toNat < 2 ^ 63) (hmem : max.toNat ≤ mem.length) (g : Got)
    (h : readGeneric k mem min max = .done g) (hlt : g.ret < min.toNat) :
    g.calls.getLast?.map Prod.snd = some .eof ∨ g.calls.getLast?.map Prod.snd = some .error := by
  obtain ⟨h1, -, -, -, h5⟩ := (fd_read_exact k mem min max (by omega) hmem).2 g h
  rcases List.eq_nil_or_concat g.calls with hn | ⟨pre, x, hx⟩
  · exfalso
    have hs : readLoop min.toInt k mem 0 max.toNat 0 = .done g := h
    rw [hn] at h5
    simp [bytesOf] at h5
    rw [h5] at hlt
    have hpos : max.toNat > 0 := by omega
    cases k with
    | nil =>
      unfold readLoop at hs
      rw [if_pos hpos] at hs
      simp at hs
    | cons e k =>
      unfold readLoop at hs
      rw [if_pos hpos] at hs
      simp only [] at hs
      split at hs
      · simp only [Outcome.done.injEq] at hs
        rw [← hs] at hn
        simp at hn
      · simp only [Outcome.done.injEq] at hs
        rw [← hs] at hn
        simp at hn
      · split at hs
        · simp at hs
        · split at hs
          · simp only [Outcome.done.injEq] at hs
            rw [← hs] at hn
            simp at hn
          · unfold Outcome.map at hs
            split at hs
            · simp only [Outcome.done.injEq] at hs
              rw [← hs] at hn
              simp [Got.before] at hn
            · simp at hs
            · simp at hs
  · rw [List.concat_eq_append] at hx
    have := h1 pre x [] (by rw [hx])
    rw [hx]
    obtain ⟨c, r⟩ := x
    cases r with
    | eof => simp
    | error => simp
    | got bs =>
      exfalso
      have hret : g.ret = ((bytesOf g.calls).length : Int) := by
        rw [h5, hx]
        simp
      by_cases hb : bs = []
      · subst hb
        have hs : readLoop min.toInt k mem 0 max.toNat 0 = .done g := h
        have := got_ne k mem _ _ _ g hs (c, .got []) (by rw [hx]; simp)
        simp at this
      · have := this.2.2.2.2.2 rfl hb
        omega

/-- C46, writing: nothing outside of the buffer is read, and if the function returns, the
kernel has taken, in order, exactly the first bytes of the buffer, as many as are returned. -/
theorem fd_write_exact (k : List Sink) (mem : List Byte) (min max : BitVec 64)
    (hmin : min.toNat < 2 ^ 63) (hmem : max.toNat ≤ mem.length) :
    writeGeneric k mem min max ≠ .undefined ∧
    ∀ p, writeGeneric k mem min max = .done p →
      WriteCalls min.toNat max.toNat p.calls ∧
      p.out = mem.take (countOf p.calls) ∧ countOf p.calls ≤ max.toNat ∧
      p.ret = if countOf p.calls = 0 ∧ p.calls.getLast?.map Prod.snd = some .error then -1
        else (countOf p.calls : Int) := by
  have h := writeLoop_done min.toNat max.toNat mem hmem k 0 (Nat.zero_le _)
  rw [← toInt_small min hmin] at h
  have e : writeLoop min.toInt mem k 0 (max.toNat - 0) ((0 : Nat) : Int) = writeGeneric k mem min max := rfl
  rw [e] at h
  constructor
  · intro hu
    rw [hu] at h
    exact h
  · intro g hg
    rw [hg] at h
    obtain ⟨d, rfl, h2, h3, h4, h5⟩ := h
    simp only [Nat.zero_add] at h3 h4 h5
    exact ⟨h5, by simpa using h2, h3, h4⟩

/-- C46, writing, the minimum: if less is returned, the kernel took nothing or failed. -/
theorem fd_write_minimum (k : List Sink) (mem : List Byte) (min max : BitVec 64)
    (hmin : min.toNat ≤ max.toNat) (hmax : max.toNat < 2 ^ 63) (hmem : max.toNat ≤ mem.length) (p : Put)
    (h : writeGeneric k mem min max = .done p) (hlt : p.ret < min.toNat) :
    p.calls.getLast?.map Prod.snd = some .zero ∨ p.calls.getLast?.map Prod.snd = some .error := by
  obtain ⟨h1, -, -, h5⟩ := (fd_write_exact k mem min max (by omega) hmem).2 p h
  rcases List.eq_nil_or_concat p.calls with hn | ⟨pre, x, hx⟩
  · exfalso
    rw [hn] at h5
    simp [countOf] at h5
    exact writeLoop_calls h (by omega) hn
  · rw [List.concat_eq_append] at hx
    have := h1 pre x [] (by rw [hx])
    rw [hx]
    obtain ⟨c, r⟩ := x
    cases r with
    | zero => simp
    | error => simp
    | took n =>
      exfalso
      by_cases hb : n = 0
      · subst hb
        have := took_ne k _ _ _ p h (c, .took 0) (by rw [hx]; simp)
        simp at this
      · have hret : p.ret = (countOf p.calls : Int) := by
          rw [h5, hx]
          simp
        have := this.2.2.2.2.2 rfl hb
        omega

/-- C46: the function does not wait for more than the minimum: if it waits forever, all that the kernel
has is less than the minimum (unless the kernel has had nothing to say at all). -/
theorem fd_read_blocks (k : List Source) (mem : List Byte) (min max : BitVec 64)
    (hmin : min.toNat < 2 ^ 63) (h : readGeneric k mem min max = .blocks) :
    (available k).length < max.toNat ∧ (k ≠ [] → (available k).length < min.toNat) := by
  have := readLoop_blocks min.toNat max.toNat k mem 0 (Nat.zero_le _) (by
    rw [← toInt_small min hmin]
    exact h)
  simpa using this

/-- Three chunks for five bytes of at least four, the last one more than is asked for. -/
example : readGeneric [.data [1#8, 2#8], .data [3#8], .data [4#8, 5#8, 6#8], .eof]
      [0#8, 0#8, 0#8, 0#8, 0#8, 0xff#8] 4 5 =
    .done ⟨5, [1#8, 2#8, 3#8, 4#8, 5#8, 0xff#8], [.data [6#8], .eof],
      [(5, .got [1#8, 2#8]), (3, .got [3#8]), (2, .got [4#8, 5#8])]⟩ := by decide

/-- An error after two bytes: two is returned. -/
example : readGeneric [.data [1#8, 2#8], .error] [0#8, 0#8, 0#8] 3 3 =
    .done ⟨2, [1#8, 2#8, 0#8], [], [(3, .got [1#8, 2#8]), (1, .error)]⟩ ∧
    readGeneric [.error] [0#8] 1 1 = .done ⟨-1, [0#8], [], [(1, .error)]⟩ := by decide

/-- Short writes. -/
example : write [.room 2, .room 9] [1#8, 2#8, 3#8, 4#8] 3 =
    .done ⟨3, [1#8, 2#8, 3#8], [], [(3, .took 2), (1, .took 1)]⟩ := by decide

/-- A minimum above `SSIZE_MAX` is negative after the cast, so that one reply of any size will do. -/
theorem fd_minimum_counterexample :
    readGeneric [.data [1#8], .data [2#8]] [0#8, 0#8] 0xffffffffffffffff#64 2 =
      .done ⟨1, [1#8, 0#8], [.data [2#8]], [(2, .got [1#8])]⟩ := by decide

end Diminuto.Fd
