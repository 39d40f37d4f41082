import Verif.FramerReaderLemmas

/-!
# Properties of reading frames from a stream
-/

namespace Diminuto.Framer

/-- C57 (soundness): for every stream of octets, a call that returns a frame has
consumed octets that end with a valid, non-empty frame that fits the buffer
(interspersed at most with XON and XOFF), and returns its payload; the memory
at and above `size` is unchanged. -/
theorem framer_read_sound (stream buffer : List Byte) (size : Nat) (hb : size ≤ buffer.length)
    (g : Framer) (rest : List Byte) (h : read stream buffer size = some (.frame g rest)) :
    ∃ skipped wire, stream = skipped ++ wire ++ rest ∧
      IsFrame (wire.filter notFlow) (g.buffer.take g.length) g.sequence ∧
      (g.buffer.take g.length).length = g.length ∧
      0 < g.length ∧ g.length ≤ size ∧ g.buffer.drop size = buffer.drop size := by
  obtain ⟨ops, c, e, h1, h2, h3, h4, h5, h6⟩ :=
    readLoop_history (init buffer size) stream [] (init buffer size) g rest rfl
      (by simp [Stuck, init]) h
  rw [List.nil_append] at h1
  have hh : history (init buffer size) (ops ++ [.octet c]) = some g := by
    rw [history_snoc _ _ _ _ h1]; exact h3
  obtain ⟨g', hg', _, _, hdrop⟩ := framer_stays_in_buffer buffer size hb (ops ++ [.octet c])
  rw [hh] at hg'
  cases hg'
  obtain ⟨pre, wire, hops, hf, hl, hle⟩ :=
    framer_delivers_only_valid_now buffer size hb ops e g c h1 h2 h3 h4
  refine ⟨octets pre, wire, ?_, hf, hl.symm, by omega, hle, hdrop⟩
  have := congrArg octets hops
  rw [octets_append, octets_append, octets_map] at this
  rw [h6, ← this]
  simp [octets]

/-- The call never fails: it returns a frame or meets the end of the stream. -/
theorem framer_read_total (stream buffer : List Byte) (size : Nat) (hb : size ≤ buffer.length) :
    ∃ r, read stream buffer size = some r := by
  have key : ∀ (stream : List Byte) (hist : List Op) (f : Framer),
      history (init buffer size) hist = some f → ∃ r, readLoop f stream = some r := by
    intro stream
    induction stream with
    | nil => intro hist f _; exact ⟨_, rfl⟩
    | cons c stream ih =>
      intro hist f hf
      obtain ⟨x, hx, _⟩ := framer_stays_in_buffer buffer size hb (hist ++ [.octet c])
      have hx' := hx
      rw [history_snoc _ _ _ _ hf] at hx'
      have hm : machineByte f c = some x := hx'
      have hr : history (init buffer size) (hist ++ [.octet c] ++ [.reset]) = some (reset x) := by
        rw [history_snoc _ _ _ _ hx]; rfl
      obtain ⟨r1, h1⟩ := ih _ _ hx
      obtain ⟨r2, h2⟩ := ih _ _ hr
      rw [readLoop, hm]
      simp only [Option.bind_some]
      split
      · split
        · exact ⟨r2, h2⟩
        · exact ⟨_, rfl⟩
      · exact ⟨r2, h2⟩
      · exact ⟨r2, h2⟩
      · exact ⟨r2, h2⟩
      · exact ⟨r2, h2⟩
      · exact ⟨r1, h1⟩
  exact key stream [] _ rfl

/-- Calling the function again and again until the end of the stream (at most
`n` times): the payloads returned. -/
def readAll (buffer : List Byte) (size : Nat) : Nat → List Byte → Option (List (List Byte))
  | 0, _ => some []
  | n + 1, stream =>
    match read stream buffer size with
    | none => none
    | some (.eof _) => some []
    | some (.frame g rest) => (readAll buffer size n rest).map (g.buffer.take g.length :: ·)

theorem read_frames (size : Nat) (frames : List (List Byte × List Byte × BitVec 16))
    (hv : ∀ x ∈ frames, IsFrame x.1 x.2.1 x.2.2) (f : Framer) (hb : f.size ≤ f.buffer.length)
    (hk : f.size = size) (hs : f.state = .reset) :
    (∃ g, readLoop f (frames.map (·.1)).flatten = some (.eof g) ∧
      (frames.map (·.2.1)).filter (fun p => decide (0 < p.length ∧ p.length ≤ size)) = []) ∨
    (∃ g, ∃ later : List (List Byte × List Byte × BitVec 16), readLoop f (frames.map (·.1)).flatten = some (.frame g (later.map (·.1)).flatten) ∧
      later.length < frames.length ∧
      (∀ x ∈ later, IsFrame x.1 x.2.1 x.2.2) ∧
      (frames.map (·.2.1)).filter (fun p => decide (0 < p.length ∧ p.length ≤ size)) =
        g.buffer.take g.length ::
          (later.map (·.2.1)).filter (fun p => decide (0 < p.length ∧ p.length ≤ size))) := by
  induction frames generalizing f with
  | nil => exact Or.inl ⟨_, rfl, rfl⟩
  | cons x frames ih =>
    have hx := hv x (by simp)
    have hv' : ∀ x ∈ frames, IsFrame x.1 x.2.1 x.2.2 := fun y hy => hv y (by simp [hy])
    simp only [List.map_cons, List.flatten_cons]
    by_cases hgood : 0 < x.2.1.length ∧ x.2.1.length ≤ size
    · right
      obtain ⟨g, h1, h2, h3, _⟩ := readLoop_good f hb hs x.1 x.2.1 (frames.map (·.1)).flatten x.2.2 hx
        (by omega) (fun h => by rw [h] at hgood; simp at hgood)
      refine ⟨g, frames, h1, by simp, hv', ?_⟩
      rw [List.filter_cons_of_pos (by simpa using hgood), h3]
    · have hskip : ∃ g, readLoop f (x.1 ++ (frames.map (·.1)).flatten) =
          readLoop g (frames.map (·.1)).flatten ∧ g.state = .reset ∧ Kept f g := by
        by_cases h0 : x.2.1.length = 0
        · have := List.eq_nil_of_length_eq_zero h0
          rw [this] at hx
          exact readLoop_empty f hb hs x.1 _ x.2.2 hx
        · exact readLoop_large f hb hs x.1 x.2.1 _ x.2.2 hx (by omega)
      obtain ⟨g, h1, h2, h3⟩ := hskip
      rw [h1, List.filter_cons_of_neg (by simpa using hgood)]
      rcases ih hv' g (by rw [h3.1, h3.2]; exact hb) (by rw [h3.1, hk]) h2 with h | ⟨g', later, a, b, c, d⟩
      · exact Or.inl h
      · exact Or.inr ⟨g', later, a, by simp; omega, c, d⟩

/-- C57 (completeness): from a stream of any valid frames, successive calls return
exactly the payloads that are not empty and fit the buffer, each once and in order. -/
theorem framer_read_complete (buffer : List Byte) (size : Nat) (hb : size ≤ buffer.length)
    (frames : List (List Byte × List Byte × BitVec 16))
    (hv : ∀ x ∈ frames, IsFrame x.1 x.2.1 x.2.2) :
    readAll buffer size (frames.length + 1) (frames.map (·.1)).flatten =
      some ((frames.map (·.2.1)).filter fun p => decide (0 < p.length ∧ p.length ≤ size)) := by
  have key : ∀ (n : Nat) (frames : List (List Byte × List Byte × BitVec 16)), frames.length < n →
      (∀ x ∈ frames, IsFrame x.1 x.2.1 x.2.2) →
      readAll buffer size n (frames.map (·.1)).flatten =
        some ((frames.map (·.2.1)).filter fun p => decide (0 < p.length ∧ p.length ≤ size)) := by
    intro n
    induction n with
    | zero => intro frames h; omega
    | succ n ih =>
      intro frames hl hv
      rw [readAll, read]
      rcases read_frames size frames hv (init buffer size) hb rfl rfl with
        ⟨g, h1, h2⟩ | ⟨g, later, h1, h2, h3, h4⟩
      · rw [h1, h2]
      · rw [h1, h4]
        simp only []
        rw [ih later (by omega) h3]
        rfl
  exact key _ _ (by omega) hv

/-- Three frames, the second too large, then an empty one. -/
example :
    let s := init [] 0
    let send (s : Framer) (p : List Byte) := (writer s p).getD ([], s)
    let (w1, s1) := send s [0x41]
    let (w2, s2) := send s1 [0x42, 0x7e, 0x43]
    let (w3, s3) := send s2 [0x0a, 0x45]
    let (w4, _) := send s3 []
    readAll [0#8, 0#8] 2 5 (w1 ++ w2 ++ w3 ++ w4) = some [[0x41], [0x0a, 0x45]] := by
  decide +kernel

end Diminuto.Framer
