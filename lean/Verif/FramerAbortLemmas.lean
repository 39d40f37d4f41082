import Verif.FramerReaderProps
import Verif.FramerAbortSpec

/-!
# Lemmas about aborting a frame
-/

namespace Diminuto.Framer

/-- As `readLoop_good`, from every state in which a flag begins a frame. -/
theorem readLoop_starts (f : Framer) (hb : f.size ≤ f.buffer.length) (hs : Startable f)
    (wire payload rest : List Byte) (seq : BitVec 16) (hf : IsFrame wire payload seq)
    (hn : payload.length ≤ f.size) (hne : payload ≠ []) :
    ∃ g, readLoop f (wire ++ rest) = some (.frame g rest) ∧ g.length = payload.length ∧
      g.buffer.take g.length = payload ∧ g.sequence = seq := by
  rw [isFrame_iff] at hf
  obtain ⟨h16, body, k1, k2, k3, hk, rfl, hst⟩ := hf
  obtain ⟨g, h1, h2, _, _, _, h6, h7, h8, _, _, _, e, he, hes⟩ :=
    feed_frame f hb hs body payload seq hn h16 hst k1 k2 k3 hk
  rw [feed_append, he, Option.bind_some] at h1
  simp only [feed] at h1
  have hm : machineByte e NEWLINE = some g := by
    rw [Option.bind_eq_some_iff] at h1
    obtain ⟨x, hx, hxe⟩ := h1
    cases hxe
    exact hx
  refine ⟨g, ?_, h7, by rw [h7]; exact h6, h8⟩
  rw [List.append_assoc, readLoop_through f e _ _ he (by simp [Stuck, hes])]
  rw [List.cons_append, readLoop, hm]
  simp only [Option.bind_some, h2]
  rw [if_neg (by rw [h7]; exact fun h => hne (List.eq_nil_of_length_eq_zero h))]
  rfl

/-- What is behind some octets is read after them: either they hold a frame, or the receiver goes on. -/
theorem readLoop_append (buffer : List Byte) (size : Nat) (hb : size ≤ buffer.length) (more : List Byte) (junk : List Byte) : ∀ (hist : List Op) (f : Framer),
    history (init buffer size) hist = some f → ¬ Stuck f.state →
    (∃ g tail, readLoop f junk = some (.frame g tail) ∧ tail.length < junk.length ∧ readLoop f (junk ++ more) = some (.frame g (tail ++ more))) ∨
    (∃ g hist' f', readLoop f junk = some (.eof g) ∧ history (init buffer size) hist' = some f' ∧ ¬ Stuck f'.state ∧ readLoop f (junk ++ more) = readLoop f' more) := by
  induction junk with
  | nil => intro hist f hh hs; exact Or.inr ⟨_, hist, f, rfl, hh, hs, rfl⟩
  | cons c junk ih =>
    intro hist f hh hs
    obtain ⟨x, hx, _⟩ := framer_stays_in_buffer buffer size hb (hist ++ [.octet c])
    have hx' := hx
    rw [history_snoc _ _ _ _ hh] at hx'
    have hm : machineByte f c = some x := hx'
    have hreset : history (init buffer size) (hist ++ [.octet c] ++ [.reset]) = some (reset x) := by
      rw [history_snoc _ _ _ _ hx]; rfl
    have hr := ih _ _ hreset (by simp [Stuck, reset])
    rw [List.cons_append, readLoop, readLoop, hm]
    simp only [Option.bind_some]
    have lift : ∀ {y : Framer}, ((∃ g tail, readLoop y junk = some (.frame g tail) ∧ tail.length < junk.length ∧ readLoop y (junk ++ more) = some (.frame g (tail ++ more))) ∨
        (∃ g hist' f', readLoop y junk = some (.eof g) ∧ history (init buffer size) hist' = some f' ∧ ¬ Stuck f'.state ∧ readLoop y (junk ++ more) = readLoop f' more)) →
        ((∃ g tail, readLoop y junk = some (.frame g tail) ∧ tail.length < (c :: junk).length ∧ readLoop y (junk ++ more) = some (.frame g (tail ++ more))) ∨
        (∃ g hist' f', readLoop y junk = some (.eof g) ∧ history (init buffer size) hist' = some f' ∧ ¬ Stuck f'.state ∧ readLoop y (junk ++ more) = readLoop f' more)) := by
      rintro y (⟨g, tail, h1, h2, h3⟩ | h)
      · exact Or.inl ⟨g, tail, h1, by rw [List.length_cons]; omega, h3⟩
      · exact Or.inr h
    cases hxs : x.state
    case complete =>
      simp only []
      split
      · exact lift hr
      · exact Or.inl ⟨x, junk, rfl, by simp, rfl⟩
    case abort => exact lift hr
    case failed => exact lift hr
    case overflow => exact lift hr
    case invalid => exact lift hr
    case final =>
      exfalso
      have := machineByte_not_final f x c hm hs
      simp [hxs] at this
    case idle =>
      exfalso
      have := machineByte_not_final f x c hm hs
      simp [hxs] at this
    all_goals
      exact lift (ih _ _ hx (by simp [Stuck, hxs]))

/-- An octet that is only consumed. -/
theorem machineByte_consume (f : Framer) (c : Byte) (hf : kind c ≠ .flow) (s : St) (h : transition f.state f.limit (kind c) = (s, .consume)) :
    machineByte f c = some { f with total := f.total + 1, state := s } := by
  unfold machineByte
  rw [h]
  have e1 : ¬ c = XON := by rintro rfl; exact hf (by decide)
  have e2 : ¬ c = XOFF := by rintro rfl; exact hf (by decide)
  simp only [e1, e2, if_false]
  rfl

/-- After an abort the receiver is in a state in which a flag begins a frame. -/
theorem readLoop_abort (f : Framer) (hs : ¬ Stuck f.state) (more : List Byte) : ∃ g, readLoop f (ESCAPE :: FLAG :: more) = readLoop g more ∧ Startable g ∧ g.size = f.size ∧ g.buffer.length = f.buffer.length := by
  have ke : kind ESCAPE = .escape := by decide
  have kf : kind FLAG = .flag := by decide
  have fresh : ∀ x : Framer, x.state = .reset → ∃ g, readLoop x (FLAG :: more) = readLoop g more ∧ Startable g ∧ g.size = x.size ∧ g.buffer.length = x.buffer.length := by
    intro x hx
    obtain ⟨f1, h1, hp, h2, h3, _⟩ := flag_step x (Or.inl hx)
    exact ⟨f1, readLoop_cons x f1 FLAG more h1 (by simp [Stuck, h2]), Or.inr (Or.inr (Or.inr (Or.inr (Or.inr (Or.inr (Or.inr ⟨h2, hp⟩)))))), h3.1, h3.2.1⟩
  have refused : ∀ t, transition f.state f.limit .escape = (t, .consume) → t = .invalid → ∃ g, readLoop f (ESCAPE :: FLAG :: more) = readLoop g more ∧ Startable g ∧ g.size = f.size ∧ g.buffer.length = f.buffer.length := by
    rintro t ht rfl
    have h1 := machineByte_consume f ESCAPE (by decide) .invalid (by rw [ke]; exact ht)
    rw [readLoop_error f _ ESCAPE _ h1 (Or.inr (Or.inr (Or.inr rfl)))]
    exact fresh _ rfl
  have aborted : ∀ t, transition f.state f.limit .escape = (t, .consume) → ¬ Stuck t → (∀ n, transition t n .flag = (.abort, .consume)) →
      ∃ g, readLoop f (ESCAPE :: FLAG :: more) = readLoop g more ∧ Startable g ∧ g.size = f.size ∧ g.buffer.length = f.buffer.length := by
    intro t ht hn ha
    have h1 := machineByte_consume f ESCAPE (by decide) t (by rw [ke]; exact ht)
    rw [readLoop_cons f _ ESCAPE _ h1 hn]
    have h2 := machineByte_consume { f with total := f.total + 1, state := t } FLAG (by decide) .abort (by rw [kf]; exact ha _)
    rw [readLoop_error _ _ FLAG _ h2 (Or.inl rfl)]
    exact ⟨_, rfl, Or.inl rfl, rfl, rfl⟩
  cases hf : f.state
  case reset =>
    have h1 := machineByte_consume f ESCAPE (by decide) .reset (by rw [ke, hf]; rfl)
    rw [readLoop_cons f _ ESCAPE _ h1 (by simp [Stuck])]
    exact fresh _ rfl
  case flag => exact aborted .lengthEscaped (by rw [hf]; rfl) (by simp [Stuck]) (fun _ => rfl)
  case length => exact aborted .lengthEscaped (by rw [hf]; rfl) (by simp [Stuck]) (fun _ => rfl)
  case sequence => exact aborted .sequenceEscaped (by rw [hf]; rfl) (by simp [Stuck]) (fun _ => rfl)
  case fletcher => exact aborted .fletcherEscaped (by rw [hf]; rfl) (by simp [Stuck]) (fun _ => rfl)
  case payload => exact aborted .payloadEscaped (by rw [hf]; rfl) (by simp [Stuck]) (fun _ => rfl)
  case lengthEscaped => exact refused _ (by rw [hf]; rfl) rfl
  case sequenceEscaped => exact refused _ (by rw [hf]; rfl) rfl
  case fletcherEscaped => exact refused _ (by rw [hf]; rfl) rfl
  case payloadEscaped => exact refused _ (by rw [hf]; rfl) rfl
  case kermit => exact refused _ (by rw [hf]; rfl) rfl
  case newline => exact refused _ (by rw [hf]; rfl) rfl
  all_goals exact absurd (by simp [Stuck, hf]) hs

end Diminuto.Framer
