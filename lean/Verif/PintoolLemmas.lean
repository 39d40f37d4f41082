import Verif.PintoolSpec

/-!
# Lemmas: the streams of the tool that manipulates pins
-/

namespace Diminuto.Pintool

variable {σ : Type} (a : Api σ)

theorem stream_append (cur : Stream) (x y : List Act) : stream cur (x ++ y) = stream (stream cur x) y := by
  induction x generalizing cur with
  | nil => rfl
  | cons e x ih => cases e <;> exact ih _

theorem concerns_append (p : Int) (cur : Stream) (x y : List Act) : Concerns p cur (x ++ y) ↔ Concerns p cur x ∧ Concerns p (stream cur x) y := by
  induction x generalizing cur with
  | nil => simp [Concerns, stream]
  | cons e x ih => cases e <;> simp [Concerns, stream, ih, and_assoc]

/-- The variables agree with what has been seen. -/
def Inv (s : State σ) : Prop :=
  match s.fp with
  | none => stream none s.log = none
  | some h => 0 ≤ s.pin ∧ ∃ o, stream none s.log = some (s.pin, o, h)

/-- What was done did not fail in a way that counts. -/
def Passed (e : Act) : Prop := Fine e ∨ ∃ p, e = .configured p (.edge 3) false

/-- One state comes from another, with what has been done. -/
def Ext (ok : Bool) (s s' : State σ) : Prop :=
  (∃ acts, s'.log = s.log ++ acts ∧ Concerns s.pin (stream none s.log) acts ∧ (ok = true → ∀ e ∈ acts, Passed e)) ∧ Inv s' ∧ s'.pin = s.pin

/-- All that a flow can lead to. -/
def Post (s : State σ) : Flow σ → Prop
  | .next s' => Ext true s s'
  | .busy s' => Ext true s s'
  | .stop c s' => Ext (decide (c = 0)) s s'
  | .undefined => True

theorem Ext.weaken {s s' : State σ} {ok : Bool} (h : Ext true s s') : Ext ok s s' := by
  obtain ⟨⟨acts, h1, h2, h3⟩, h4⟩ := h
  exact ⟨⟨acts, h1, h2, fun _ => h3 rfl⟩, h4⟩

theorem Ext.refl {s : State σ} {ok : Bool} (h : Inv s) : Ext ok s s :=
  ⟨⟨[], by simp, trivial, fun _ e he => by simp at he⟩, h, rfl⟩

theorem Ext.trans {s s1 s2 : State σ} {ok : Bool} (h : Ext true s s1) (h' : Ext ok s1 s2) : Ext ok s s2 := by
  obtain ⟨⟨x, h1, h2, h3⟩, _, h5⟩ := h
  obtain ⟨⟨y, g1, g2, g3⟩, g4, g5⟩ := h'
  refine ⟨⟨x ++ y, by rw [g1, h1, List.append_assoc], ?_, ?_⟩, g4, by rw [g5, h5]⟩
  · rw [concerns_append]
    refine ⟨h2, ?_⟩
    rw [h1, stream_append, h5] at g2
    exact g2
  · intro hok e he
    rcases List.mem_append.mp he with he | he
    · exact h3 rfl e he
    · exact g3 hok e he

theorem Post.trans {s s1 : State σ} {f : Flow σ} (h : Ext true s s1) (h' : Post s1 f) : Post s f := by
  cases f with
  | next s' => exact h.trans h'
  | busy s' => exact h.trans h'
  | stop c s' => exact h.trans h'
  | undefined => trivial

/-- Nothing is done. -/
theorem ext_quiet {s s' : State σ} {ok : Bool} (h : Inv s) (h1 : s'.log = s.log) (h2 : s'.fp = s.fp) (h3 : s'.pin = s.pin) : Ext ok s s' := by
  refine ⟨⟨[], by simp [h1], trivial, fun _ e he => by simp at he⟩, ?_, h3⟩
  rw [Inv, h1, h2, h3]; exact h

/-- One thing is done that leaves the stream. -/
theorem ext_one {s s' : State σ} {ok : Bool} {e : Act} (h : Inv s) (h1 : s'.log = s.log ++ [e]) (h2 : s'.fp = s.fp) (h3 : s'.pin = s.pin) (hs : ∀ cur, stream cur [e] = cur)
    (hc : Concerns s.pin (stream none s.log) [e]) (hp : ok = true → Passed e) : Ext ok s s' := by
  refine ⟨⟨[e], h1, hc, fun hok x hx => by rw [List.mem_singleton.mp hx]; exact hp hok⟩, ?_, h3⟩
  rw [Inv, h1, h2, h3, stream_append, hs]; exact h

theorem inv_stream {s : State σ} {h : Nat} (hi : Inv s) (hf : s.fp = some h) : 0 ≤ s.pin ∧ ∃ o, stream none s.log = some (s.pin, o, h) := by
  rw [Inv, hf] at hi; exact hi

theorem post_configure (c : Conf) (s : State σ) (hi : Inv s) : Post s (configure a c s) := by
  unfold configure
  by_cases hp : s.pin < 0
  · rw [if_pos hp]; exact Ext.refl hi
  · rw [if_neg hp]
    rcases hg : a.configure c s.pin s.kernel with ⟨ok, k⟩
    simp only []
    have hx : ∀ b : Bool, (b = true → Passed (.configured s.pin c ok)) → Ext b s { s with kernel := k, log := s.log ++ [.configured s.pin c ok] } := by
      intro b hb
      exact ext_one hi rfl rfl rfl (fun _ => rfl) ⟨rfl, trivial⟩ hb
    cases ok with
    | true => exact hx true fun _ => Or.inl rfl
    | false =>
      rw [if_neg (by simp)]
      cases c with
      | edge e =>
        simp only []
        by_cases he : e = 3
        · subst he; rw [if_pos rfl]; exact hx true fun _ => Or.inr ⟨_, rfl⟩
        · rw [if_neg he]; exact hx _ (by simp)
      | _ => exact hx _ (by simp)

/-- Whatever has to be true of a state with a stream to go on. -/
def Ready (h : Nat) (s : State σ) : Prop := Inv s ∧ s.fp = some h

theorem post_acquire (output : Bool) (s : State σ) (rest : Nat → State σ → Flow σ) (hi : Inv s)
    (hr : ∀ h s', Ready h s' → Post s' (rest h s')) : Post s (acquire a output s rest) := by
  unfold acquire
  cases hf : s.fp with
  | some h => exact hr h s ⟨hi, hf⟩
  | none =>
    simp only []
    by_cases hp : s.pin < 0
    · rw [if_pos hp]; exact Ext.refl hi
    · rw [if_neg hp]
      have hs : stream none s.log = none := by rw [Inv, hf] at hi; exact hi
      rcases hg : a.open_ s.pin output s.kernel with ⟨_ | h, k⟩
      · exact ext_quiet hi rfl hf.symm rfl
      · simp only []
        have he : Ext true s { s with kernel := k, fp := some h, log := s.log ++ [.opened s.pin output h] } := by
          refine ⟨⟨[.opened s.pin output h], rfl, ⟨rfl, hs, trivial⟩, fun _ x hx => ?_⟩, ?_, rfl⟩
          · rw [List.mem_singleton.mp hx]; exact Or.inl trivial
          · simp only [Inv]
            exact ⟨by omega, output, by rw [stream_append]; rfl⟩
        exact Post.trans he (hr h _ ⟨he.2.1, rfl⟩)

theorem post_sample (h : Nat) (s : State σ) (rest : Bool → State σ → Flow σ) (hs : Ready h s) (hr : ∀ b s', Ready h s' → Post s' (rest b s')) : Post s (sample a h s rest) := by
  unfold sample
  obtain ⟨hi, hf⟩ := hs
  rcases hg : a.get h s.kernel with ⟨v, k⟩
  simp only []
  have hx : ∀ b : Bool, (b = true → 0 ≤ v) → Ext b s { s with kernel := k, log := s.log ++ [.got h v] } :=
    fun b hb => ext_one hi rfl rfl rfl (fun _ => rfl) ⟨(inv_stream hi hf).2, trivial⟩ fun q => Or.inl (hb q)
  by_cases hv : v < 0
  · rw [if_pos hv]; exact hx _ (by simp)
  · rw [if_neg hv]
    have := hx true fun _ => by omega
    exact Post.trans this (hr _ _ ⟨this.2.1, hf⟩)

theorem ext_print (b : Bool) {h : Nat} {s : State σ} (hs : Ready h s) : Ext true s (print b s) ∧ Ready h (print b s) := by
  have : Ext true s (print b s) := ext_one hs.1 rfl rfl rfl (fun _ => rfl) trivial fun _ => Or.inl trivial
  exact ⟨this, this.2.1, hs.2⟩

theorem post_store (h : Nat) (b : Bool) (s : State σ) (hs : Ready h s) : Post s (store a h b s) := by
  unfold store
  obtain ⟨hi, hf⟩ := hs
  rcases hg : a.put h b s.kernel with ⟨ok, k⟩
  simp only []
  have hx : ∀ c : Bool, (c = true → ok = true) → Ext c s { s with kernel := k, state := b, log := s.log ++ [.put h b ok] } :=
    fun c hc => ext_one hi rfl rfl rfl (fun _ => rfl) ⟨(inv_stream hi hf).2, trivial⟩ fun q => Or.inl (hc q)
  cases ok with
  | true => exact hx true fun _ => rfl
  | false => exact hx _ (by simp)

theorem ready_quiet {h : Nat} {s s' : State σ} (hs : Ready h s) (h1 : s'.log = s.log) (h2 : s'.fp = s.fp) (h3 : s'.pin = s.pin) : Ext true s s' ∧ Ready h s' := by
  have := ext_quiet (ok := true) hs.1 h1 h2 h3
  exact ⟨this, this.2.1, by rw [h2]; exact hs.2⟩

theorem post_polling (h : Nat) (t : BitVec 64) : ∀ (n : Nat) (cue : Cue.State) (s : State σ), Ready h s → Post s (polling a h t n cue s) := by
  intro n
  induction n with
  | zero => intro cue s hs; exact Ext.refl hs.1
  | succ n ih =>
    intro cue s hs
    unfold polling
    have h0 : Ext true s { s with kernel := a.delay t s.kernel, log := s.log ++ [.slept t] } := ext_one hs.1 rfl rfl rfl (fun _ => rfl) trivial fun _ => Or.inl trivial
    have h1 : Ext true s { s with kernel := a.delay t s.kernel, log := s.log ++ [.slept t] } ∧ Ready h { s with kernel := a.delay t s.kernel, log := s.log ++ [.slept t] } := ⟨h0, h0.2.1, hs.2⟩
    refine Post.trans h1.1 (post_sample a h _ _ h1.2 ?_)
    intro b s' hs'
    simp only []
    by_cases hq : (Cue.debounce cue (if b then 1 else 0)).r ≠ s.state
    · rw [if_pos hq]
      have h2 := ext_print (Cue.debounce cue (if b then 1 else 0)).r hs'
      exact Post.trans h2.1 (ih _ _ h2.2)
    · rw [if_neg hq]
      have h2 := ready_quiet (s' := { s' with state := (Cue.debounce cue (if b then 1 else 0)).r }) hs' rfl rfl rfl
      exact Post.trans h2.1 (ih _ _ h2.2)

theorem post_poll (patience : Nat) (t : BitVec 64) (h : Nat) (s : State σ) (hs : Ready h s) : Post s (poll a patience t h s) := by
  unfold poll
  refine post_sample a h s _ hs ?_
  intro b s' hs'
  have h2 := ext_print b hs'
  exact Post.trans h2.1 (post_polling a h t _ _ _ h2.2)

theorem post_notice (h : Nat) (b : Bool) (prior : Option Bool) (s : State σ) (rest : State σ → Flow σ) (hs : Ready h s) (hr : ∀ s', Ready h s' → Post s' (rest s')) :
    Post s (notice a b prior s rest) := by
  unfold notice
  by_cases hq : s.unique = true ∧ prior = some b
  · rw [if_pos hq]
    have h2 := ready_quiet (s' := { s with state := b }) hs rfl rfl rfl
    exact Post.trans h2.1 (hr _ h2.2)
  · rw [if_neg hq]
    cases hc : s.command with
    | none =>
      simp only []
      have h2 := ext_print b hs
      exact Post.trans h2.1 (hr _ h2.2)
    | some text =>
      simp only []
      have hx : ∀ c : Bool, (c = true → (a.system (commandLine text s.pin b prior) s.kernel).1 = true) →
          Ext c s { s with state := b, kernel := (a.system (commandLine text s.pin b prior) s.kernel).2, log := s.log ++ [.ran (commandLine text s.pin b prior) (a.system (commandLine text s.pin b prior) s.kernel).1] } :=
        fun c hc => ext_one hs.1 rfl rfl rfl (fun _ => rfl) trivial fun q => Or.inl (hc q)
      rw [← hc]
      cases hok : (a.system (commandLine text s.pin b prior) s.kernel).1 with
      | true =>
        rw [if_pos rfl]
        rw [hok] at hx
        have := hx true fun _ => rfl
        exact Post.trans this (hr _ ⟨this.2.1, hs.2⟩)
      | false =>
        rw [if_neg (by simp)]
        rw [hok] at hx
        exact hx (decide (2 = 0)) (by simp)

theorem post_watching (h : Nat) : ∀ (n : Nat) (prior : Option Bool) (s : State σ), Ready h s → Post s (watching a h n prior s) := by
  intro n
  induction n with
  | zero => intro prior s hs; exact Ext.refl hs.1
  | succ n ih =>
    intro prior s hs
    unfold watching
    rcases hg : a.wait h s.sticks s.kernel with ⟨r, k⟩
    simp only []
    have hx : ∀ c : Bool, (c = true → r.isSome = true) → Ext c s { s with kernel := k, log := s.log ++ [.waited h s.sticks r.isSome] } :=
      fun c hc => ext_one hs.1 rfl rfl rfl (fun _ => rfl) ⟨(inv_stream hs.1 hs.2).2, trivial⟩ fun q => Or.inl (hc q)
    cases r with
    | none => exact hx _ (by simp)
    | some _ =>
      simp only []
      have := hx true (fun _ => rfl)
      refine Post.trans this (post_sample a h _ _ ⟨this.2.1, hs.2⟩ ?_)
      intro b s' hs'
      exact post_notice a h b prior s' _ hs' fun s'' hs'' => ih _ _ hs''

theorem post_watch (patience : Nat) (h : Nat) (s : State σ) (hs : Ready h s) : Post s (watch a patience h s) := by
  unfold watch
  by_cases hf : s.first = true
  · rw [if_pos hf]
    refine post_sample a h s _ hs ?_
    intro b s' hs'
    have h2 := ext_print b hs'
    exact Post.trans h2.1 (post_watching a h _ _ _ h2.2)
  · rw [if_neg hf]; exact post_watching a h _ _ _ hs

theorem post_number (text : List Byte) (s : State σ) (rest : Nat → Flow σ) (hi : Inv s) (hr : ∀ u, Post s (rest u)) : Post s (number text s rest) := by
  unfold number
  by_cases h : (Number.unsigned text).2.1 ≠ []
  · rw [if_pos h]; exact Ext.refl hi
  · rw [if_neg h]; exact hr _

/-- An option that does not select a pin. -/
theorem post_step (patience : Nat) (o : Opt) (s : State σ) (hi : Inv s) (ho : ∀ text, o ≠ .pin text) : Post s (step a patience o s) := by
  cases o with
  | first => exact ext_quiet hi rfl rfl rfl
  | configure c => exact post_configure a c s hi
  | root text => exact ext_quiet hi rfl rfl rfl
  | daemon =>
    simp only [step]
    cases hg : (a.daemon s.kernel).1 with
    | true => rw [if_pos rfl]; exact ext_one (e := .daemonized true) hi rfl rfl rfl (fun _ => rfl) trivial fun _ => Or.inl rfl
    | false => rw [if_neg (by simp)]; exact ext_one (e := .daemonized false) hi rfl rfl rfl (fun _ => rfl) trivial (by simp)
  | unique => exact ext_quiet hi rfl rfl rfl
  | command text =>
    have : Ext true s { s with command := some text } := ext_quiet hi rfl rfl rfl
    rw [step]; exact this
  | poll text => rw [step]; exact post_number text s _ hi fun u => post_acquire a _ s _ hi fun h s' hs' => post_poll a _ _ h s' hs'
  | write b => exact post_acquire a _ s _ hi fun h s' hs' => post_store a h b s' hs'
  | debug => exact Ext.refl hi
  | test nonzero =>
    simp only [step]
    by_cases h : s.state = nonzero
    · rw [if_pos h]; exact Ext.refl hi
    · rw [if_neg h]; exact Ext.refl hi
  | watch t =>
    cases t with
    | none => exact post_acquire a _ s _ hi fun h s' hs' => post_watch a _ h s' hs'
    | some text =>
      simp only [step]
      by_cases h : (Number.signed text).2.1 ≠ []
      · rw [if_pos h]; exact Ext.refl hi
      · rw [if_neg h]
        cases timeout (Number.signed text).1 with
        | none => trivial
        | some v =>
          have h1 := ext_quiet (ok := true) (s' := { s with sticks := v }) hi rfl rfl rfl
          exact Post.trans h1 (post_acquire a _ _ _ h1.2.1 fun h s' hs' => post_watch a _ h s' hs')
  | pin text => exact absurd rfl (ho text)
  | read =>
    refine post_acquire a _ s _ hi fun h s' hs' => post_sample a h s' _ hs' fun b s'' hs'' => ?_
    exact (ext_print b hs'').1
  | delay text =>
    rw [step]
    refine post_number text s _ hi fun u => ?_
    have : Ext true s { s with kernel := a.delay (ticks u) s.kernel, log := s.log ++ [.slept (ticks u)] } := ext_one hi rfl rfl rfl (fun _ => rfl) trivial fun _ => Or.inl trivial
    exact this
  | writeText text => rw [step]; exact post_number text s _ hi fun u => post_acquire a _ s _ hi fun h s' hs' => post_store a h _ s' hs'
  | menu => exact Ext.refl hi
  | other => exact Ext.refl hi

/-- The stream that is to be closed is the one that is open. -/
def Open (s : State σ) : Prop :=
  match s.fp with
  | none => stream none s.log = none
  | some h => ∃ q o, stream none s.log = some (q, o, h)

theorem Inv.open {s : State σ} (h : Inv s) : Open s := by
  unfold Open
  cases hf : s.fp with
  | none => rw [Inv, hf] at h; exact h
  | some g => rw [Inv, hf] at h; obtain ⟨_, o, h⟩ := h; exact ⟨_, o, h⟩

/-- An option that selects a pin. -/
theorem step_select {text : List Byte} {patience : Nat} {s : State σ} (hi : Inv s) :
    match step a patience (.pin text) s with
    | .next s' => (∃ acts, s'.log = s.log ++ acts ∧ Concerns s'.pin (stream none s.log) acts ∧ ∀ e ∈ acts, Passed e) ∧ Inv s' ∧ s'.fp = none ∧ 0 ≤ s'.pin ∧
        (Number.unsigned text).2.1 = [] ∧ s'.pin = (BitVec.ofNat 32 (Number.unsigned text).1).toInt
    | .stop c s' => s'.log = s.log ∧ Open s' ∧ c = 1 ∧ ((Number.unsigned text).2.1 ≠ [] ∨ (BitVec.ofNat 32 (Number.unsigned text).1).toInt < 0)
    | .busy _ => False
    | .undefined => s.fp ≠ none := by
  simp only [step, number]
  by_cases h1 : (Number.unsigned text).2.1 ≠ []
  · rw [if_pos h1]; exact ⟨rfl, hi.open, rfl, Or.inl h1⟩
  · rw [if_neg h1]
    have h1' : (Number.unsigned text).2.1 = [] := by simpa using h1
    unfold select
    by_cases h2 : (BitVec.ofNat 32 (Number.unsigned text).1).toInt < 0
    · simp only []; rw [if_pos h2]; exact ⟨rfl, hi.open, rfl, Or.inr h2⟩
    · simp only []; rw [if_neg h2]
      cases hf : s.fp with
      | none =>
        simp only []
        refine ⟨⟨[], by simp, trivial, fun e he => by simp at he⟩, ?_, trivial, by omega, h1', trivial⟩
        rw [Inv, hf] at hi; exact hi
      | some g =>
        simp only []
        rw [Inv, hf] at hi
        obtain ⟨_, o, h3⟩ := hi
        cases hg : (a.close g s.kernel).1 with
        | false => simp
        | true =>
          rw [if_pos rfl]
          refine ⟨⟨[.closed g true], rfl, ⟨⟨_, o, h3⟩, trivial⟩, fun e he => ?_⟩, ?_, rfl, by simp only []; omega, h1', rfl⟩
          · rw [List.mem_singleton.mp he]; exact Or.inl trivial
          · simp only [Inv]; rw [stream_append]; rfl

theorem inv_start (k : σ) : Inv (start k) := rfl

end Diminuto.Pintool
