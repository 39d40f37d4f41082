import Verif.LinetoolSpec

/-!
# Lemmas: the descriptors of the tool that manipulates lines
-/

namespace Diminuto.Linetool

variable {σ : Type} (a : Api σ)

theorem held_append (cur : Held) (x y : List Act) : held cur (x ++ y) = held (held cur x) y := by
  induction x generalizing cur with
  | nil => rfl
  | cons e x ih =>
    cases e with
    | opened c r => cases r <;> exact ih _
    | closed h ok => cases ok <;> exact ih _
    | _ => exact ih _

theorem orderly_append (cur : Held) (x y : List Act) : Orderly cur (x ++ y) ↔ Orderly cur x ∧ Orderly (held cur x) y := by
  induction x generalizing cur with
  | nil => simp [Orderly, held]
  | cons e x ih =>
    cases e with
    | opened c r =>
      cases r with
      | none =>
        simp only [List.cons_append, Orderly, held, ih, and_assoc]
        constructor
        · rintro ⟨rfl, h⟩; exact ⟨rfl, h⟩
        · rintro ⟨rfl, h⟩; exact ⟨rfl, h⟩
      | some h => simp [Orderly, held, ih, and_assoc]
    | closed h ok => cases ok <;> simp [Orderly, held, ih, and_assoc]
    | _ => simp [Orderly, held, ih, and_assoc]

/-- The variables agree with what has been seen. -/
def Inv (s : State σ) : Prop := s.fd = (held none s.log).map (·.2)

/-- One state comes from another, with what has been done. -/
def Ext (ok : Bool) (s s' : State σ) : Prop :=
  (∃ acts, s'.log = s.log ++ acts ∧ Orderly (held none s.log) acts ∧ (ok = true → ∀ e ∈ acts, Fine e)) ∧ Inv s'

/-- All that a flow can lead to. -/
def Post (s : State σ) : Flow σ → Prop
  | .next s' => Ext true s s'
  | .busy s' => Ext true s s'
  | .stop c s' => Ext (decide (c = 0)) s s'
  | .undefined => True

theorem Ext.refl {s : State σ} {ok : Bool} (h : Inv s) : Ext ok s s :=
  ⟨⟨[], by simp, trivial, fun _ e he => by simp at he⟩, h⟩

theorem Ext.trans {s s1 s2 : State σ} {ok : Bool} (h : Ext true s s1) (h' : Ext ok s1 s2) : Ext ok s s2 := by
  obtain ⟨⟨x, h1, h2, h3⟩, _⟩ := h
  obtain ⟨⟨y, g1, g2, g3⟩, g4⟩ := h'
  refine ⟨⟨x ++ y, by rw [g1, h1, List.append_assoc], ?_, ?_⟩, g4⟩
  · rw [orderly_append]
    refine ⟨h2, ?_⟩
    rw [h1, held_append] at g2
    exact g2
  · intro hok e he
    rcases List.mem_append.mp he with he | he
    · exact h3 rfl e he
    · exact g3 hok e he

theorem Post.trans {s s1 : State σ} {f : Flow σ} (h : Ext true s s1) (h' : Post s1 f) : Post s f := by
  cases f with
  | next s' => exact h.trans h'
  | busy s' => exact h.trans h'
  | stop c s' => exact h.trans h'
  | undefined => trivial

/-- Nothing is done. -/
theorem ext_quiet {s s' : State σ} {ok : Bool} (h : Inv s) (h1 : s'.log = s.log) (h2 : s'.fd = s.fd) : Ext ok s s' := by
  refine ⟨⟨[], by simp [h1], trivial, fun _ e he => by simp at he⟩, ?_⟩
  rw [Inv, h1, h2]; exact h

/-- One thing is done that leaves the line. -/
theorem ext_one {s s' : State σ} {ok : Bool} {e : Act} (h : Inv s) (h1 : s'.log = s.log ++ [e]) (h2 : s'.fd = s.fd) (hs : ∀ cur, held cur [e] = cur)
    (hc : Orderly (held none s.log) [e]) (hp : ok = true → Fine e) : Ext ok s s' := by
  refine ⟨⟨[e], h1, hc, fun hok x hx => by rw [List.mem_singleton.mp hx]; exact hp hok⟩, ?_⟩
  rw [Inv, h1, h2, held_append, hs]; exact h

/-- Whatever has to be true of a state with a descriptor to go on. -/
def Ready (h : Nat) (s : State σ) : Prop := Inv s ∧ s.fd = some h

theorem Ready.held {h : Nat} {s : State σ} (hs : Ready h s) : ∃ c, held none s.log = some (c, h) := by
  obtain ⟨h1, h2⟩ := hs
  rw [Inv, h2] at h1
  cases hh : Linetool.held none s.log with
  | none => rw [hh] at h1; cases h1
  | some x =>
    rw [hh] at h1
    obtain ⟨c, g⟩ := x
    injection h1 with h1
    exact ⟨c, by rw [h1]⟩

theorem post_need (s : State σ) (rest : Nat → Flow σ) (hi : Inv s) (hr : ∀ h, Ready h s → Post s (rest h)) : Post s (need s rest) := by
  unfold need
  cases hf : s.fd with
  | none => exact Ext.refl hi
  | some h => exact hr h ⟨hi, hf⟩

theorem post_sample (h : Nat) (s : State σ) (rest : Bool → State σ → Flow σ) (hs : Ready h s) (hr : ∀ b s', Ready h s' → Post s' (rest b s')) : Post s (sample a h s rest) := by
  unfold sample
  rcases hg : a.get h s.kernel with ⟨v, k⟩
  simp only []
  have hx : ∀ b : Bool, (b = true → v ≠ none) → Ext b s { s with kernel := k, log := s.log ++ [.got h v] } :=
    fun b hb => ext_one hs.1 rfl rfl (fun _ => rfl) ⟨hs.held, trivial⟩ hb
  cases v with
  | none => exact hx _ (by simp)
  | some b =>
    have := hx true (by simp)
    exact Post.trans this (hr _ _ ⟨this.2, hs.2⟩)

theorem ext_print (b : Bool) {h : Nat} {s : State σ} (hs : Ready h s) : Ext true s (print b s) ∧ Ready h (print b s) := by
  have : Ext true s (print b s) := ext_one hs.1 rfl rfl (fun _ => rfl) trivial fun _ => trivial
  exact ⟨this, this.2, hs.2⟩

theorem ext_flush {s : State σ} (hi : Inv s) : Ext true s (flush a s) :=
  ext_one hi rfl rfl (fun _ => rfl) trivial fun _ => trivial

theorem ext_report (b : Bool) {h : Nat} {s : State σ} (hs : Ready h s) : Ext true s (flush a (print b s)) ∧ Ready h (flush a (print b s)) := by
  obtain ⟨h1, h2⟩ := ext_print b hs
  have h3 := ext_flush a h2.1
  exact ⟨h1.trans h3, h3.2, h2.2⟩

theorem post_store (h : Nat) (b : Bool) (s : State σ) (hs : Ready h s) : Post s (store a h b s) := by
  unfold store
  rcases hg : a.put h b s.kernel with ⟨ok, k⟩
  simp only []
  cases ok with
  | true => exact ext_one hs.1 rfl rfl (fun _ => rfl) ⟨hs.held, trivial⟩ fun _ => rfl
  | false => exact ext_one hs.1 rfl rfl (fun _ => rfl) ⟨hs.held, trivial⟩ (by simp)

theorem ready_quiet {h : Nat} {s s' : State σ} (hs : Ready h s) (h1 : s'.log = s.log) (h2 : s'.fd = s.fd) : Ext true s s' ∧ Ready h s' := by
  have := ext_quiet (ok := true) hs.1 h1 h2
  exact ⟨this, this.2, by rw [h2]; exact hs.2⟩

theorem post_polling (h : Nat) (t : BitVec 64) : ∀ (n : Nat) (cue : Cue.State) (s : State σ), Ready h s → Post s (polling a h t n cue s) := by
  intro n
  induction n with
  | zero => intro cue s hs; exact Ext.refl hs.1
  | succ n ih =>
    intro cue s hs
    unfold polling
    by_cases hc : s.caught = true
    · rw [if_pos hc]
      exact ext_quiet hs.1 rfl rfl
    · rw [if_neg hc]
      have h0 : Ext true s { s with kernel := a.delay t s.kernel, log := s.log ++ [.slept t] } := ext_one hs.1 rfl rfl (fun _ => rfl) trivial fun _ => trivial
      refine Post.trans h0 (post_sample a h _ _ ⟨h0.2, hs.2⟩ ?_)
      intro b s' hs'
      simp only []
      by_cases hq : (Cue.debounce cue (if b then 1 else 0)).r ≠ s.state
      · rw [if_pos hq]
        have h2 := ext_report a (Cue.debounce cue (if b then 1 else 0)).r hs'
        exact Post.trans h2.1 (ih _ _ h2.2)
      · rw [if_neg hq]
        have h2 := ready_quiet (s' := { s' with state := (Cue.debounce cue (if b then 1 else 0)).r }) hs' rfl rfl
        exact Post.trans h2.1 (ih _ _ h2.2)

theorem post_poll (patience : Nat) (t : BitVec 64) (h : Nat) (s : State σ) (hs : Ready h s) : Post s (poll a patience t h s) := by
  unfold poll
  refine post_sample a h s _ hs ?_
  intro b s' hs'
  have h2 := ext_report a b hs'
  exact Post.trans h2.1 (post_polling a h t _ _ _ h2.2)

theorem post_notice {h : Nat} (b : Bool) (prior : Option Bool) (s : State σ) (rest : State σ → Flow σ) (hs : Ready h s) (hr : ∀ s', Ready h s' → Post s' (rest s')) : Post s (notice a b prior s rest) := by
  unfold notice
  by_cases hq : s.unique = true ∧ prior = some b
  · rw [if_pos hq]
    have h2 := ready_quiet (s' := { s with state := b }) hs rfl rfl
    exact Post.trans h2.1 (hr _ h2.2)
  · rw [if_neg hq]
    cases hc : s.command with
    | none =>
      have h2 := ext_report a b hs
      exact Post.trans h2.1 (hr _ h2.2)
    | some text =>
      simp only []
      cases hp : s.context.path with
      | none => trivial
      | some path =>
        simp only []
        cases hg : (a.system (commandLine text path s.context.line b prior) s.kernel).1 with
        | true =>
          rw [if_pos rfl]
          have h0 : Ext true s { s with state := b, kernel := (a.system (commandLine text path s.context.line b prior) s.kernel).2, log := s.log ++ [.ran (commandLine text path s.context.line b prior) true] } := ext_one hs.1 rfl rfl (fun _ => rfl) trivial fun _ => rfl
          have := hr _ ⟨h0.2, hs.2⟩
          exact Post.trans h0 (by simpa [hc, hp] using this)
        | false =>
          rw [if_neg (by simp)]
          exact ext_one hs.1 rfl rfl (fun _ => rfl) trivial (by simp)

theorem await_ext {h : Nat} {s : State σ} (hs : Ready h s) : Ext (decide ((await a h s).1 ≠ .failed)) s (await a h s).2 ∧ Ready h (await a h s).2 := by
  unfold await
  by_cases hp : s.pending = true
  · rw [if_pos hp]
    have : Ext true s { s with pending := false, caught := true, log := s.log ++ [.waited h s.sticks .interrupted] } := ext_one hs.1 rfl rfl (fun _ => rfl) ⟨hs.held, trivial⟩ fun _ => (by simp [Fine])
    exact ⟨this, this.2, hs.2⟩
  · rw [if_neg hp]
    rcases hg : a.wait h s.sticks s.kernel with ⟨r, k⟩
    simp only []
    have : Ext (decide (r ≠ .failed)) s { s with kernel := k, log := s.log ++ [.waited h s.sticks r] } := ext_one hs.1 rfl rfl (fun _ => rfl) ⟨hs.held, trivial⟩ fun q => by simpa [Fine] using q
    exact ⟨this, this.2, hs.2⟩

theorem post_watching (h : Nat) : ∀ (n : Nat) (prior : Option Bool) (s : State σ), Ready h s → Post s (watching a h n prior s) := by
  intro n
  induction n with
  | zero => intro prior s hs; exact Ext.refl hs.1
  | succ n ih =>
    intro prior s hs
    unfold watching
    by_cases hc : s.caught = true
    · rw [if_pos hc]
      exact ext_quiet hs.1 rfl rfl
    · rw [if_neg hc]
      obtain ⟨h1, h2⟩ := await_ext a hs
      rcases hw : await a h s with ⟨r, s1⟩
      rw [hw] at h1 h2
      cases r with
      | failed => exact h1
      | interrupted => exact Post.trans h1 (ih _ _ h2)
      | timeout => exact Post.trans h1 (ih _ _ h2)
      | ready =>
        refine Post.trans h1 ?_
        simp only []
        have hx : ∀ b : Bool, (b = true → (a.read h s1.kernel).1 ≠ .failed) → Ext b s1 { s1 with kernel := (a.read h s1.kernel).2, log := s1.log ++ [.read h (a.read h s1.kernel).1] } :=
          fun b hb => ext_one h2.1 rfl rfl (fun _ => rfl) ⟨h2.held, trivial⟩ hb
        cases hg : (a.read h s1.kernel).1 with
        | failed => rw [hg] at hx; exact hx false (by simp)
        | again =>
          rw [hg] at hx
          have h3 := hx true (by simp)
          exact Post.trans h3 (ih _ _ ⟨h3.2, h2.2⟩)
        | edge b =>
          rw [hg] at hx
          have h3 := hx true (by simp)
          exact Post.trans h3 (post_notice a (h := h) _ _ _ _ ⟨h3.2, h2.2⟩ fun s' hs' => ih _ s' hs')

theorem post_watch (patience h : Nat) (s : State σ) (hs : Ready h s) : Post s (watch a patience h s) := by
  unfold watch
  have h0 := ready_quiet (s' := { s with blocked := true }) hs rfl rfl
  refine Post.trans h0.1 ?_
  by_cases hf : s.first = true
  · simp only []
    rw [if_pos hf]
    refine post_sample a h _ _ h0.2 ?_
    intro b s' hs'
    have h2 := ext_report a b hs'
    exact Post.trans h2.1 (post_watching a h _ _ _ h2.2)
  · simp only []
    rw [if_neg hf]
    exact post_watching a h _ _ _ h0.2

theorem shut_ext {s : State σ} (hi : Inv s) : Ext (shut a s).1 s (shut a s).2 := by
  unfold shut
  cases hf : s.fd with
  | none => exact Ext.refl hi
  | some h =>
    have hs : Ready h s := ⟨hi, hf⟩
    simp only []
    cases hg : (a.close h s.kernel).1 with
    | true =>
      refine ⟨⟨[.closed h true], rfl, ⟨hs.held, trivial⟩, fun _ e he => by rw [List.mem_singleton.mp he]; rfl⟩, ?_⟩
      rw [Inv]
      simp only [if_true]
      rw [held_append]; rfl
    | false =>
      refine ⟨⟨[.closed h false], rfl, ⟨hs.held, trivial⟩, fun q => by cases q⟩, ?_⟩
      rw [Inv]
      simp only [Bool.false_eq_true, if_false]
      rw [held_append, ← hf]
      exact hi

theorem post_number (text : List Byte) (s : State σ) (rest : Nat → Flow σ) (hi : Inv s) (hr : ∀ u, Post s (rest u)) : Post s (number text s rest) := by
  unfold number
  by_cases h : (Number.unsigned text).2.1 ≠ []
  · rw [if_pos h]; exact Ext.refl hi
  · rw [if_neg h]; exact hr _

theorem post_number32 (text : List Byte) (s : State σ) (rest : BitVec 32 → Flow σ) (hi : Inv s) (hr : ∀ u, Post s (rest u)) : Post s (number32 text s rest) := by
  unfold number32
  refine post_number _ _ _ hi fun u => ?_
  by_cases h : u > 4294967295
  · rw [if_pos h]; exact Ext.refl hi
  · rw [if_neg h]; exact hr _

theorem post_step (patience : Nat) (o : Opt) (s : State σ) (hi : Inv s) : Post s (step a patience o s) := by
  cases o with
  | first => exact ext_quiet hi rfl rfl
  | flag f => exact ext_quiet hi rfl rfl
  | device text => exact ext_quiet hi rfl rfl
  | debounce text =>
    simp only [step]
    exact post_number32 _ _ _ hi fun u => ext_quiet hi rfl rfl
  | context =>
    have h0 : Ext true s { s with log := s.log ++ [.shown s.context s.fd] } := ext_one hi rfl rfl (fun _ => rfl) ⟨hi, trivial⟩ fun _ => trivial
    exact h0.trans (ext_flush a h0.2)
  | place text =>
    simp only [step]
    rcases a.parse text with _ | ⟨path, line, low⟩
    · exact ext_quiet hi rfl rfl
    · exact ext_quiet hi rfl rfl
  | daemon =>
    simp only [step]
    cases hg : (a.daemon s.kernel).1 with
    | true => rw [if_pos rfl]; exact ext_one hi rfl rfl (fun _ => rfl) trivial fun _ => rfl
    | false => rw [if_neg (by simp)]; exact ext_one hi rfl rfl (fun _ => rfl) trivial (by simp)
  | unique => exact ext_quiet hi rfl rfl
  | command text => exact ext_quiet hi rfl rfl
  | poll text =>
    simp only [step]
    refine post_number _ _ _ hi fun u => ?_
    cases ticks u with
    | none => trivial
    | some t => exact post_need s _ hi fun h hs => post_poll a patience t h s hs
  | write b => exact post_need s _ hi fun h hs => post_store a h b s hs
  | shut =>
    simp only [step]
    have := shut_ext a hi
    cases hb : (shut a s).1 with
    | true => rw [if_pos rfl]; rw [hb] at this; exact this
    | false => rw [if_neg (by simp)]; rw [hb] at this; exact this
  | test nonzero =>
    simp only [step]
    by_cases h : s.state = nonzero
    · rw [if_pos h]; exact Ext.refl hi
    · rw [if_neg h]; exact Ext.refl hi
  | watch text =>
    simp only [step]
    by_cases h : (Number.signed text).2.1 ≠ []
    · rw [if_pos h]; exact Ext.refl hi
    · rw [if_neg h]
      generalize (if (Number.signed text).1 > 0 then Time.units2ticks (Number.signed text).1 1000000 else some s.sticks) = r
      cases r with
      | none => trivial
      | some t =>
        have h0 : Ext true s { s with sticks := t } := ext_quiet hi rfl rfl
        exact Post.trans h0 (post_need { s with sticks := t } _ h0.2 fun h hs => post_watch a patience h _ hs)
  | clear =>
    simp only [step]
    have h0 : Ext true s { s with context := blank } := ext_quiet hi rfl rfl
    have := shut_ext a h0.2
    cases hb : (shut a { s with context := blank }).1 with
    | true => rw [if_pos rfl]; rw [hb] at this; exact h0.trans this
    | false => rw [if_neg (by simp)]; rw [hb] at this; exact h0.trans this
  | line text =>
    simp only [step]
    exact post_number32 _ _ _ hi fun u => ext_quiet hi rfl rfl
  | read =>
    refine post_need s _ hi fun h hs => post_sample a h s _ hs fun b s' hs' => ?_
    exact (ext_print b hs').1
  | delay text =>
    simp only [step]
    refine post_number _ _ _ hi fun u => ?_
    cases ticks u with
    | none => trivial
    | some t => exact ext_one hi rfl rfl (fun _ => rfl) trivial fun _ => trivial
  | writeText text => exact post_number _ _ _ hi fun u => post_need s _ hi fun h hs => post_store a h _ s hs
  | configure =>
    simp only [step]
    cases hf : s.fd with
    | some h => exact Ext.refl hi
    | none =>
      simp only []
      have hn : held none s.log = none := by
        rw [Inv, hf] at hi
        cases hh : held none s.log with
        | none => rfl
        | some x => rw [hh] at hi; cases hi
      rcases hg : (a.open_ s.context s.kernel).1 with _ | h
      · refine ⟨⟨[.opened s.context none], rfl, ⟨hn, trivial⟩, fun q => by simp at q⟩, ?_⟩
        rw [Inv]; simp only []
        rw [held_append, hn]; rfl
      · refine ⟨⟨[.opened s.context (some h)], rfl, ⟨hn, trivial⟩, fun _ e he => by rw [List.mem_singleton.mp he]; simp [Fine]⟩, ?_⟩
        rw [Inv]; simp only []
        rw [held_append, hn]; rfl
  | menu => exact Ext.refl hi
  | other => exact Ext.refl hi

theorem inv_start (k : σ) : Inv (start k) := rfl

/-- The end of a run. -/
theorem finish_orderly (code : Nat) (s : State σ) (hi : Inv s) (ho : Orderly none s.log) :
    ∃ s', finish a code s = .exit code s' ∧ Orderly none s'.log ∧ (held none s'.log = none ∨ ∃ x h, s'.log = x ++ [.closed h false]) ∧ (s'.log = s.log ∨ ∃ h ok, s'.log = s.log ++ [.closed h ok]) := by
  refine ⟨_, rfl, ?_⟩
  obtain ⟨⟨acts, h1, h2, _⟩, h3⟩ := shut_ext a hi
  refine ⟨by rw [h1, orderly_append]; exact ⟨ho, h2⟩, ?_⟩
  unfold shut at h1 h3 ⊢
  cases hf : s.fd with
  | none =>
    refine ⟨Or.inl ?_, Or.inl rfl⟩
    rw [Inv, hf] at hi
    cases hh : held none s.log with
    | none => rfl
    | some x => rw [hh] at hi; cases hi
  | some h =>
    simp only []
    cases hb : (a.close h s.kernel).1 with
    | true => exact ⟨Or.inl (by rw [held_append]; rfl), Or.inr ⟨h, true, rfl⟩⟩
    | false => exact ⟨Or.inr ⟨_, _, rfl⟩, Or.inr ⟨h, false, rfl⟩⟩

/-- A run. -/
theorem loop_orderly (patience : Nat) : ∀ (opts : List Opt) (s : State σ), Inv s → Orderly none s.log →
    (∀ code s', loop a patience opts s = .exit code s' → Orderly none s'.log ∧ (held none s'.log = none ∨ ∃ x h, s'.log = x ++ [.closed h false]) ∧
      (code = 0 → (∀ e ∈ s.log, Fine e) → ∃ x y, s'.log = x ++ y ∧ (∀ e ∈ x, Fine e) ∧ (y = [] ∨ ∃ h ok, y = [.closed h ok]))) ∧
    (∀ s', loop a patience opts s = .busy s' → Orderly none s'.log ∧ ((∀ e ∈ s.log, Fine e) → ∀ e ∈ s'.log, Fine e)) := by
  have hfin : ∀ (c : Nat) (s0 s1 : State σ) (code : Nat) (s' : State σ), Inv s1 → Orderly none s1.log → (c = 0 → (∀ e ∈ s0.log, Fine e) → ∀ e ∈ s1.log, Fine e) → finish a c s1 = .exit code s' →
      Orderly none s'.log ∧ (held none s'.log = none ∨ ∃ x h, s'.log = x ++ [.closed h false]) ∧
      (code = 0 → (∀ e ∈ s0.log, Fine e) → ∃ x y, s'.log = x ++ y ∧ (∀ e ∈ x, Fine e) ∧ (y = [] ∨ ∃ h ok, y = [.closed h ok])) := by
    intro c s0 s1 code s' hi ho hf h
    obtain ⟨t, e, h1, h2, h3⟩ := finish_orderly a c s1 hi ho
    rw [e] at h
    injection h with hc hs
    subst hc; subst hs
    refine ⟨h1, h2, fun hz hall => ?_⟩
    rcases h3 with h3 | ⟨g, ok, h3⟩
    · exact ⟨s1.log, [], by simp [h3], hf hz hall, Or.inl rfl⟩
    · exact ⟨s1.log, _, h3, hf hz hall, Or.inr ⟨g, ok, rfl⟩⟩
  intro opts
  induction opts with
  | nil =>
    intro s hi ho
    refine ⟨fun code s' h => ?_, fun s' h => by cases h⟩
    rw [loop] at h
    exact hfin 0 s s code s' hi ho (fun _ q => q) h
  | cons o r ih =>
    intro s hi ho
    rw [loop]
    by_cases hc : s.caught = true
    · rw [if_pos hc]
      refine ⟨fun code s' h => ?_, fun s' h => by cases h⟩
      exact hfin 0 s { s with caught := false } code s' hi ho (fun _ q => q) h
    · rw [if_neg hc]
      have hp := post_step a patience o s hi
      cases hs : step a patience o s with
      | undefined => exact ⟨fun _ _ h => (by cases h), fun _ h => (by cases h)⟩
      | next t =>
        rw [hs] at hp
        obtain ⟨⟨acts, h1, h2, h3⟩, h4⟩ := hp
        have hf : (∀ e ∈ s.log, Fine e) → ∀ e ∈ t.log, Fine e := by
          intro q e he
          rw [h1] at he
          rcases List.mem_append.mp he with he | he
          · exact q e he
          · exact h3 rfl e he
        obtain ⟨g1, g2⟩ := ih t h4 (by rw [h1, orderly_append]; exact ⟨ho, h2⟩)
        simp only []
        refine ⟨fun code s' h => ?_, fun s' h => ?_⟩
        · obtain ⟨q1, q2, q3⟩ := g1 code s' h
          exact ⟨q1, q2, fun hz hall => q3 hz (hf hall)⟩
        · obtain ⟨q1, q2⟩ := g2 s' h
          exact ⟨q1, fun hall => q2 (hf hall)⟩
      | busy t =>
        rw [hs] at hp
        obtain ⟨⟨acts, h1, h2, h3⟩, h4⟩ := hp
        refine ⟨fun _ _ h => (by cases h), fun s' h => ?_⟩
        injection h with h
        subst h
        refine ⟨by rw [h1, orderly_append]; exact ⟨ho, h2⟩, fun q e he => ?_⟩
        rw [h1] at he
        rcases List.mem_append.mp he with he | he
        · exact q e he
        · exact h3 rfl e he
      | stop c t =>
        rw [hs] at hp
        obtain ⟨⟨acts, h1, h2, h3⟩, h4⟩ := hp
        refine ⟨fun code s' h => ?_, fun _ h => (by cases h)⟩
        refine hfin c s t code s' h4 (by rw [h1, orderly_append]; exact ⟨ho, h2⟩) (fun hz q e he => ?_) h
        rw [h1] at he
        rcases List.mem_append.mp he with he | he
        · exact q e he
        · exact h3 (by simp [hz]) e he

theorem reaches_inv {patience : Nat} {k : σ} {opts : List Opt} {s : State σ} (h : Reaches a patience k opts s) : Inv s := by
  induction h with
  | start => exact inv_start k
  | @step opts o s s' _ _ hs ih =>
    have := post_step a patience o s ih
    rw [hs] at this
    exact this.2

end Diminuto.Linetool
