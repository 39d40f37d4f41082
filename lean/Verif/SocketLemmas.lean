import Verif.SocketSpec

/-!
# Lemmas: sequences of calls that end with the first failure
-/

namespace Diminuto.Socket

variable {σ : Type}

theorem put_put (t : Int → Option Sock) (fd : Int) (a b : Option Sock) : put (put t fd a) fd b = put t fd b := by
  funext x; unfold put; split <;> rfl

theorem put_self (t : Int → Option Sock) (fd : Int) (a : Option Sock) : put t fd a fd = a := by
  unfold put; rw [if_pos rfl]

theorem put_none (t : Int → Option Sock) (fd : Int) (a : Option Sock) (h : t fd = none) : put (put t fd a) fd none = t := by
  funext x; unfold put; split
  · next hx => rw [hx, h]
  · next hx => rfl

/-- The calls after that of `socket(2)`. -/
def finish (w : World σ) (fd : Int) : List (σ → Int × σ) → σ → Int × σ
  | [], s => (fd, s)
  | f :: fs, s =>
    let (rc, s) := f s
    if rc < 0 then (rc, w.close fd s) else finish w fd fs s

/-- A call fails without effect or changes the socket and adds paths. -/
def Step (table : σ → Int → Option Sock) (paths : σ → List Byte → Prop) (rel : Prop) (fd : Int) (f : σ → Int × σ) (k k' : Sock) (new : List Byte → Prop) : Prop :=
  ∀ s, table s fd = some k →
    (rel → 0 ≤ (f s).1) ∧
    (((f s).1 < 0 ∧ table (f s).2 = table s ∧ ∀ p, paths (f s).2 p ↔ paths s p) ∨
     (0 ≤ (f s).1 ∧ table (f s).2 = put (table s) fd (some k') ∧ ∀ p, paths (f s).2 p ↔ paths s p ∨ new p))

inductive Chain (table : σ → Int → Option Sock) (paths : σ → List Byte → Prop) (rel : Prop) (fd : Int) :
    List (σ → Int × σ) → Sock → Sock → (List Byte → Prop) → (List Byte → Prop) → Prop
  | nil {k : Sock} : Chain table paths rel fd [] k k (fun _ => False) (fun _ => False)
  | cons {f : σ → Int × σ} {fs : List (σ → Int × σ)} {k k' k'' : Sock} {new new' left' : List Byte → Prop} :
      Step table paths rel fd f k k' new → Chain table paths rel fd fs k' k'' new' left' →
      Chain table paths rel fd (f :: fs) k k'' (fun p => new p ∨ new' p) (fun p => (fs ≠ [] ∧ new p) ∨ left' p)

theorem finish_spec {w : World σ} {table : σ → Int → Option Sock} {paths : σ → List Byte → Prop} (hw : Honest w table paths) {rel : Prop} {fd : Int} (hfd : 0 ≤ fd)
    {fs : List (σ → Int × σ)} {k k' : Sock} {new left : List Byte → Prop} (hc : Chain table paths rel fd fs k k' new left) :
    ∀ s, table s fd = some k →
      (rel → 0 ≤ (finish w fd fs s).1) ∧
      (((finish w fd fs s).1 = fd ∧ table (finish w fd fs s).2 = put (table s) fd (some k') ∧ ∀ p, paths (finish w fd fs s).2 p ↔ paths s p ∨ new p) ∨
       ((finish w fd fs s).1 < 0 ∧ table (finish w fd fs s).2 = put (table s) fd none ∧ (∀ p, paths s p → paths (finish w fd fs s).2 p) ∧
        ∀ p, paths (finish w fd fs s).2 p → paths s p ∨ left p)) := by
  induction hc with
  | nil =>
    intro s hs
    refine ⟨fun _ => hfd, Or.inl ⟨rfl, ?_, fun p => ?_⟩⟩
    · funext x
      unfold put finish
      split
      · next hx => rw [hx]; exact hs
      · rfl
    · unfold finish; simp
  | @cons f fs k k' k'' new new' left' hstep hc ih =>
    intro s hs
    obtain ⟨hrel, hcase⟩ := hstep s hs
    rcases hf : f s with ⟨rc, s1⟩
    rw [hf] at hrel hcase
    simp only [] at hrel hcase
    have hfin : finish w fd (f :: fs) s = if rc < 0 then (rc, w.close fd s1) else finish w fd fs s1 := by
      conv => lhs; unfold finish
      rw [hf]
    rw [hfin]
    rcases hcase with ⟨hneg, ht, hp⟩ | ⟨hpos, ht, hp⟩
    · rw [if_pos hneg]
      obtain ⟨h1, h2⟩ := hw.close fd s1 k (by rw [ht]; exact hs)
      refine ⟨fun h => absurd (hrel h) (by omega), Or.inr ⟨hneg, ?_, fun p h => (h2 p).2 ((hp p).2 h), fun p h => Or.inl ((hp p).1 ((h2 p).1 h))⟩⟩
      show table (w.close fd s1) = _
      rw [h1, ht]
    · rw [if_neg (by omega)]
      have hs1 : table s1 fd = some k' := by rw [ht, put_self]
      obtain ⟨h1, h2⟩ := ih s1 hs1
      refine ⟨h1, ?_⟩
      rcases h2 with ⟨ha, hb, hcc⟩ | ⟨ha, hb, hcc, hd⟩
      · refine Or.inl ⟨ha, by rw [hb, ht, put_put], fun p => ?_⟩
        rw [hcc p, hp p]
        simp only [or_assoc]
      · refine Or.inr ⟨ha, by rw [hb, ht, put_put], fun p h => hcc p ((hp p).2 (Or.inl h)), fun p h => ?_⟩
        rcases hd p h with h | h
        · rcases (hp p).1 h with h3 | h3
          · exact Or.inl h3
          · cases fs with
            | cons _ _ => exact Or.inr (Or.inl ⟨by simp, h3⟩)
            | nil =>
              exfalso
              have e : (finish w fd [] s1).1 = fd := rfl
              omega
        · exact Or.inr (Or.inr h)

/-- A call that makes no path. -/
theorem Chain.quiet {table : σ → Int → Option Sock} {paths : σ → List Byte → Prop} {rel : Prop} {fd : Int} {f : σ → Int × σ} {fs : List (σ → Int × σ)} {k k' k'' : Sock}
    {new left : List Byte → Prop} (h : Step table paths rel fd f k k' (fun _ => False)) (hc : Chain table paths rel fd fs k' k'' new left) :
    Chain table paths rel fd (f :: fs) k k'' new left := by
  have e1 : (fun p => False ∨ new p) = new := by funext p; simp
  have e2 : (fun p => (fs ≠ [] ∧ False) ∨ left p) = left := by funext p; simp
  have h1 := Chain.cons h hc
  rw [e1, e2] at h1
  exact h1

/-- A call that may make a path, before others. -/
theorem Chain.loud {table : σ → Int → Option Sock} {paths : σ → List Byte → Prop} {rel : Prop} {fd : Int} {f : σ → Int × σ} {fs : List (σ → Int × σ)} {k k' k'' : Sock}
    {new : List Byte → Prop} (h : Step table paths rel fd f k k' new) (hne : fs ≠ []) (hc : Chain table paths rel fd fs k' k'' (fun _ => False) (fun _ => False)) :
    Chain table paths rel fd (f :: fs) k k'' new new := by
  have e1 : (fun p => new p ∨ False) = new := by funext p; simp
  have e2 : (fun p => (fs ≠ [] ∧ new p) ∨ False) = new := by funext p; simp [hne]
  have h1 := Chain.cons h hc
  rw [e1, e2] at h1
  exact h1

/-- A call that may make a path, at the end. -/
theorem Chain.last {table : σ → Int → Option Sock} {paths : σ → List Byte → Prop} {rel : Prop} {fd : Int} {f : σ → Int × σ} {k k' : Sock}
    {new : List Byte → Prop} (h : Step table paths rel fd f k k' new) : Chain table paths rel fd [f] k k' new (fun _ => False) := by
  have e1 : (fun p => new p ∨ False) = new := by funext p; simp
  have e2 : (fun p => (([] : List (σ → Int × σ)) ≠ [] ∧ new p) ∨ False) = fun _ => False := by funext p; simp
  have h1 := Chain.cons h (Chain.nil (table := table) (paths := paths) (rel := rel) (fd := fd))
  rw [e1, e2] at h1
  exact h1

/-- All of it, from `socket(2)` on. -/
def whole (w : World σ) (d : Domain) (y : Style) (fs : Int → List (σ → Int × σ)) (s : σ) : Int × σ :=
  let (fd, s) := w.socket d y s
  if fd < 0 then (fd, s) else finish w fd (fs fd) s

theorem whole_spec {w : World σ} {table : σ → Int → Option Sock} {paths : σ → List Byte → Prop} (hw : Honest w table paths) {f : Option (Int → σ → Int × σ)} {d : Domain} {y : Style}
    {fs : Int → List (σ → Int × σ)} {k' : Sock} {new left : List Byte → Prop}
    (hc : ∀ fd, 0 ≤ fd → Chain table paths (Reliable w table f) fd (fs fd) { domain := d, style := y } k' new left) (s : σ) :
    (Reliable w table f → 0 ≤ (whole w d y fs s).1) ∧
    (Made table paths s (whole w d y fs s) (· = k') new ∨ Closed table paths s (whole w d y fs s) left) := by
  unfold whole
  have hsock := hw.socket d y s
  have hrel : Reliable w table f → 0 ≤ (w.socket d y s).1 := fun h => h.socket d y s
  rcases hr : w.socket d y s with ⟨fd, s1⟩
  rw [hr] at hsock hrel
  simp only [] at hsock hrel ⊢
  rcases hsock with ⟨hneg, ht, hp⟩ | ⟨hpos, hfree, ht, hp⟩
  · rw [if_pos hneg]
    exact ⟨hrel, Or.inr ⟨hneg, ht, fun p h => (hp p).2 h, fun p h => Or.inl ((hp p).1 h)⟩⟩
  · rw [if_neg (by omega)]
    obtain ⟨h1, h2⟩ := finish_spec hw hpos (hc fd hpos) s1 (by rw [ht, put_self])
    refine ⟨h1, ?_⟩
    rcases h2 with ⟨ha, hb, hcc⟩ | ⟨ha, hb, hcc, hd⟩
    · refine Or.inl ⟨by rw [ha]; exact hpos, by rw [ha]; exact hfree, ⟨k', rfl, by rw [hb, ht, put_put, ha]⟩, fun p => ?_⟩
      rw [hcc p, hp p]
    · refine Or.inr ⟨ha, by rw [hb, ht]; exact put_none _ _ _ hfree |>.trans rfl, fun p h => hcc p ((hp p).2 h), fun p h => ?_⟩
      rcases hd p h with h | h
      · exact Or.inl ((hp p).1 h)
      · exact Or.inr h

theorem whole_undone {w : World σ} {table : σ → Int → Option Sock} {paths : σ → List Byte → Prop} (hw : Honest w table paths) {f : Option (Int → σ → Int × σ)} {d : Domain} {y : Style} {fs : Int → List (σ → Int × σ)} {k' : Sock} {new left : List Byte → Prop}
    (hc : ∀ fd, 0 ≤ fd → Chain table paths (Reliable w table f) fd (fs fd) { domain := d, style := y } k' new left)
    (hleft : ∀ p, ¬ left p) (s : σ) (P : Sock → Prop) (hP : P k') (new' : List Byte → Prop) (hnew : ∀ p, new p ↔ new' p) (r : Int × σ) (hr : r = whole w d y fs s) :
    (Reliable w table f → 0 ≤ r.1) ∧ (Made table paths s r P new' ∨ Undone table paths s r) := by
  subst hr
  obtain ⟨h1, h2⟩ := whole_spec hw hc s
  refine ⟨h1, ?_⟩
  rcases h2 with ⟨a, b, ⟨k, rfl, e⟩, c⟩ | ⟨a, b, c, d⟩
  · exact Or.inl ⟨a, b, ⟨k, hP, e⟩, fun p => by rw [c p, hnew p]⟩
  · exact Or.inr ⟨a, b, fun p => ⟨fun h => (d p h).resolve_right (hleft p), c p⟩⟩

theorem whole_closed {w : World σ} {table : σ → Int → Option Sock} {paths : σ → List Byte → Prop} (hw : Honest w table paths) {f : Option (Int → σ → Int × σ)} {d : Domain} {y : Style} {fs : Int → List (σ → Int × σ)} {k' : Sock} {new left : List Byte → Prop}
    (hc : ∀ fd, 0 ≤ fd → Chain table paths (Reliable w table f) fd (fs fd) { domain := d, style := y } k' new left)
    (s : σ) (P : Sock → Prop) (hP : P k') (new' : List Byte → Prop) (hnew : ∀ p, new p ↔ new' p) (hleft : ∀ p, left p → new' p) (r : Int × σ) (hr : r = whole w d y fs s) :
    (Reliable w table f → 0 ≤ r.1) ∧ (Made table paths s r P new' ∨ Closed table paths s r new') := by
  subst hr
  obtain ⟨h1, h2⟩ := whole_spec hw hc s
  refine ⟨h1, ?_⟩
  rcases h2 with ⟨a, b, ⟨k, rfl, e⟩, c⟩ | ⟨a, b, c, d⟩
  · exact Or.inl ⟨a, b, ⟨k, hP, e⟩, fun p => by rw [c p, hnew p]⟩
  · exact Or.inr ⟨a, b, c, fun p h => (d p h).imp_right (hleft p)⟩

theorem limit_backlog (b : Int) : Backlog b (limit b) := by
  unfold Backlog limit SOMAXCONN
  constructor <;> intros <;> split <;> (try split) <;> omega

theorem takeWhile_pad (p : List Byte) (h0 : 0#8 ∉ p) (n : Nat) : (p ++ List.replicate n 0#8).takeWhile (· ≠ 0#8) = p := by
  induction p with
  | nil => cases n <;> simp [List.replicate_succ]
  | cons a p ih =>
    have ha : a ≠ 0#8 := fun e => h0 (by simp [e])
    rw [List.cons_append, List.takeWhile_cons]
    rw [if_pos (by simpa using ha), ih (fun h => h0 (by simp [h]))]

/-! ## The calls -/

section
variable {w : World σ} {table : σ → Int → Option Sock} {paths : σ → List Byte → Prop} (hw : Honest w table paths) {f : Option (Int → σ → Int × σ)}
  (hf : Decent table paths f) {fd : Int} (hfd : 0 ≤ fd) (k : Sock)

theorem same_put {t : Int → Option Sock} {fd : Int} {k : Sock} (h : t fd = some k) : t = put t fd (some k) := by
  funext x; unfold put; split
  · next hx => rw [hx, h]
  · rfl

include hf hfd in
theorem step_inject : Step table paths (Reliable w table f) fd (inject f fd) k k (fun _ => False) := by
  intro s hs
  unfold inject
  cases f with
  | none => exact ⟨fun _ => hfd, Or.inr ⟨hfd, same_put hs, fun p => by simp⟩⟩
  | some g =>
    obtain ⟨h1, h2⟩ := hf g rfl fd s k hs
    refine ⟨fun h => h.inject g rfl fd s k hs, ?_⟩
    by_cases hn : (g fd s).1 < 0
    · exact Or.inl ⟨hn, h1, h2⟩
    · refine Or.inr ⟨Int.not_lt.1 hn, ?_, fun p => ?_⟩
      · show table (g fd s).2 = _
        rw [h1]; exact same_put hs
      · show paths (g fd s).2 p ↔ _
        rw [h2 p]; simp

include hw in
theorem step_bind (a : Addr) : Step table paths (Reliable w table f) fd (w.bind fd a) k { k with bound := some a } a.path :=
  fun s hs => ⟨fun h => h.bind fd a s k hs, hw.bind fd a s k hs⟩

include hw in
theorem step_listen (b : Int) : Step table paths (Reliable w table f) fd (w.listen fd b) k { k with backlog := some b } (fun _ => False) := by
  intro s hs
  refine ⟨fun h => h.listen fd b s k hs, ?_⟩
  rcases hw.listen fd b s k hs with h | ⟨h1, h2, h3⟩
  · exact Or.inl h
  · exact Or.inr ⟨h1, h2, fun p => by rw [h3 p]; simp⟩

include hw in
theorem step_connect (a : Addr) : Step table paths (Reliable w table f) fd (w.connect fd a) k { k with peer := some a } (fun _ => False) := by
  intro s hs
  refine ⟨fun h => h.connect fd a s k hs, ?_⟩
  rcases hw.connect fd a s k hs with h | ⟨h1, h2, h3⟩
  · exact Or.inl h
  · exact Or.inr ⟨h1, h2, fun p => by rw [h3 p]; simp⟩

include hw hfd in
theorem step_interface (i : Option (List Byte)) (hi : ∀ n, i = some n → n.length ≤ 15) (hk : k.device = []) :
    Step table paths (Reliable w table f) fd (setInterface w fd i) k { k with device := i.getD [] } (fun _ => False) := by
  intro s hs
  unfold setInterface
  cases i with
  | none =>
    have e : ({ k with device := (none : Option (List Byte)).getD [] } : Sock) = k := by
      cases k; simp only [Option.getD_none] at *; rw [hk]
    rw [e]
    exact ⟨fun _ => hfd, Or.inr ⟨hfd, same_put hs, fun p => by simp⟩⟩
  | some n =>
    have e : n.take (IFNAMSIZ - 1) = n := List.take_of_length_le (hi n rfl)
    simp only [e]
    have h := hw.device fd n s k hs
    have hr : Reliable w table f → (w.device fd n s).1 = .ok := fun h => h.device fd n s k hs
    rcases hd : w.device fd n s with ⟨a, s1⟩
    rw [hd] at h hr
    rcases h with ⟨h1, h2, h3⟩ | ⟨h1, h2, h3⟩
    · cases a with
      | ok => exact absurd rfl h1
      | perm => exact ⟨fun h => (by cases hr h), Or.inl ⟨show (-4 : Int) < 0 by decide, h2, h3⟩⟩
      | other => exact ⟨fun h => (by cases hr h), Or.inl ⟨show (-5 : Int) < 0 by decide, h2, h3⟩⟩
    · simp only [] at h1
      subst h1
      exact ⟨fun _ => hfd, Or.inr ⟨hfd, h2, fun p => by rw [h3 p]; simp⟩⟩

include hw in
theorem step_source4 (a : BitVec 32) (port : BitVec 16) : Step table paths (Reliable w table f) fd (source4 w fd a port) k { k with bound := some (.inet a port) } (fun _ => False) := by
  have hz : (if a = 0 then 0 else a) = a := by split <;> simp_all
  have h := step_bind (f := f) (fd := fd) hw k (.inet a port)
  unfold source4
  rw [hz]
  exact h

include hw in
theorem step_source6 (a : BitVec 128) (port : BitVec 16) : Step table paths (Reliable w table f) fd (source6 w fd a port) k { k with bound := some (.inet6 a port) } (fun _ => False) := by
  have hz : (if a = 0 then 0 else a) = a := by split <;> simp_all
  have h := step_bind (f := f) (fd := fd) hw k (.inet6 a port)
  unfold source6
  rw [hz]
  exact h

include hw in
theorem step_source (p : List Byte) (h0 : 0#8 ∉ p) (hlen : p.length ≤ 108) :
    ∃ a, Named p a ∧ ∀ (fd : Int), 0 ≤ fd → ∀ (k : Sock), k.bound = none →
      Step table paths (Reliable w table f) fd (sourcel w fd (some p)) k { k with bound := a } (At p) := by
  cases p with
  | nil =>
    refine ⟨none, ⟨fun _ => rfl, fun h => absurd rfl h⟩, fun fd hfd k hk s hs => ⟨fun _ => hfd, Or.inr ⟨hfd, ?_, fun p => ?_⟩⟩⟩
    · have e : ({ k with bound := none } : Sock) = k := by cases k; simp only [] at hk; rw [hk]
      rw [e]; exact same_put hs
    · simp [At, sourcel, Ipcl.source]
  | cons c p =>
    have e : Ipcl.address (c :: p) = (c :: p) ++ List.replicate (108 - (c :: p).length) 0#8 := by
      unfold Ipcl.address Ipcl.strncpy Ipcl.SUN
      rw [List.take_of_length_le hlen]
    refine ⟨some (.unix (Ipcl.address (c :: p))), ⟨fun h => (by cases h), fun _ => ⟨108 - (c :: p).length, by omega, by rw [e]⟩⟩, fun fd hfd k hk => ?_⟩
    have h := step_bind (f := f) hw (fd := fd) k (.unix (Ipcl.address (c :: p)))
    have ep : (Addr.unix (Ipcl.address (c :: p))).path = At (c :: p) := by
      funext q
      show (q = (Ipcl.address (c :: p)).takeWhile (· ≠ 0#8)) = _
      unfold At
      rw [e, takeWhile_pad _ h0]
      simp
    rw [ep] at h
    exact h

end

end Diminuto.Socket
