import Verif.ReaperSpec

/-!
# Properties of the Reaper feature
-/

namespace Diminuto.Reaper

theorem zombies_append (a b : List Child) : zombies (a ++ b) = zombies a ++ zombies b := List.filterMap_append

theorem zombies_some (pid status : Int) (l : List Child) : zombies (⟨pid, some status⟩ :: l) = (pid, status) :: zombies l := rfl

theorem zombies_none (pid : Int) (l : List Child) : zombies (⟨pid, none⟩ :: l) = zombies l := rfl

theorem zombies_erase (s : List Child) (c : Child) (status : Int) (h : c ∈ s) (hz : c.status = some status) : (zombies s).Perm ((c.pid, status) :: zombies (s.erase c)) := by
  have hp := (List.perm_cons_erase h).filterMap (fun c : Child => c.status.map fun status => (c.pid, status))
  simp only [List.filterMap_cons, hz, Option.map_some] at hp
  exact hp

theorem mem_zombies (s : List Child) (z : Int × Int) : z ∈ zombies s ↔ (⟨z.1, some z.2⟩ : Child) ∈ s := by
  obtain ⟨p, t⟩ := z
  simp only [zombies, List.mem_filterMap, Option.map_eq_some_iff, Prod.mk.injEq]
  constructor
  · rintro ⟨⟨q, o⟩, hc, u, hu, hq, ht⟩
    simp only at hu hq
    rw [hq, hu, ht] at hc
    exact hc
  · intro h
    exact ⟨_, h, t, rfl, rfl, rfl⟩

/-- What is known of the children: the identifiers are greater than zero, and no two are the same. -/
def Good (s : List Child) : Prop := (∀ c ∈ s, 0 < c.pid) ∧ (s.map Child.pid).Nodup

theorem good_step {x y : Sys} {e : Event} (h : Step x e y) (hg : Good x.children) : Good y.children := by
  obtain ⟨h1, h2⟩ := hg
  cases h with
  | fork pid hp hf =>
    refine ⟨?_, ?_⟩
    · intro c hc
      rcases List.mem_cons.mp hc with rfl | hc
      · exact hp
      · exact h1 c hc
    · simp only [List.map_cons, List.nodup_cons]
      refine ⟨?_, h2⟩
      intro hm
      obtain ⟨c, hc, he⟩ := List.mem_map.mp hm
      exact hf c hc he
  | exit pid status before after h =>
    rw [h] at h1 h2
    refine ⟨?_, ?_⟩
    · intro c hc
      rcases List.mem_append.mp hc with hc | hc
      · exact h1 c (List.mem_append_left _ hc)
      · rcases List.mem_cons.mp hc with rfl | hc
        · exact h1 ⟨pid, none⟩ (List.mem_append_right _ List.mem_cons_self)
        · exact h1 c (List.mem_append_right _ (List.mem_cons_of_mem _ hc))
    · simpa using h2
  | call pids nohang hp pid errno status children h =>
    cases h with
    | echild => exact ⟨h1, h2⟩
    | one _ _ c hc _ _ => exact ⟨fun d hd => h1 d (List.mem_of_mem_erase hd), List.Nodup.sublist (List.Sublist.map _ List.erase_sublist) h2⟩
    | zero => exact ⟨h1, h2⟩
    | eintr => exact ⟨h1, h2⟩

theorem good {l : List Event} {s : Sys} (h : Reaches l s) : Good s.children := by
  induction h with
  | start =>
    refine ⟨?_, List.nodup_nil⟩
    intro c hc
    nomatch hc
  | step _ hs ih => exact good_step hs ih

/-- C119.  Whatever children are created, in whatever order they terminate, and however the functions are called, every termination is either one that has been reported, with its status, or one that is still to be reported; none is reported twice, and
nothing else is reported. -/
theorem reaper_exactly_once {l : List Event} {s : Sys} (h : Reaches l s) : s.exited.Perm (s.reported ++ zombies s.children) := by
  induction h with
  | start => exact List.Perm.refl _
  | @step l x y e hr hs ih =>
    have hg := good hr
    cases hs with
    | fork pid hp hf => exact ih
    | exit pid status before after h =>
      simp only
      rw [h, zombies_append, zombies_none] at ih
      rw [zombies_append, zombies_some]
      refine (ih.append_right [(pid, status)]).trans ?_
      simp only [List.append_assoc]
      refine List.Perm.append_left _ (List.Perm.append_left _ ?_)
      exact List.perm_append_singleton _ _
    | call pids nohang hp pid errno status children h =>
      simp only
      cases h with
      | echild => simpa [reap, reports] using ih
      | one _ _ c hc hs hz =>
        have hpos := hg.1 c hc
        have h1 : reap c.pid errno status = (c.pid, some status) := by
          have h3 : ¬ (c.pid < 0 ∧ errno = ECHILD) := by omega
          have h4 : ¬ c.pid ≤ 0 := by omega
          simp only [reap, if_neg h3, if_neg h4]
        rw [h1]
        refine ih.trans ?_
        simp only [reports, List.append_assoc]
        exact List.Perm.append_left _ (zombies_erase _ _ _ hc hz)
      | zero => simpa [reap, reports] using ih
      | eintr => simpa [reap, reports, EINTR, ECHILD] using ih

/-- C119.  What a call returns.  A value greater than zero is the identifier of a child that was waited for and has terminated, its status is stored, and that child is removed and no other.  Otherwise nothing is stored and no child is removed.
Zero is for no such child, or, when the call does not wait, for none that has terminated.  A value less than zero is only for a wait that has been interrupted. -/
theorem reaper_call {l : List Event} {x y : Sys} (hr : Reaches l x) {pids : Int} {nohang : Bool} {result : Int} {stored : Option Int} (h : Step x (.call pids nohang result stored) y) :
    (0 < result → ∃ status, stored = some status ∧ ⟨result, some status⟩ ∈ x.children ∧ (pids = -1 ∨ pids = result) ∧ y.children = x.children.erase ⟨result, some status⟩) ∧
      (result ≤ 0 → stored = none ∧ y.children = x.children) ∧
      (result = 0 → (∀ c ∈ x.children, selects pids c = false) ∨ (nohang = true ∧ ∀ c ∈ x.children, selects pids c = true → c.status = none)) ∧
      (result < 0 → nohang = false ∧ ∀ c ∈ x.children, selects pids c = true → c.status = none) := by
  have hg := good hr
  cases h with
  | call pids nohang hp pid errno status children h =>
    cases h with
    | echild _ h =>
      have he : reap (-1) ECHILD status = (0, none) := rfl
      rw [he]
      exact ⟨fun h => by simp at h, fun _ => ⟨rfl, rfl⟩, fun _ => Or.inl h, fun h => by simp at h⟩
    | one _ _ c hc hs hz =>
      have hpos := hg.1 c hc
      have h3 : ¬ (c.pid < 0 ∧ errno = ECHILD) := by omega
      have h4 : ¬ c.pid ≤ 0 := by omega
      simp only [reap, if_neg h3, if_neg h4]
      obtain ⟨p, o⟩ := c
      simp only at hz
      subst hz
      refine ⟨fun _ => ⟨status, rfl, hc, ?_, rfl⟩, fun h => absurd h h4, fun h => by simp only at h hpos; omega, fun h => by simp only at h hpos; omega⟩
      simpa [selects] using hs
    | zero _ _ hn c hc hs hz =>
      have he : reap 0 errno status = (0, none) := rfl
      rw [he]
      exact ⟨fun h => by simp at h, fun _ => ⟨rfl, rfl⟩, fun _ => Or.inr ⟨hn, hz⟩, fun h => by simp at h⟩
    | eintr _ hn c hc hs hz =>
      have he : reap (-1) EINTR status = (-1, none) := rfl
      rw [he]
      exact ⟨fun h => by simp at h, fun _ => ⟨rfl, rfl⟩, fun h => by simp at h, fun _ => ⟨hn, hz⟩⟩

/-- C119.  `while (diminuto_reaper_reap(&status) > 0)` waits for no child, ends, and leaves none that has terminated: a call of `diminuto_reaper_reap` always can be made, its value is not less than zero, it is greater than zero if there is such a child, and
there is one fewer then. -/
theorem reaper_drain {l : List Event} {x : Sys} (hr : Reaches l x) :
    (∃ result stored y, Step x (.call (-1) true result stored) y) ∧
      ∀ result stored y, Step x (.call (-1) true result stored) y →
        0 ≤ result ∧ (result = 0 ↔ zombies x.children = []) ∧ (0 < result → (zombies y.children).length + 1 = (zombies x.children).length) ∧ (result = 0 → y = x) := by
  refine ⟨?_, ?_⟩
  · by_cases hz : zombies x.children = []
    · by_cases hc : x.children = []
      · exact ⟨_, _, _, Step.call (-1) true (Or.inl rfl) _ _ _ _ (Waitpid.echild 0 (by rw [hc]; intro c h; nomatch h))⟩
      · obtain ⟨c, hm⟩ := List.exists_mem_of_ne_nil _ hc
        refine ⟨_, _, _, Step.call (-1) true (Or.inl rfl) _ _ _ _ (Waitpid.zero 0 0 rfl c hm rfl ?_)⟩
        intro d hd _
        cases hs : d.status with
        | none => rfl
        | some t =>
          obtain ⟨p, o⟩ := d
          simp only at hs
          subst hs
          have := (mem_zombies x.children (p, t)).mpr hd
          rw [hz] at this
          nomatch this
    · obtain ⟨z, hm⟩ := List.exists_mem_of_ne_nil _ hz
      exact ⟨_, _, _, Step.call (-1) true (Or.inl rfl) _ _ _ _ (Waitpid.one 0 z.2 _ ((mem_zombies _ _).mp hm) rfl rfl)⟩
  · intro result stored y h
    obtain ⟨h1, h2, h3, h4⟩ := reaper_call hr h
    have hall : (∀ c ∈ x.children, selects (-1) c = true → c.status = none) → zombies x.children = [] := by
      intro hn
      rw [List.eq_nil_iff_forall_not_mem]
      intro z hz
      have := hn _ ((mem_zombies _ _).mp hz) rfl
      simp at this
    have h0 : 0 ≤ result := by
      rcases Int.lt_or_le result 0 with hlt | hle
      · exact absurd (h4 hlt).1 (by decide)
      · exact hle
    refine ⟨h0, ⟨?_, ?_⟩, ?_, ?_⟩
    · intro hz
      rcases h3 hz with hn | ⟨_, hn⟩
      · exact hall fun c hc hs => by rw [hn c hc] at hs; nomatch hs
      · exact hall hn
    · intro hz
      rcases Int.lt_or_le 0 result with hlt | hle
      · obtain ⟨status, _, hm, _⟩ := h1 hlt
        have := (mem_zombies x.children (result, status)).mpr hm
        rw [hz] at this
        nomatch this
      · omega
    · intro hpos
      obtain ⟨status, _, hm, _, he⟩ := h1 hpos
      rw [he]
      have := (zombies_erase _ _ status hm rfl).length_eq
      simpa using this.symm
    · intro hz
      obtain ⟨hst, he⟩ := h2 (by omega)
      cases h with
      | call _ _ _ pid errno status children h =>
        simp only at he
        subst he
        simp only [reports, hst, List.append_nil]

/-- What the program keeps: if a child has terminated and has not been waited for then the signal is pending, or has been counted, or the program is in the loop. -/
def Prog.Kept (x : Prog) : Prop := zombies x.sys.children ≠ [] → x.pending = true ∨ x.signaled ≠ 0 ∨ x.pc = .loop

theorem Prog.sys_reaches {once : Bool} {x : Prog} (h : Prog.Reaches once x) : ∃ l, Reaper.Reaches l x.sys := by
  induction h with
  | start => exact ⟨[], .start⟩
  | step _ hs ih =>
    obtain ⟨l, ih⟩ := ih
    cases hs with
    | fork pid y h => exact ⟨_, ih.step h⟩
    | exit pid status y h => exact ⟨_, ih.step h⟩
    | handle => exact ⟨_, ih⟩
    | check => exact ⟨_, ih⟩
    | reap h r t y hs => exact ⟨_, ih.step hs⟩

/-- C119.  The program that reaps until nothing is left when it is told that there has been a signal forgets no child, although any number of children may terminate for one signal, and at any time, also between the last reap and the next check: when no signal is pending and
none is counted, and the program is not in the loop, then every child that has terminated has been reported, once. -/
theorem reaper_not_forgotten {x : Prog} (h : Prog.Reaches false x) (h1 : x.pending = false) (h2 : x.signaled = 0) (h3 : x.pc = .check) :
    zombies x.sys.children = [] ∧ x.sys.exited.Perm x.sys.reported := by
  have hk : Prog.Kept x := by
    clear h1 h2 h3
    induction h with
    | start => intro hz; exact absurd rfl hz
    | @step x y hr hs ih =>
      obtain ⟨l, hl⟩ := Prog.sys_reaches hr
      intro hz
      cases hs with
      | fork pid z h =>
        cases h with
        | fork _ hp hf => exact ih hz
      | exit => exact Or.inl rfl
      | handle =>
        simp only
        right; left
        split
        · omega
        · rename_i hn
          simp only [MAXIMUM] at hn
          omega
      | check h =>
        simp only at hz ⊢
        rcases ih hz with hp | hp | hp
        · exact Or.inl hp
        · right; right
          rw [if_neg hp]
        · rw [h] at hp; nomatch hp
      | reap h result stored z hs =>
        simp only at hz ⊢
        have hd := (reaper_drain hl).2 _ _ _ hs
        by_cases hp : result > 0
        · right; right
          simp [hp]
        · have h0 : result = 0 := by omega
          rw [hd.2.2.2 h0] at hz
          exact absurd (hd.2.1.mp h0) hz
  have hz : zombies x.sys.children = [] := by
    rcases Decidable.em (zombies x.sys.children = []) with hz | hz
    · exact hz
    · rcases hk hz with hp | hp | hp
      · rw [h1] at hp; nomatch hp
      · exact absurd h2 hp
      · rw [h3] at hp; nomatch hp
  obtain ⟨l, hl⟩ := Prog.sys_reaches h
  have := reaper_exactly_once hl
  rw [hz, List.append_nil] at this
  exact ⟨hz, this⟩

/-- Two children that terminate for one signal, so that the hypotheses of `reaper_not_forgotten` can be met with something reported; or not, if only one is reaped (`once`). -/
def both (reported : List (Int × Int)) (children : List Child) : Sys := ⟨children, [(7, 1), (8, 2)], reported⟩

theorem both_reaches (once : Bool) : Prog.Reaches once ⟨both [] [⟨8, some 2⟩, ⟨7, some 1⟩], false, 0, .loop⟩ := by
  have h1 := Prog.Reaches.step (Prog.Reaches.start (once := once)) (.fork 7 _ (.fork 7 (by decide) (by intro c h; nomatch h)))
  have h2 := h1.step (.fork 8 _ (.fork 8 (by decide) (by intro c h; rcases List.mem_singleton.mp h with rfl; decide)))
  have h3 := h2.step (.exit 7 1 _ (.exit 7 1 [⟨8, none⟩] [] rfl))
  have h4 := h3.step (.exit 8 2 _ (.exit 8 2 [] [⟨7, some 1⟩] rfl))
  have h5 := h4.step (.handle rfl)
  exact h5.step (.check rfl)

theorem both_once (once : Bool) : Prog.Reaches once ⟨both [(8, 2)] [⟨7, some 1⟩], false, 0, if once = false then .loop else .check⟩ := by
  have h := (both_reaches once).step (.reap rfl _ _ _ (.call (-1) true (Or.inl rfl) 8 0 2 _ (.one 0 2 ⟨8, some 2⟩ List.mem_cons_self rfl rfl)))
  cases once <;> exact h

example : Prog.Reaches false ⟨both [(8, 2), (7, 1)] [], false, 0, .check⟩ := by
  have h := (both_once false).step (.reap rfl _ _ _ (.call (-1) true (Or.inl rfl) 7 0 1 _ (.one 0 1 ⟨7, some 1⟩ List.mem_cons_self rfl rfl)))
  exact h.step (.reap rfl _ _ _ (.call (-1) true (Or.inl rfl) (-1) ECHILD 0 _ (.echild 0 (by intro c h; nomatch h))))

/-- C119.  A program that reaps only once for each check, as the values of the functions suggest, can forget a child: nothing is pending, nothing is counted, and one has terminated and is not reported. -/
theorem reaper_once_counterexample : ∃ x : Prog, Prog.Reaches true x ∧ x.pending = false ∧ x.signaled = 0 ∧ x.pc = .check ∧ zombies x.sys.children ≠ [] :=
  ⟨_, both_once true, rfl, rfl, rfl, by decide⟩

/-- C119.  `diminuto_reaper_wait` is documented to return an identifier or a value less than zero; it returns zero, at once, if there is no child. -/
theorem reaper_wait_counterexample : ∃ l x y, Reaches l x ∧ Step x (.call (-1) false 0 none) y :=
  ⟨_, _, _, .start, .call (-1) false (Or.inl rfl) (-1) ECHILD 0 _ (.echild 0 (by intro c h; nomatch h))⟩

/-- C119.  Otherwise `diminuto_reaper_wait` does return an identifier, or a value less than zero because a signal arrived. -/
theorem reaper_wait_partial {l : List Event} {x y : Sys} (hr : Reaches l x) (hc : x.children ≠ []) {result : Int} {stored : Option Int} (h : Step x (.call (-1) false result stored) y) : result ≠ 0 := by
  intro h0
  rcases (reaper_call hr h).2.2.1 h0 with hn | ⟨hn, _⟩
  · obtain ⟨c, hm⟩ := List.exists_mem_of_ne_nil _ hc
    have := hn c hm
    simp [selects] at this
  · nomatch hn

example : ∃ l x, Reaches l x ∧ x.children ≠ [] ∧ ∃ y, Step x (.call (-1) false 7 (some 3)) y := by
  have h1 := Reaches.step .start (.fork 7 (by decide) (by intro c h; nomatch h))
  have h2 := h1.step (.exit 7 3 [] [] rfl)
  exact ⟨_, _, h2, by decide, _, .call (-1) false (Or.inl rfl) 7 0 3 _ (.one 0 3 ⟨7, some 3⟩ List.mem_cons_self rfl rfl)⟩

end Diminuto.Reaper
