import Verif.FramertoolLemmas2

/-!
# Lemmas on the tool that passes lines of text over a serial line: what ends it, and whole frames
-/

namespace Diminuto.Framer

/-- Whole frames one after the other: what they carry. -/
theorem digest_payloads (frames : List (List Byte × List Byte × BitVec 16)) (f : Framer) (hb : f.size ≤ f.buffer.length) (hs : f.state = .reset)
    (hv : ∀ x ∈ frames, IsFrame x.1 x.2.1 x.2.2 ∧ x.2.1 ≠ [] ∧ x.2.1.length ≤ f.size) :
    ∃ h done, digest f (frames.map (·.1)).flatten = some (h, done) ∧ done.map (fun g => g.buffer.take g.length) = frames.map (·.2.1) := by
  induction frames generalizing f with
  | nil => exact ⟨f, [], rfl, rfl⟩
  | cons x frames ih =>
    obtain ⟨hx1, hx2, hx3⟩ := hv x (by simp)
    obtain ⟨g, h1, h2, h3, h4, h5, h6, h7, h8, _⟩ := digest_frame f hb hs x.1 x.2.1 x.2.2 hx1 hx3 hx2
    obtain ⟨h, done, a1, a2⟩ := ih (reset g) (by show g.size ≤ g.buffer.length; omega) rfl (fun y hy => by
      obtain ⟨b1, b2, b3⟩ := hv y (by simp [hy])
      exact ⟨b1, b2, by show _ ≤ g.size; omega⟩)
    refine ⟨h, g :: done, ?_, ?_⟩
    · rw [List.map_cons, List.flatten_cons, digest_append, h1]
      simp only [Option.bind_some]
      rw [a1]
      rfl
    · rw [List.map_cons, List.map_cons, a2, h3, h4]

end Diminuto.Framer

namespace Diminuto.Framertool

open Framer

theorem run_append (w : World) (c : Config) (a b : List Event) : ∀ (s : State), run w c s (a ++ b) = (run w c s a).bind fun x => run w c x b := by
  induction a with
  | nil => intro s; rfl
  | cons e a ih =>
    intro s
    rw [List.cons_append, run, run]
    cases step w c s e with
    | none => rfl
    | some x => exact ih x

/-- Octets of a line. -/
theorem take_plain (w : World) (c : Config) (l r : List Byte) : ∀ (s : State), 0x0a#8 ∉ l → s.text.length ≤ c.size - 1 → take w c (l ++ r) s = take w c r { s with text := (s.text ++ l).take (c.size - 1) } := by
  induction l with
  | nil =>
    intro s _ hs
    rw [List.nil_append, List.append_nil, List.take_of_length_le hs]
  | cons o l ih =>
    intro s hn hs
    rw [List.mem_cons, not_or] at hn
    rw [List.cons_append, take, if_neg (fun h => hn.1 h.symm)]
    by_cases hl : s.text.length < c.size - 1
    · rw [if_pos hl, ih _ hn.2 (by show (s.text ++ [o]).length ≤ _; rw [List.length_append, List.length_singleton]; omega)]
      simp
    · rw [if_neg hl, ih s hn.2 hs]
      have e : s.text.length = c.size - 1 := by omega
      rw [← e, List.take_left, List.take_left]

/-! ## What ends the loop -/

theorem take_inpeof (w : World) (c : Config) (held : List Byte) : ∀ (s s' : State), take w c held s = some s' → s'.inpeof = s.inpeof := by
  induction held with
  | nil => intro s s' h; cases h; rfl
  | cons token rest ih =>
    intro s s' h
    rw [take] at h
    split at h
    · split at h
      · cases h
      · split at h
        · cases h
        · simp only [] at h
          split at h
          · cases h; rfl
          · split at h
            · cases h; rfl
            · have := ih _ s' h; exact this
    · split at h
      · have := ih _ s' h; exact this
      · exact ih s s' h

theorem inputOf_inpeof (w : World) (c : Config) (i : Option Nat) (s s' : State) (h : inputOf w c i s = some s') (hp : s'.inpeof = true) :
    s.inpeof = true ∨ ∃ n, i = some n ∧ (s.keys = [] ∨ n = 0) := by
  cases i with
  | none => cases h; exact Or.inl hp
  | some n =>
    change input w c n s = some s' at h
    unfold input at h
    by_cases h1 : s.inpeof
    · exact Or.inl h1
    · rw [if_neg h1] at h
      by_cases h2 : s.keys.take n = []
      · rw [List.take_eq_nil_iff] at h2
        exact Or.inr ⟨n, rfl, Or.comm.mp h2⟩
      · rw [if_neg h2] at h
        have := take_inpeof w c _ _ s' h
        rw [this] at hp
        exact absurd hp h1

theorem deviceOf_same (w : World) (d : Option Nat) (s s' : State) (left : Bool) (h : deviceOf w d s = some (s', left)) : s'.inpeof = s.inpeof ∧ s'.keys = s.keys ∧ s'.text = s.text := by
  cases d with
  | none => cases h; exact ⟨rfl, rfl, rfl⟩
  | some n =>
    change device w n s = some (s', left) at h
    unfold device at h
    split at h
    · cases h; exact ⟨rfl, rfl, rfl⟩
    · split at h
      · cases h
      · cases h; exact ⟨rfl, rfl, rfl⟩
      · simp only [] at h
        split at h
        · split at h
          · cases h
          · split at h
            · cases h; exact ⟨rfl, rfl, rfl⟩
            · cases h; exact ⟨rfl, rfl, rfl⟩
        · cases h; exact ⟨rfl, rfl, rfl⟩

/-- What a turn of the loop has found. -/
theorem ready_flags (w : World) (c : Config) (hsize : 1 ≤ c.size ∧ c.size ≤ 65535) (i d : Option Nat) (first : Bool) (s s' : State) (h : step w c s (.ready i d first) = some s') (ht : s.deveof = false → s.text.length ≤ c.size - 1) :
    s'.broken = s.broken ∧ (s'.outeof = true → s.outeof = true ∨ ∃ log o k, w.out log o = some k) ∧ (s'.inpeof = true → s.inpeof = true ∨ ∃ n, i = some n ∧ (s.keys = [] ∨ n = 0)) ∧
    (s'.deveof = true → s.deveof = true ∨ (∃ n, d = some n ∧ s.buffer = [] ∧ (s.line = [] ∨ n = 0)) ∨ ∃ log o k, w.put log o = some k) := by
  unfold step at h
  simp only [] at h
  cases ho : over s with
  | true => rw [if_pos ho] at h; cases h; exact ⟨rfl, Or.inl, Or.inl, Or.inl⟩
  | false =>
    rw [if_neg (by rw [ho]; decide)] at h
    have ht := ht (over_deveof ho)
    cases first with
    | true =>
      rw [if_pos rfl, Option.bind_eq_some_iff] at h
      obtain ⟨x, hx, h⟩ := h
      rw [Option.map_eq_some_iff] at h
      obtain ⟨⟨y, left⟩, hy, rfl⟩ := h
      obtain ⟨a1, a2, a3, a4, a5⟩ := inputOf_flags w c hsize i s x hx ht
      obtain ⟨b1, b2, b3⟩ := deviceOf_flags w d x y left hy
      obtain ⟨c1, c2, _⟩ := deviceOf_same w d x y left hy
      refine ⟨by rw [b1, a4], by rw [← a3]; exact b2, fun hp => inputOf_inpeof w c i s x hx (by rw [← c1]; exact hp), fun hp => ?_⟩
      rcases b3 hp with b3 | b3
      · rcases a5 b3 with a5 | a5
        · exact Or.inl a5
        · exact Or.inr (Or.inr a5)
      · rw [a1, a2] at b3
        exact Or.inr (Or.inl b3)
    | false =>
      rw [if_neg (by decide), Option.bind_eq_some_iff] at h
      obtain ⟨⟨x, left⟩, hx, h⟩ := h
      obtain ⟨b1, b2, b3⟩ := deviceOf_flags w d s x left hx
      obtain ⟨c1, c2, c3⟩ := deviceOf_same w d s x left hx
      simp only [] at h
      cases left with
      | true =>
        rw [if_pos rfl] at h
        cases h
        refine ⟨b1, b2, fun hp => Or.inl (by rw [← c1]; exact hp), fun hp => ?_⟩
        rcases b3 hp with b3 | b3
        · exact Or.inl b3
        · exact Or.inr (Or.inl b3)
      | false =>
        rw [if_neg (by decide)] at h
        obtain ⟨a1, a2, a3, a4, a5⟩ := inputOf_flags w c hsize i x s' h (by rw [c3]; exact ht)
        refine ⟨by rw [a4, b1], by rw [a3]; exact b2, fun hp => by rw [← c1, ← c2]; exact inputOf_inpeof w c i x s' h hp, fun hp => ?_⟩
        rcases a5 hp with a5 | a5
        · rcases b3 a5 with b3 | b3
          · exact Or.inl b3
          · exact Or.inr (Or.inl b3)
        · exact Or.inr (Or.inr a5)

/-- The reasons that have been found. -/
structure Why (w : World) (c : Config) (s0 : State) (events : List Event) (s : State) : Prop where
  broken : s.broken = true → Event.terminate ∈ events
  outeof : s.outeof = true → ∃ log o k, w.out log o = some k
  inpeof : s.inpeof = true → ∃ before n d first after x, events = before ++ Event.ready (some n) d first :: after ∧ run w c s0 before = some x ∧ (x.keys = [] ∨ n = 0)
  deveof : s.deveof = true → (∃ before i n first after x, events = before ++ Event.ready i (some n) first :: after ∧ run w c s0 before = some x ∧ x.buffer = [] ∧ (x.line = [] ∨ n = 0)) ∨ ∃ log o k, w.put log o = some k

/-- More events. -/
theorem Why.more {w : World} {c : Config} {s0 s s' : State} {events : List Event} (h : Why w c s0 events s) (e : Event) (hb : s'.broken = true → s.broken = true ∨ e = .terminate) (ho : s'.outeof = s.outeof) (hi : s'.inpeof = s.inpeof)
    (hd : s'.deveof = s.deveof) : Why w c s0 (events ++ [e]) s' := by
  obtain ⟨h1, h2, h3, h4⟩ := h
  refine ⟨fun h => ?_, by rw [ho]; exact h2, fun h => ?_, fun h => ?_⟩
  · rcases hb h with hb | hb
    · exact List.mem_append_left _ (h1 hb)
    · rw [hb]; simp
  · rw [hi] at h
    obtain ⟨before, n, d, first, after, x, a1, a2⟩ := h3 h
    exact ⟨before, n, d, first, after ++ [e], x, by rw [a1]; simp, a2⟩
  · rw [hd] at h
    rcases h4 h with ⟨before, n, d, first, after, x, a1, a2⟩ | h4
    · exact Or.inl ⟨before, n, d, first, after ++ [e], x, by rw [a1]; simp, a2⟩
    · exact Or.inr h4

theorem run_why (w : World) (c : Config) (memory : List Byte) (hsize : 1 ≤ c.size ∧ c.size ≤ 65535) (events : List Event) :
    ∀ (before : List Event) (s s' : State), run w c (start c memory) before = some s → Why w c (start c memory) before s → run w c s events = some s' → Why w c (start c memory) (before ++ events) s' := by
  induction events with
  | nil => intro before s s' _ hw h; cases h; rw [List.append_nil]; exact hw
  | cons e events ih =>
    intro before s s' hs hw h
    rw [run, Option.bind_eq_some_iff] at h
    obtain ⟨x, hx, h⟩ := h
    have hrun : run w c (start c memory) (before ++ [e]) = some x := by
      rw [run_append, hs, Option.bind_some, run, hx, Option.bind_some, run]
    have hinp := (run_inv w c memory hsize before [] [] _ s hs (start_inp c memory) (start_dev c memory)).1
    have key : Why w c (start c memory) (before ++ [e]) x := by
      cases e with
      | idle => cases hx; exact hw.more _ Or.inl rfl rfl rfl
      | type o => cases hx; exact hw.more _ Or.inl rfl rfl rfl
      | arrive o => cases hx; exact hw.more _ Or.inl rfl rfl rfl
      | terminate =>
        unfold step at hx
        simp only [Option.some.injEq] at hx
        by_cases ho : over s
        · rw [if_pos ho] at hx; subst hx; exact hw.more _ Or.inl rfl rfl rfl
        · rw [if_neg ho] at hx; subst hx; exact hw.more _ (fun _ => Or.inr rfl) rfl rfl rfl
      | ready i d first =>
        obtain ⟨f1, f2, f3, f4⟩ := ready_flags w c hsize i d first s x hx hinp.fits
        have hw' : Why w c (start c memory) (before ++ [Event.ready i d first]) s := hw.more _ Or.inl rfl rfl rfl
        refine ⟨fun hh => hw'.broken (by rw [← f1]; exact hh), fun hh => ?_, fun hh => ?_, fun hh => ?_⟩
        · rcases f2 hh with f2 | f2
          · exact hw'.outeof f2
          · exact f2
        · rcases f3 hh with f3 | ⟨n, rfl, k3⟩
          · exact hw'.inpeof f3
          · exact ⟨before, n, d, first, [], s, rfl, hs, k3⟩
        · rcases f4 hh with f4 | ⟨n, rfl, k4⟩ | f4
          · exact hw'.deveof f4
          · exact Or.inl ⟨before, i, n, first, [], s, rfl, hs, k4⟩
          · exact Or.inr f4
    have := ih _ x s' hrun key h
    rwa [List.append_assoc] at this

theorem start_why (w : World) (c : Config) (memory : List Byte) : Why w c (start c memory) [] (start c memory) :=
  ⟨fun h => (by cases h), fun h => (by cases h), fun h => (by cases h), fun h => (by cases h)⟩

end Diminuto.Framertool
