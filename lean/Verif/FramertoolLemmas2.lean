import Verif.FramertoolLemmas

/-!
# Lemmas on the tool that passes lines of text over a serial line, continued
-/

namespace Diminuto.Framertool

open Framer

/-- The part of a line fits in the buffer. -/
theorem Inp.fits {c : Config} {text : List Byte} {s : State} (h : Inp c text s) (hd : s.deveof = false) : s.text.length ≤ c.size - 1 := by
  obtain ⟨ls, cur, re, fr, tail, _, _, _, _, _, _, a7, _⟩ := h
  obtain ⟨_, _, _, b4, _⟩ := a7 hd
  rw [b4, List.length_take]
  omega

theorem inputOf_inv (w : World) (c : Config) (memory past text : List Byte) (hsize : 1 ≤ c.size ∧ c.size ≤ 65535) (i : Option Nat) (s s' : State) (h : inputOf w c i s = some s') (hd : s.deveof = false)
    (hi : Inp c text s) (hv : Dev c memory past s) : Inp c text s' ∧ Dev c memory past s' := by
  cases i with
  | none => cases h; exact ⟨hi, hv⟩
  | some n => exact input_inv w c memory past text hsize n s s' h hd hi hv

theorem deviceOf_inv (w : World) (c : Config) (memory past text : List Byte) (d : Option Nat) (s s' : State) (left : Bool) (h : deviceOf w d s = some (s', left))
    (hi : Inp c text s) (hv : Dev c memory past s) : Inp c text s' ∧ Dev c memory past s' ∧ (s'.deveof = true → s.deveof = false → left = true) := by
  cases d with
  | none => cases h; exact ⟨hi, hv, fun h1 h2 => by rw [h1] at h2; cases h2⟩
  | some n => exact device_inv w c memory past text n s s' left h hi hv

theorem over_deveof {s : State} (h : over s = false) : s.deveof = false := by
  unfold over at h
  simp only [Bool.or_eq_false_iff] at h
  exact h.1.2

theorem step_inv (w : World) (c : Config) (memory past text : List Byte) (hsize : 1 ≤ c.size ∧ c.size ≤ 65535) (e : Event) (s s' : State) (h : step w c s e = some s')
    (hi : Inp c text s) (hv : Dev c memory past s) : Inp c (text ++ typed [e]) s' ∧ Dev c memory (past ++ arrived [e]) s' := by
  cases e with
  | idle => cases h; simpa [typed, arrived] using ⟨hi, hv⟩
  | terminate =>
    have e1 : text ++ typed [Event.terminate] = text := by simp [typed]
    have e2 : past ++ arrived [Event.terminate] = past := by simp [arrived]
    rw [e1, e2]
    unfold step at h
    simp only [Option.some.injEq] at h
    by_cases ho : over s
    · rw [if_pos ho] at h; subst h; exact ⟨hi, hv⟩
    · rw [if_neg ho] at h; subst h; exact ⟨⟨hi.all⟩, hv.same rfl rfl (fun h => h) rfl rfl rfl⟩
  | type o =>
    cases h
    have e2 : past ++ arrived [Event.type o] = past := by simp [arrived]
    have e1 : text ++ typed [Event.type o] = text ++ o := by simp [typed]
    rw [e1, e2]
    refine ⟨?_, hv.same rfl rfl (fun h => h) rfl rfl rfl⟩
    obtain ⟨ls, cur, re, fr, tail, a1, a2, a3, a4, a5, a6, a7, a8⟩ := hi
    refine ⟨ls, cur, re ++ o, fr, tail, by rw [a1, List.append_assoc], a2, a3, a4, a5, a6, ?_, ?_⟩
    · intro hd
      obtain ⟨b1, b2, b3, b4, b5⟩ := a7 hd
      exact ⟨b1, by rw [b2, List.append_assoc], b3, b4, b5⟩
    · rcases a8 with a8 | ⟨octets, l, more, k, c1, c2, c3, c4⟩
      · exact Or.inl a8
      · exact Or.inr ⟨octets, l, more ++ o, k, by rw [c1]; simp, c2, c3, c4⟩
  | arrive o =>
    cases h
    have e2 : past ++ arrived [Event.arrive o] = past ++ o := by simp [arrived]
    have e1 : text ++ typed [Event.arrive o] = text := by simp [typed]
    rw [e1, e2]
    refine ⟨⟨hi.all⟩, ?_⟩
    obtain ⟨h0, ⟨x, processed, extra, done, h1, h2, h4, h5⟩, h6⟩ := hv
    refine ⟨fun y hy => ?_, ⟨x, processed, extra ++ o, done, h1, by rw [h2, List.append_assoc], h4, ?_⟩, ?_⟩
    · obtain ⟨g, hg, he⟩ := h0 y hy
      exact ⟨g, hg.mono (List.prefix_append _ _), he⟩
    · intro d o'
      obtain ⟨k1, k2⟩ := h5 d o'
      exact ⟨by rw [k1, List.append_assoc], k2⟩
    · intro d
      obtain ⟨ops, y, k0, k1, k2, k3⟩ := h6 d
      refine ⟨ops, y, k0, by rw [← k1]; simp, k2, ?_⟩
      rcases k3 with k3 | ⟨ho, m1, m2, g, hg, m3⟩
      · exact Or.inl k3
      · exact Or.inr ⟨ho, m1, m2, g, hg.mono (List.prefix_append _ _), m3⟩
  | ready i d first =>
    have e1 : text ++ typed [Event.ready i d first] = text := by simp [typed]
    have e2 : past ++ arrived [Event.ready i d first] = past := by simp [arrived]
    rw [e1, e2]
    unfold step at h
    simp only [] at h
    cases ho : over s with
    | true => rw [if_pos ho] at h; cases h; exact ⟨hi, hv⟩
    | false =>
      rw [if_neg (by rw [ho]; decide)] at h
      have hd := over_deveof ho
      cases first with
      | true =>
        rw [if_pos rfl, Option.bind_eq_some_iff] at h
        obtain ⟨x, hx, h⟩ := h
        rw [Option.map_eq_some_iff] at h
        obtain ⟨⟨y, left⟩, hy, rfl⟩ := h
        obtain ⟨hi', hv'⟩ := inputOf_inv w c memory past text hsize i s x hx hd hi hv
        have := deviceOf_inv w c memory past text d x y left hy hi' hv'
        exact ⟨this.1, this.2.1⟩
      | false =>
        rw [if_neg (by decide), Option.bind_eq_some_iff] at h
        obtain ⟨⟨x, left⟩, hx, h⟩ := h
        obtain ⟨hi', hv', hl⟩ := deviceOf_inv w c memory past text d s x left hx hi hv
        simp only [] at h
        cases left with
        | true => rw [if_pos rfl] at h; cases h; exact ⟨hi', hv'⟩
        | false =>
          rw [if_neg (by decide)] at h
          have hxd : x.deveof = false := by
            cases hxd : x.deveof with
            | false => rfl
            | true => have := hl hxd hd; cases this
          exact inputOf_inv w c memory past text hsize i x s' h hxd hi' hv'

theorem run_inv (w : World) (c : Config) (memory : List Byte) (hsize : 1 ≤ c.size ∧ c.size ≤ 65535) (events : List Event) :
    ∀ (past text : List Byte) (s s' : State), run w c s events = some s' → Inp c text s → Dev c memory past s → Inp c (text ++ typed events) s' ∧ Dev c memory (past ++ arrived events) s' := by
  induction events with
  | nil => intro past text s s' h hi hv; cases h; simpa [typed, arrived] using ⟨hi, hv⟩
  | cons e events ih =>
    intro past text s s' h hi hv
    rw [run, Option.bind_eq_some_iff] at h
    obtain ⟨x, hx, h⟩ := h
    obtain ⟨hi', hv'⟩ := step_inv w c memory past text hsize e s x hx hi hv
    have := ih _ _ x s' h hi' hv'
    have e1 : typed (e :: events) = typed [e] ++ typed events := typed_append [e] events
    have e2 : arrived (e :: events) = arrived [e] ++ arrived events := arrived_append [e] events
    rw [e1, e2, ← List.append_assoc, ← List.append_assoc]
    exact this

/-! ## The behaviour is defined -/

theorem take_defined (w : World) (c : Config) (hsize : 1 ≤ c.size) (hstrict : c.strict = false) (held : List Byte) : ∀ (s : State), s.text.length ≤ c.size - 1 → ∃ s', take w c held s = some s' := by
  induction held with
  | nil => intro s _; exact ⟨_, rfl⟩
  | cons token rest ih =>
    intro s hs
    rw [take]
    by_cases ht : token = 0x0a#8
    · rw [if_pos ht, if_neg (by omega), if_neg (by rw [hstrict]; simp)]
      simp only []
      cases hw : writer s.framer (s.text ++ [0x0a#8]) with
      | none => exact ⟨_, rfl⟩
      | some y =>
        obtain ⟨octets, f⟩ := y
        simp only []
        cases hp : w.put s.log octets with
        | some k => exact ⟨_, rfl⟩
        | none => exact ih _ (by simp)
    · rw [if_neg ht]
      by_cases hl : s.text.length < c.size - 1
      · rw [if_pos hl]
        exact ih _ (by show (s.text ++ [token]).length ≤ _; rw [List.length_append, List.length_singleton]; omega)
      · rw [if_neg hl]; exact ih s hs

theorem device_defined (w : World) (c : Config) (memory past : List Byte) (hm : c.size ≤ memory.length) (n : Nat) (s : State) (hv : Dev c memory past s) : ∃ r, device w n s = some r := by
  unfold device
  by_cases hd : s.deveof
  · rw [if_pos hd]; exact ⟨_, rfl⟩
  · rw [if_neg hd]
    have hd : s.deveof = false := by simpa using hd
    obtain ⟨ops, y, e0, e1, e2, e3⟩ := hv.live hd
    unfold reader
    simp only []
    generalize (if s.buffer = [] then s.line.take n else s.buffer) = b
    generalize (if s.buffer = [] then s.line.drop n else s.line) = line
    by_cases hz : b = []
    · rw [if_pos hz]; exact ⟨_, rfl⟩
    · rw [if_neg hz]
      have fin : ∀ f rest, pull s.framer b = some (f, true, rest) → f.length ≤ f.buffer.length → ∃ r, (match (match pull s.framer b with | none => Called.undefined | some (g, complete, rest) => Called.taken g complete rest line) with
          | .undefined => none
          | .ended => some ({ s with framer := { s.framer with state := .final }, deveof := true }, true)
          | .taken f complete buffer line =>
            let s := { s with framer := f, buffer := buffer, line := line, reading := true }
            if complete then
              if s.framer.length > s.framer.buffer.length then none
              else
                let data := s.framer.buffer.take s.framer.length
                match w.out s.log data with
                | some k => some ({ s with outeof := true, log := s.log ++ [.printed (data.take k)] }, true)
                | none => some ({ s with framer := reset s.framer, log := s.log ++ [.printed data] }, false)
            else some (s, false)) = some r := by
        intro f rest hp hl
        rw [hp]
        simp only [if_pos]
        rw [if_neg (by omega)]
        cases w.out s.log (f.buffer.take f.length) <;> exact ⟨_, rfl⟩
      rcases e3 with e3 | ⟨_, e3, e4, g, hg, e5, e6⟩
      · rcases hp : pull s.framer b with _ | ⟨f, t, rest⟩
        · have h1 := (pull_digest s.framer b).2.2 hp
          rw [e2, digest_generated] at h1
          obtain ⟨z, hz⟩ := digest_total memory c.size hm b ops y e0 e3
          rw [hz] at h1
          cases h1
        · cases t with
          | false => exact ⟨_, rfl⟩
          | true =>
            rw [← hp]
            refine fin f rest hp ?_
            obtain ⟨taken, hr, _, hdg⟩ := (pull_digest s.framer b).1 f rest hp
            rw [e2] at hdg
            obtain ⟨v, hv, hfv⟩ := single_generated hdg
            obtain ⟨_, qc⟩ := digest_history (init memory c.size) taken ops y (reset v) [v] e0 e3 hv
            obtain ⟨_, _, _, _, _, v3, _⟩ := completed_valid memory c.size hm v _ (qc v (by simp))
            rw [List.length_take] at v3
            have e7 : f.length = v.length := by rw [hfv]
            have e8 : f.buffer = v.buffer := by rw [hfv]
            rw [e7, e8]
            omega
      · cases b with
        | nil => exact absurd rfl hz
        | cons ch b =>
          obtain ⟨f', p1, pm, p2, p3, p4, p5⟩ := pull_complete s.framer (by rw [e2]; exact e3) (by rw [e2]; exact e4) ch b
          refine fin f' b p1 ?_
          obtain ⟨_, _, _, _, _, v3, _⟩ := completed_valid memory c.size hm g _ hg
          rw [List.length_take] at v3
          rw [p3, p4, e2]
          show y.length ≤ y.buffer.length
          rw [e5, e6]
          omega

theorem inputOf_defined (w : World) (c : Config) (hsize : 1 ≤ c.size) (hstrict : c.strict = false) (i : Option Nat) (s : State) (hs : s.text.length ≤ c.size - 1) : ∃ s', inputOf w c i s = some s' := by
  cases i with
  | none => exact ⟨_, rfl⟩
  | some n =>
    show ∃ s', input w c n s = some s'
    unfold input
    by_cases h1 : s.inpeof
    · rw [if_pos h1]; exact ⟨_, rfl⟩
    · rw [if_neg h1]
      by_cases h2 : s.keys.take n = []
      · rw [if_pos h2]; exact ⟨_, rfl⟩
      · rw [if_neg h2]; exact take_defined w c hsize hstrict _ _ hs

theorem deviceOf_defined (w : World) (c : Config) (memory past : List Byte) (hm : c.size ≤ memory.length) (d : Option Nat) (s : State) (hv : Dev c memory past s) : ∃ r, deviceOf w d s = some r := by
  cases d with
  | none => exact ⟨_, rfl⟩
  | some n => exact device_defined w c memory past hm n s hv

theorem step_defined (w : World) (c : Config) (memory past text : List Byte) (hsize : 1 ≤ c.size ∧ c.size ≤ 65535) (hm : c.size ≤ memory.length) (hstrict : c.strict = false) (e : Event) (s : State)
    (hi : Inp c text s) (hv : Dev c memory past s) : ∃ s', step w c s e = some s' := by
  cases e with
  | idle => exact ⟨_, rfl⟩
  | terminate => exact ⟨_, rfl⟩
  | type o => exact ⟨_, rfl⟩
  | arrive o => exact ⟨_, rfl⟩
  | ready i d first =>
    unfold step
    simp only []
    cases ho : over s with
    | true => rw [if_pos rfl]; exact ⟨_, rfl⟩
    | false =>
      rw [if_neg (by decide)]
      have hd := over_deveof ho
      cases first with
      | true =>
        rw [if_pos rfl]
        obtain ⟨x, hx⟩ := inputOf_defined w c hsize.1 hstrict i s (hi.fits hd)
        obtain ⟨hi', hv'⟩ := inputOf_inv w c memory past text hsize i s x hx hd hi hv
        obtain ⟨y, hy⟩ := deviceOf_defined w c memory past hm d x hv'
        rw [hx]
        simp only [Option.bind_some]
        rw [hy]
        exact ⟨_, rfl⟩
      | false =>
        rw [if_neg (by decide)]
        obtain ⟨⟨x, left⟩, hx⟩ := deviceOf_defined w c memory past hm d s hv
        obtain ⟨hi', hv', hl⟩ := deviceOf_inv w c memory past text d s x left hx hi hv
        rw [hx]
        simp only [Option.bind_some]
        cases left with
        | true => rw [if_pos rfl]; exact ⟨_, rfl⟩
        | false =>
          rw [if_neg (by decide)]
          have hxd : x.deveof = false := by
            cases hxd : x.deveof with
            | false => rfl
            | true => have := hl hxd hd; cases this
          exact inputOf_defined w c hsize.1 hstrict i x (hi'.fits hxd)

theorem run_defined (w : World) (c : Config) (memory : List Byte) (hsize : 1 ≤ c.size ∧ c.size ≤ 65535) (hm : c.size ≤ memory.length) (hstrict : c.strict = false) (events : List Event) :
    ∀ (past text : List Byte) (s : State), Inp c text s → Dev c memory past s → ∃ s', run w c s events = some s' := by
  induction events with
  | nil => intro past text s _ _; exact ⟨s, rfl⟩
  | cons e events ih =>
    intro past text s hi hv
    obtain ⟨x, hx⟩ := step_defined w c memory past text hsize hm hstrict e s hi hv
    obtain ⟨hi', hv'⟩ := step_inv w c memory past text hsize e s x hx hi hv
    obtain ⟨y, hy⟩ := ih _ _ x hi' hv'
    exact ⟨y, by rw [run, hx]; exact hy⟩

/-! ## What ends the loop -/

theorem take_flags (w : World) (c : Config) (hsize : 1 ≤ c.size ∧ c.size ≤ 65535) (held : List Byte) : ∀ (s s' : State), take w c held s = some s' → s.text.length ≤ c.size - 1 →
    s'.buffer = s.buffer ∧ s'.line = s.line ∧ s'.inpeof = s.inpeof ∧ s'.outeof = s.outeof ∧ s'.broken = s.broken ∧ (s'.deveof = true → s.deveof = true ∨ ∃ log o k, w.put log o = some k) := by
  induction held with
  | nil => intro s s' h _; cases h; exact ⟨rfl, rfl, rfl, rfl, rfl, Or.inl⟩
  | cons token rest ih =>
    intro s s' h hs
    rw [take] at h
    by_cases ht : token = 0x0a#8
    · rw [if_pos ht, if_neg (by omega)] at h
      by_cases hst : c.strict ∧ s.reading
      · rw [if_pos hst] at h; cases h
      · rw [if_neg hst] at h
        obtain ⟨wire, hw, hf⟩ := (framer_writer_emits_frame s.framer (s.text ++ [0x0a#8])).1 (by simp only [List.length_append, List.length_singleton]; omega)
        simp only [] at h
        rw [hw] at h
        simp only [] at h
        cases hp : w.put s.log wire with
        | some k => rw [hp] at h; cases h; exact ⟨rfl, rfl, rfl, rfl, rfl, fun _ => Or.inr ⟨_, _, _, hp⟩⟩
        | none =>
          rw [hp] at h
          have := ih _ s' h (by simp)
          exact this
    · rw [if_neg ht] at h
      by_cases hl : s.text.length < c.size - 1
      · rw [if_pos hl] at h
        have := ih _ s' h (by show (s.text ++ [token]).length ≤ _; rw [List.length_append, List.length_singleton]; omega)
        exact this
      · rw [if_neg hl] at h; exact ih s s' h hs

theorem inputOf_flags (w : World) (c : Config) (hsize : 1 ≤ c.size ∧ c.size ≤ 65535) (i : Option Nat) (s s' : State) (h : inputOf w c i s = some s') (hs : s.text.length ≤ c.size - 1) :
    s'.buffer = s.buffer ∧ s'.line = s.line ∧ s'.outeof = s.outeof ∧ s'.broken = s.broken ∧ (s'.deveof = true → s.deveof = true ∨ ∃ log o k, w.put log o = some k) := by
  cases i with
  | none => cases h; exact ⟨rfl, rfl, rfl, rfl, Or.inl⟩
  | some n =>
    change input w c n s = some s' at h
    unfold input at h
    by_cases h1 : s.inpeof
    · rw [if_pos h1] at h; cases h; exact ⟨rfl, rfl, rfl, rfl, Or.inl⟩
    · rw [if_neg h1] at h
      by_cases h2 : s.keys.take n = []
      · rw [if_pos h2] at h; cases h; exact ⟨rfl, rfl, rfl, rfl, Or.inl⟩
      · rw [if_neg h2] at h
        obtain ⟨a1, a2, _, a4, a5, a6⟩ := take_flags w c hsize _ _ s' h hs
        exact ⟨a1, a2, a4, a5, a6⟩

theorem deviceOf_flags (w : World) (d : Option Nat) (s s' : State) (left : Bool) (h : deviceOf w d s = some (s', left)) :
    s'.broken = s.broken ∧ (s'.outeof = true → s.outeof = true ∨ ∃ log o k, w.out log o = some k) ∧ (s'.deveof = true → s.deveof = true ∨ ∃ n, d = some n ∧ s.buffer = [] ∧ (s.line = [] ∨ n = 0)) := by
  cases d with
  | none => cases h; exact ⟨rfl, Or.inl, Or.inl⟩
  | some n =>
    change device w n s = some (s', left) at h
    unfold device at h
    by_cases hd : s.deveof
    · rw [if_pos hd] at h; cases h; exact ⟨rfl, Or.inl, Or.inl⟩
    · rw [if_neg hd] at h
      unfold reader at h
      simp only [] at h
      generalize hb : (if s.buffer = [] then s.line.take n else s.buffer) = b at h
      generalize hl : (if s.buffer = [] then s.line.drop n else s.line) = line at h
      by_cases hz : b = []
      · rw [if_pos hz] at h
        cases h
        refine ⟨rfl, Or.inl, fun _ => Or.inr ⟨n, rfl, ?_⟩⟩
        rw [hz] at hb
        by_cases hbz : s.buffer = []
        · rw [if_pos hbz, List.take_eq_nil_iff] at hb
          exact ⟨hbz, Or.comm.mp hb⟩
        · rw [if_neg hbz] at hb; exact absurd hb hbz
      · rw [if_neg hz] at h
        rcases hp : pull s.framer b with _ | ⟨f, t, rest⟩
        · rw [hp] at h; cases h
        · rw [hp] at h
          simp only [] at h
          cases t with
          | false => rw [if_neg (by decide)] at h; cases h; exact ⟨rfl, Or.inl, Or.inl⟩
          | true =>
            rw [if_pos rfl] at h
            by_cases hlen : f.length > f.buffer.length
            · rw [if_pos hlen] at h; cases h
            · rw [if_neg hlen] at h
              cases hw : w.out s.log (f.buffer.take f.length) with
              | some k => rw [hw] at h; cases h; exact ⟨rfl, fun _ => Or.inr ⟨_, _, _, hw⟩, Or.inl⟩
              | none => rw [hw] at h; cases h; exact ⟨rfl, Or.inl, Or.inl⟩

end Diminuto.Framertool
