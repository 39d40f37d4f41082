import Verif.MemtoolLemmas2

/-!
# Lemmas: the loop of the tool that manipulates memory
-/

namespace Diminuto.Memtool

open Diminuto.Map (World Stored within whole Honest whole_ge)

section
variable {σ β : Type} {m : Machine σ β}

theorem number_spells {text : List Byte} {n : Nat} (h : Spells text n) (s : State σ β) (rest : State σ β → Flow σ β) :
    number text s rest = rest { s with value := BitVec.ofNat 64 n } := by
  obtain ⟨h1, h2⟩ := h
  obtain ⟨q1, _, _, q4, _⟩ := Number.number_unsigned_reads h1
  rw [number, q1 h2 rfl, q4]
  simp

theorem toNat_of_lt {n : Nat} (h : n < 2 ^ 64) : (BitVec.ofNat 64 n).toNat = n := by
  rw [BitVec.toNat_ofNat]; exact Nat.mod_eq_of_lt h

theorem owns_congr {s s' : State σ β} (h1 : s'.base = s.base) (h2 : s'.stored = s.stored) (h3 : s'.kernel = s.kernel) (h : Owns m s) : Owns m s' := by
  rw [Owns, h1, h2, h3]; exact h

theorem call_owns (hw : Honest m.world m.page.toNat m.memory) (hp : 0 < m.page.toNat) {most : Nat} (hg : Grants m.world m.page.toNat most m.memory) {s : State σ β} (h : Owns m s) (op : Op) (mask : BitVec 64) :
    (∀ s', call m op mask s = .next s' → Owns m s') ∧ (∀ s', call m op mask s = .error s' → Owns m s') ∧ (∀ s', call m op mask s ≠ .done s') := by
  rcases ho : operate m op mask s with _ | ⟨b, x⟩
  · simp [call, ho]
  · have := operate_owns hw hp hg h op mask ho
    cases b
    · simp only [call, ho]
      refine ⟨fun s' e => ?_, fun s' e => (by cases e), fun s' e => (by cases e)⟩
      cases e; exact this
    · simp only [call, ho]
      refine ⟨fun s' e => (by cases e), fun s' e => ?_, fun s' e => (by cases e)⟩
      cases e; exact this

theorem number_owns {s : State σ β} (h : Owns m s) (text : List Byte) (rest : State σ β → Flow σ β)
    (hr : ∀ v s', Owns m { s with value := v } → (rest { s with value := v } = .next s' ∨ rest { s with value := v } = .error s' ∨ rest { s with value := v } = .done s') → Owns m s') :
    ∀ s', (number text s rest = .next s' ∨ number text s rest = .error s' ∨ number text s rest = .done s') → Owns m s' := by
  intro s' hs
  simp only [number] at hs
  split at hs
  · rcases hs with e | e | e
    · cases e
    · cases e; exact h
    · cases e
  · exact hr (BitVec.ofNat 64 (Number.unsigned text).1) _ h hs

theorem delay_owns {s : State σ β} (h : Owns m s) (text : List Byte) : ∀ s', (step m (.delay text) s = .next s' ∨ step m (.delay text) s = .error s' ∨ step m (.delay text) s = .done s') → Owns m s' := by
    intro s' hs
    refine number_owns (rest := fun s => .next { s with value := ticks s.value, bus := m.bus.wait (ticks s.value).toNat s.bus }) h text (fun v s' hv hs => ?_) s' hs
    rcases hs with e | e | e
    · have := Flow.next.inj e
      subst this
      rw [Owns]
      exact hv
    · cases e
    · cases e

theorem step_owns (hw : Honest m.world m.page.toNat m.memory) (hp : 0 < m.page.toNat) {most : Nat} (hg : Grants m.world m.page.toNat most m.memory) {s : State σ β} (h : Owns m s) (o : Opt) :
    ∀ s', (step m o s = .next s' ∨ step m o s = .error s' ∨ step m o s = .done s') → Owns m s' := by
  have hcall : ∀ (x : State σ β) (op : Op) (mask : BitVec 64) (s' : State σ β), Owns m x → (call m op mask x = .next s' ∨ call m op mask x = .error s' ∨ call m op mask x = .done s') → Owns m s' := by
    intro x op mask s' hx hs
    obtain ⟨c1, c2, c3⟩ := call_owns hw hp hg hx op mask
    rcases hs with e | e | e
    · exact c1 _ e
    · exact c2 _ e
    · exact absurd e (c3 _)
  cases o with
  | «at» size text =>
    intro s'
    simp only [step]
    refine number_owns h text _ (fun v s' hv hs => ?_) s'
    rcases hs with e | e | e <;> cases e
    exact hv
  | address text =>
    intro s'
    simp only [step]
    refine number_owns h text _ (fun v s' hv hs => ?_) s'
    rcases hs with e | e | e <;> cases e
    obtain ⟨z1, z2⟩ := unmap_owned hw hg hv
    exact Or.inl ⟨rfl, z1, z2⟩
  | length text =>
    intro s'
    simp only [step]
    refine number_owns h text _ (fun v s' hv hs => ?_) s'
    rcases hs with e | e | e <;> cases e
    exact hv
  | mask text =>
    intro s'
    simp only [step]
    refine number_owns h text _ (fun v s' hv hs => ?_) s'
    rcases hs with e | e | e <;> cases e
    exact hv
  | delay text => exact delay_owns h text
  | operation op text =>
    cases op with
    | read => intro s' hs; exact hcall _ _ _ _ h hs
    | set => intro s'; simp only [step]; exact number_owns h text _ (fun v s' hv hs => hcall _ _ _ _ hv hs) s'
    | bitSet => intro s'; simp only [step]; exact number_owns h text _ (fun v s' hv hs => hcall _ _ _ _ hv hs) s'
    | clear => intro s'; simp only [step]; exact number_owns h text _ (fun v s' hv hs => hcall _ _ _ _ hv hs) s'
    | bitClear => intro s'; simp only [step]; exact number_owns h text _ (fun v s' hv hs => hcall _ _ _ _ hv hs) s'
    | write => intro s'; simp only [step]; exact number_owns h text _ (fun v s' hv hs => hcall _ _ _ _ hv hs) s'
  | test nonzero =>
    intro s' hs
    simp only [step] at hs
    split at hs
    · rcases hs with e | e | e <;> cases e
      exact h
    · rcases hs with e | e | e <;> cases e
      exact h
  | flag => intro s' hs; rcases hs with e | e | e <;> cases e; exact h
  | menu => intro s' hs; rcases hs with e | e | e <;> cases e; exact h
  | other => intro s' hs; rcases hs with e | e | e <;> cases e; exact h

theorem loop_owns (hw : Honest m.world m.page.toNat m.memory) (hp : 0 < m.page.toNat) {most : Nat} (hg : Grants m.world m.page.toNat most m.memory) (opts : List Opt) :
    ∀ (s : State σ β), Owns m s → ∀ status s', loop m opts s = .exit status s' → m.memory s'.kernel = fun _ => none := by
  have fin : ∀ (s : State σ β) (x status : Nat) (s' : State σ β), Owns m s → finish m x s = .exit status s' → m.memory s'.kernel = fun _ => none := by
    intro s x status s' h e
    simp only [finish] at e
    cases e
    exact (unmap_owned hw hg h).2
  induction opts with
  | nil => intro s h status s' e; exact fin _ _ _ _ h e
  | cons o r ih =>
    intro s h status s' e
    have hstep := step_owns hw hp hg h o
    rw [loop] at e
    rcases hs : step m o s with x | x | x | _
    · rw [hs] at e; exact ih x (hstep x (Or.inl hs)) _ _ e
    · rw [hs] at e; exact fin _ _ _ _ (hstep x (Or.inr (Or.inr hs))) e
    · rw [hs] at e; exact fin _ _ _ _ (hstep x (Or.inr (Or.inl hs))) e
    · rw [hs] at e; cases e

theorem finish_spec (status : Nat) (s : State σ β) : ∃ s', finish m status s = .exit status s' ∧ s'.bus = s.bus ∧ s'.out = s.out := ⟨_, rfl, rfl, rfl⟩

/-- The operations in the options. -/
theorem step_operation (hw : Honest m.world m.page.toNat m.memory) (hp : 0 < m.page.toNat) (hp8 : m.page.toNat % 8 = 0) {most : Nat} (hmost : most < 2 ^ 63)
    {s : State σ β} {a : Account β} (h : Agrees m s a) (op : Op) (text : List Byte) (n : Nat) (ht : op = .read ∨ Spells text n) (hsen : a.sensible most op n) :
    (∃ s', step m (.operation op text) s = .error s' ∧ s'.bus = a.bus ∧ s'.out = a.out ∧
      (∀ most', 8 ≤ most' → most ≤ most' → Grants m.world m.page.toNat most' m.memory → Owns m s → False)) ∨
    ∃ s', step m (.operation op text) s = .next s' ∧ Agrees m s' (a.act m.bus op n) := by
  by_cases hr : op = .read
  · subst hr
    have hsen0 : a.sensible most .read (0#64).toNat := by
      obtain ⟨q1, q2, q3, q4, q5⟩ := hsen
      exact ⟨q1, q2, q3, q4, fun hc => by rcases hc with e | e <;> cases e⟩
    have hact : a.act m.bus .read n = a.act m.bus .read (0#64).toNat := rfl
    rcases operate_spec hw hp hp8 hmost h .read 0#64 0#64 (fun hc => by rcases hc with e | e <;> cases e) (fun hc => absurd rfl hc) hsen0 with ⟨s', e, b1, b2, b3⟩ | ⟨s', e, b1⟩
    · left; exact ⟨s', by simp only [step, call, e], b1, b2, b3⟩
    · right; exact ⟨s', by simp only [step, call, e], by rw [hact]; exact b1⟩
  · have hsp : Spells text n := ht.resolve_left hr
    have hn := toNat_of_lt hsp.2
    -- the account with the number
    have h' : Agrees m { s with value := BitVec.ofNat 64 n } { a with value := n } :=
      { value := hn, mask := h.mask, address := h.address, length := h.length, offset := h.offset, size := h.size, sizes := h.sizes, bus := h.bus, out := h.out, used := h.used, mapped := h.mapped }
    have hsen' : ({ a with value := n } : Account β).sensible most op (BitVec.ofNat 64 n).toNat := by rw [hn]; exact hsen
    have hact : ({ a with value := n } : Account β).act m.bus op (BitVec.ofNat 64 n).toNat = a.act m.bus op n := by
      rw [hn]
      cases op <;> rfl
    have hmain : ∀ mask, (op = .set ∨ op = .bitSet → mask = s.mask) →
        (∃ s', call m op mask { s with value := BitVec.ofNat 64 n } = .error s' ∧ s'.bus = a.bus ∧ s'.out = a.out ∧
          (∀ most', 8 ≤ most' → most ≤ most' → Grants m.world m.page.toNat most' m.memory → Owns m s → False)) ∨
        ∃ s', call m op mask { s with value := BitVec.ofNat 64 n } = .next s' ∧ Agrees m s' (a.act m.bus op n) := by
      intro mask hmask
      rcases operate_spec hw hp hp8 hmost h' op mask (BitVec.ofNat 64 n) (fun hc => by rw [hmask hc]; exact h.mask) (fun _ => rfl) hsen' with ⟨s', e, b1, b2, b3⟩ | ⟨s', e, b1⟩
      · left; exact ⟨s', by simp only [call, e], b1, b2, b3⟩
      · right; exact ⟨s', by simp only [call, e], by rw [← hact]; exact b1⟩
    have no : ∀ {x : Op}, op = x → x ≠ .set → x ≠ .bitSet → (op = .set ∨ op = .bitSet → (0#64 : BitVec 64) = s.mask) := by
      intro x hx h1 h2 hc
      rw [hx] at hc
      rcases hc with e | e
      · exact absurd e h1
      · exact absurd e h2
    cases op with
    | read => exact absurd rfl hr
    | set => simp only [step]; rw [number_spells hsp]; exact hmain _ fun _ => rfl
    | bitSet => simp only [step]; rw [number_spells hsp]; exact hmain _ fun _ => rfl
    | clear => simp only [step]; rw [number_spells hsp]; exact hmain _ (no rfl (by decide) (by decide))
    | bitClear => simp only [step]; rw [number_spells hsp]; exact hmain _ (no rfl (by decide) (by decide))
    | write => simp only [step]; rw [number_spells hsp]; exact hmain _ (no rfl (by decide) (by decide))

/-- The loop over options that stand for commands, with others after them: a condition ends it, a mapping is refused, or it goes on with the others. -/
theorem loop_follow (hw : Honest m.world m.page.toNat m.memory) (hp : 0 < m.page.toNat) (hp8 : m.page.toNat % 8 = 0) {most : Nat} (hmost : most < 2 ^ 63) (rest : List Opt) {opts : List Opt} {cmds : List Command}
    (hl : Line opts cmds) : ∀ (s : State σ β) (a r : Account β), Agrees m s a → follow m.bus most cmds a = some r →
    (∃ s', loop m (opts ++ rest) s = .exit 0 s' ∧ s'.bus = r.bus ∧ s'.out = r.out ∧ ∃ b, Command.test b ∈ cmds) ∨
    (∃ s' k p, k < cmds.length ∧ loop m (opts ++ rest) s = .exit 1 s' ∧ follow m.bus most (cmds.take k) a = some p ∧ s'.bus = p.bus ∧ s'.out = p.out ∧
      (∀ most', 8 ≤ most' → most ≤ most' → Grants m.world m.page.toNat most' m.memory → Owns m s → False)) ∨
    (∃ s', loop m (opts ++ rest) s = loop m rest s' ∧ Agrees m s' r) := by
  induction hl with
  | nil =>
    intro s a r h hf
    simp only [follow, Option.some.injEq] at hf
    subst hf
    exact Or.inr (Or.inr ⟨s, rfl, h⟩)
  | @cons o c os cs hsp _ ih =>
    intro s a r h hf
    -- going on after a step
    have go : ∀ (s1 : State σ β) (a1 : Account β), step m o s = .next s1 → Agrees m s1 a1 → follow m.bus most cs a1 = some r → (∀ k, follow m.bus most ((c :: cs).take (k + 1)) a = follow m.bus most (cs.take k) a1) →
        (∃ s', loop m (o :: os ++ rest) s = .exit 0 s' ∧ s'.bus = r.bus ∧ s'.out = r.out ∧ ∃ b, Command.test b ∈ c :: cs) ∨
        (∃ s' k p, k < (c :: cs).length ∧ loop m (o :: os ++ rest) s = .exit 1 s' ∧ follow m.bus most ((c :: cs).take k) a = some p ∧ s'.bus = p.bus ∧ s'.out = p.out ∧
          (∀ most', 8 ≤ most' → most ≤ most' → Grants m.world m.page.toNat most' m.memory → Owns m s → False)) ∨
        (∃ s', loop m (o :: os ++ rest) s = loop m rest s' ∧ Agrees m s' r) := by
      intro s1 a1 hs1 hag hf1 hk
      have hloop : loop m (o :: os ++ rest) s = loop m (os ++ rest) s1 := by
        rw [List.cons_append, loop, hs1]
      rw [hloop]
      rcases ih s1 a1 r hag hf1 with ⟨s', z1, z2, z3, t, z4⟩ | ⟨s', k, p, z1, z2, z3, z4, z5, z6⟩ | z
      · exact Or.inl ⟨s', z1, z2, z3, t, List.mem_cons_of_mem _ z4⟩
      · refine Or.inr (Or.inl ⟨s', k + 1, p, by simp; exact z1, z2, by rw [hk]; exact z3, z4, z5, ?_⟩)
        intro most' g1 g2 g3 ho
        exact z6 most' g1 g2 g3 (step_owns hw hp g3 ho o s1 (Or.inl hs1))
      · exact Or.inr (Or.inr z)
    cases c with
    | «at» bytes n =>
      cases o with
      | «at» size text =>
        obtain ⟨hb, ht⟩ := hsp
        have hn := toNat_of_lt ht.2
        have hsz : size.bytes.toNat = bytes := by rw [hb]; cases size <;> rfl
        refine go { s with value := BitVec.ofNat 64 n, size := size.bytes, offset := BitVec.ofNat 64 n } { a with size := bytes, offset := n, value := n } (by simp only [step]; rw [number_spells ht])
          { value := hn, mask := h.mask, address := h.address, length := h.length, offset := hn, size := hsz, sizes := by rw [hb]; cases size <;> simp [sized], bus := h.bus, out := h.out, used := h.used, mapped := h.mapped } hf
          (fun k => by rw [List.take_succ_cons, follow])
      | _ => exact hsp.elim
    | address n =>
      cases o with
      | address text =>
        have hn := toNat_of_lt hsp.2
        refine go { s with value := BitVec.ofNat 64 n, address := BitVec.ofNat 64 n, stored := (Map.unmap m.world s.stored s.kernel).2.1, kernel := (Map.unmap m.world s.stored s.kernel).2.2, base := 0#64 }
          { a with address := n, value := n, used := false } (by simp only [step]; rw [number_spells hsp])
          { value := hn, mask := h.mask, address := hn, length := h.length, offset := h.offset, size := h.size, sizes := h.sizes, bus := h.bus, out := h.out, used := by simp, mapped := fun hc => absurd rfl hc } hf
          (fun k => by rw [List.take_succ_cons, follow])
      | _ => exact hsp.elim
    | length n =>
      cases o with
      | length text =>
        have hn := toNat_of_lt hsp.2
        rw [follow] at hf
        by_cases hu : a.used = true
        · rw [if_pos hu] at hf; cases hf
        · rw [if_neg hu] at hf
          have hb : s.base = 0#64 := by
            have := h.used
            cases ha : a.used
            · rw [ha] at this; simpa using this.symm
            · exact absurd ha hu
          refine go { s with value := BitVec.ofNat 64 n, length := BitVec.ofNat 64 n } { a with length := n, value := n } (by simp only [step]; rw [number_spells hsp])
            { value := hn, mask := h.mask, address := h.address, length := hn, offset := h.offset, size := h.size, sizes := h.sizes, bus := h.bus, out := h.out, used := h.used, mapped := fun hc => absurd hb hc } hf
            (fun k => by rw [List.take_succ_cons, follow, if_neg hu])
      | _ => exact hsp.elim
    | mask n =>
      cases o with
      | mask text =>
        have hn := toNat_of_lt hsp.2
        refine go { s with value := BitVec.ofNat 64 n, mask := BitVec.ofNat 64 n } { a with mask := n, value := n } (by simp only [step]; rw [number_spells hsp])
          { value := hn, mask := hn, address := h.address, length := h.length, offset := h.offset, size := h.size, sizes := h.sizes, bus := h.bus, out := h.out, used := h.used, mapped := h.mapped } hf
          (fun k => by rw [List.take_succ_cons, follow])
      | _ => exact hsp.elim
    | delay n =>
      cases o with
      | delay text =>
        have hn := toNat_of_lt hsp.2
        rw [follow] at hf
        by_cases hd : n * 1000000000 < 2 ^ 64
        · rw [if_pos hd] at hf
          have hticks : (ticks (BitVec.ofNat 64 n)).toNat = n * 1000 := by
            rw [ticks, BitVec.toNat_udiv, BitVec.toNat_mul, hn]
            have : (1000000000#64).toNat = 1000000000 := by decide
            rw [this, Nat.mod_eq_of_lt hd]
            have : (1000000#64).toNat = 1000000 := by decide
            rw [this]
            omega
          refine go { s with value := ticks (BitVec.ofNat 64 n), bus := m.bus.wait (ticks (BitVec.ofNat 64 n)).toNat s.bus } { a with value := n * 1000, bus := m.bus.wait (n * 1000) a.bus }
            (by simp only [step]; rw [number_spells hsp])
            { value := hticks, mask := h.mask, address := h.address, length := h.length, offset := h.offset, size := h.size, sizes := h.sizes, bus := by rw [hticks, h.bus], out := h.out, used := h.used, mapped := h.mapped } hf
            (fun k => by rw [List.take_succ_cons, follow, if_pos hd])
        · rw [if_neg hd] at hf; cases hf
      | _ => exact hsp.elim
    | operation op n =>
      cases o with
      | operation op' text =>
        obtain ⟨rfl, ht⟩ := hsp
        rw [follow] at hf
        by_cases hsen : a.sensible most op' n
        · rw [if_pos hsen] at hf
          rcases step_operation hw hp hp8 hmost h op' text n ht hsen with ⟨s', e, b1, b2, b3⟩ | ⟨s', e, b1⟩
          · obtain ⟨s2, f1, f2, f3⟩ := finish_spec (m := m) 1 s'
            exact Or.inr (Or.inl ⟨s2, 0, a, by simp, by rw [List.cons_append, loop, e]; exact f1, rfl, by rw [f2, b1], by rw [f3, b2], b3⟩)
          · exact go s' _ e b1 hf (fun k => by rw [List.take_succ_cons, follow, if_pos hsen])
        · rw [if_neg hsen] at hf; cases hf
      | _ => exact hsp.elim
    | test b =>
      cases o with
      | test b' =>
        have hbb : b' = b := hsp
        subst hbb
        rw [follow] at hf
        have hz : decide (s.value = 0#64) = !decide (a.value ≠ 0) := by
          have hv := h.value
          by_cases hx : s.value = 0#64
          · rw [hx] at hv; simp [hx, ← hv]
          · have : a.value ≠ 0 := by
              intro e; apply hx; apply BitVec.eq_of_toNat_eq; rw [hv, e]; rfl
            simp [hx, this]
        by_cases ht : decide (a.value ≠ 0) = b'
        · rw [if_pos ht] at hf
          refine go s a ?_ h hf (fun k => by rw [List.take_succ_cons, follow, if_pos ht])
          simp only [step]
          rw [hz, ht, if_neg]
          cases b' <;> simp
        · rw [if_neg ht] at hf
          cases hf
          obtain ⟨s2, f1, f2, f3⟩ := finish_spec (m := m) 0 s
          refine Or.inl ⟨s2, ?_, by rw [f2, h.bus], by rw [f3, h.out], b', List.mem_cons_self ..⟩
          rw [List.cons_append, loop]
          have : step m (.test b') s = .done s := by
            simp only [step]
            rw [hz, if_pos]
            cases b' <;> cases hx : decide (a.value ≠ 0) <;> simp_all
          rw [this]; exact f1
      | _ => exact hsp.elim

theorem start_agrees (kernel : σ) (bus : β) :
    Agrees m { value := 0, mask := 0, address := 0, length := 0, base := 0, stored := ⟨0, 0⟩, offset := 0, size := 0, kernel := kernel, bus := bus, out := [] } (beginning bus) :=
  { value := rfl, mask := rfl, address := rfl, length := rfl, offset := rfl, size := rfl, sizes := Or.inl rfl, bus := rfl, out := rfl, used := rfl, mapped := fun h => absurd rfl h }

theorem start_owns (kernel : σ) (bus : β) (h : m.memory kernel = fun _ => none) :
    Owns m { value := 0, mask := 0, address := 0, length := 0, base := 0, stored := ⟨0, 0⟩, offset := 0, size := 0, kernel := kernel, bus := bus, out := [] } :=
  Or.inl ⟨rfl, rfl, h⟩

end

/-- The account of the user with a region and the one with addresses. -/
structure Alike {β : Type} (A L : Nat) (known : Bool) (a b : Account β) : Prop where
  address : a.address = A
  length : a.length = L
  nolength : b.length = 0
  offset : a.size ≠ 0 → b.offset = A + a.offset
  size : b.size = a.size
  mask : b.mask = a.mask
  value : known = true → b.value = a.value
  unused : b.used = false
  bus : b.bus = a.bus
  out : b.out = a.out

theorem act_alike {β : Type} (bus : Bus β) {A L : Nat} (hL : L ≠ 0) {known : Bool} {a b : Account β} (h : Alike A L known a b) (hs : a.size ≠ 0) (op : Op) (n : Nat) :
    Alike A L true (a.act bus op n) (b.act bus op n) := by
  have ht : b.target = a.target := by
    simp only [Account.target, h.nolength, h.length, hL, if_true, if_false, h.offset hs, h.address]
  have hfa := act_fixed bus op n a
  have hfb := act_fixed bus op n b
  have hb : (b.act bus op n).bus = (a.act bus op n).bus ∧ (b.act bus op n).out = (a.act bus op n).out ∧ (b.act bus op n).value = (a.act bus op n).value := by
    cases op <;> simp only [Account.act, ht, h.size, h.bus, h.out, h.mask, and_self]
  constructor
  · rw [hfa]; exact h.address
  · rw [hfa]; exact h.length
  · rw [hfb]; exact h.nolength
  · rw [hfa, hfb]; exact h.offset
  · rw [hfa, hfb]; exact h.size
  · rw [hfa, hfb]; exact h.mask
  · intro _; exact hb.2.2
  · rw [hfb]; simp [h.nolength]
  · exact hb.1
  · exact hb.2.1

theorem follow_alike {β : Type} (bus : Bus β) {most A L : Nat} (hL : L ≠ 0) (cmds : List Command) : ∀ (known : Bool) (a b r : Account β), Alike A L known a b → Settled known cmds → follow bus most cmds a = some r →
    ∃ r', follow bus most (cmds.map (absolute A)) b = some r' ∧ r'.bus = r.bus ∧ r'.out = r.out := by
  induction cmds with
  | nil =>
    intro known a b r h _ hf
    cases hf
    exact ⟨b, rfl, h.bus, h.out⟩
  | cons c cs ih =>
    intro known a b r h hs hf
    cases c with
    | «at» bytes n =>
      rw [List.map_cons, absolute]
      rw [follow] at hf ⊢
      exact ih false { a with size := bytes, offset := n, value := n } { b with size := bytes, offset := A + n, value := A + n } r
        { address := h.address, length := h.length, nolength := h.nolength, offset := fun _ => rfl, size := rfl, mask := h.mask, value := fun e => (by cases e), unused := h.unused, bus := h.bus, out := h.out } hs hf
    | address n => exact hs.elim
    | length n => exact hs.elim
    | mask n =>
      rw [List.map_cons, absolute]
      · rw [follow] at hf ⊢
        exact ih true { a with mask := n, value := n } { b with mask := n, value := n } r
          { address := h.address, length := h.length, nolength := h.nolength, offset := h.offset, size := h.size, mask := rfl, value := fun _ => rfl, unused := h.unused, bus := h.bus, out := h.out } hs hf
      · intro x y hc; cases hc
    | delay n =>
      rw [List.map_cons, absolute]
      · rw [follow] at hf ⊢
        by_cases hd : n * 1000000000 < 2 ^ 64
        · rw [if_pos hd] at hf ⊢
          exact ih true { a with value := n * 1000, bus := bus.wait (n * 1000) a.bus } { b with value := n * 1000, bus := bus.wait (n * 1000) b.bus } r
            { address := h.address, length := h.length, nolength := h.nolength, offset := h.offset, size := h.size, mask := h.mask, value := fun _ => rfl, unused := h.unused, bus := by simp only []; rw [h.bus], out := h.out } hs hf
        · rw [if_neg hd] at hf; cases hf
      · intro x y hc; cases hc
    | operation op n =>
      rw [List.map_cons, absolute]
      · rw [follow] at hf ⊢
        by_cases hsen : a.sensible most op n
        · rw [if_pos hsen] at hf
          obtain ⟨q1, q2, q3, q4, q5⟩ := hsen
          have hal : a.length ≠ 0 := by rw [h.length]; exact hL
          obtain ⟨z1, z2, z3⟩ := q4 hal
          have ht : b.target = a.target := by
            simp only [Account.target, h.nolength, h.length, hL, if_true, if_false, h.offset q1, h.address]
          have hsen' : b.sensible most op n := by
            refine ⟨by rw [h.size]; exact q1, by rw [h.size, ht]; exact q2, fun _ => ?_, fun hc => absurd h.nolength hc, by rw [h.size]; exact q5⟩
            rw [h.size, h.offset q1, ← h.address]
            omega
          rw [if_pos hsen']
          exact ih true _ _ r (act_alike bus hL h q1 op n) hs hf
        · rw [if_neg hsen] at hf; cases hf
      · intro x y hc; cases hc
    | test nz =>
      obtain ⟨hk, hs⟩ := hs
      rw [List.map_cons, absolute]
      · rw [follow] at hf ⊢
        rw [h.value hk]
        by_cases ht : decide (a.value ≠ 0) = nz
        · rw [if_pos ht] at hf ⊢
          exact ih known _ _ r h hs hf
        · rw [if_neg ht] at hf ⊢
          cases hf
          exact ⟨b, rfl, h.bus, h.out⟩
      · intro x y hc; cases hc

end Diminuto.Memtool
