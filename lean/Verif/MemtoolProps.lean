import Verif.MemtoolLemmas4

/-!
# Properties: the tool that manipulates memory
-/

namespace Diminuto.Memtool

open Diminuto.Map (World Stored within whole Honest whole_ge)

variable {σ β : Type}

/-- C133.  If regions can be mapped, options that stand for sensible commands access the physical addresses that are meant, with the values that are meant, in the order of the options, and nothing else; what is read is printed; the status is zero. -/
theorem memtool_follows_partial {m : Machine σ β} (hw : Honest m.world m.page.toNat m.memory) (hp : 0 < m.page.toNat) (hp8 : m.page.toNat % 8 = 0) {most : Nat} (h8 : 8 ≤ most) (hmost : most < 2 ^ 63)
    (hg : Grants m.world m.page.toNat most m.memory) {kernel : σ} (hk : m.memory kernel = fun _ => none) {opts : List Opt} {cmds : List Command} (hl : Line opts cmds) (bus : β) {r : Account β}
    (hf : follow m.bus most cmds (beginning bus) = some r) : observed (main m opts kernel bus) = some (0, r.bus, r.out) := by
  have h := loop_follow hw hp hp8 hmost [] hl _ _ _ (start_agrees (m := m) kernel bus) hf
  rw [List.append_nil] at h
  rcases h with ⟨s', e, e1, e2⟩ | ⟨_, _, _, _, _, _, _, _, hno⟩ | ⟨s', e, hag⟩
  · rw [main, e, observed, e1, e2.1]
  · exact (hno most h8 (Nat.le_refl _) hg (start_owns kernel bus hk)).elim
  · rw [main, e]
    simp only [loop, finish, observed]
    rw [hag.bus, hag.out]

/-- C133.  Whether or not regions can be mapped, the result is that, or a status of one and the effects of the first few commands. -/
theorem memtool_prefix {m : Machine σ β} (hw : Honest m.world m.page.toNat m.memory) (hp : 0 < m.page.toNat) (hp8 : m.page.toNat % 8 = 0) {most : Nat} (hmost : most < 2 ^ 63)
    (kernel : σ) {opts : List Opt} {cmds : List Command} (hl : Line opts cmds) (bus : β) {r : Account β} (hf : follow m.bus most cmds (beginning bus) = some r) :
    observed (main m opts kernel bus) = some (0, r.bus, r.out) ∨
    ∃ k p, k < cmds.length ∧ follow m.bus most (cmds.take k) (beginning bus) = some p ∧ observed (main m opts kernel bus) = some (1, p.bus, p.out) := by
  have h := loop_follow hw hp hp8 hmost [] hl _ _ _ (start_agrees (m := m) kernel bus) hf
  rw [List.append_nil] at h
  rcases h with ⟨s', e, e1, e2⟩ | ⟨s', k, p, hk, e, hp, e1, e2, _⟩ | ⟨s', e, hag⟩
  · left; rw [main, e, observed, e1, e2.1]
  · right; exact ⟨k, p, hk, hp, by rw [main, e, observed, e1, e2]⟩
  · left
    rw [main, e]
    simp only [loop, finish, observed]
    rw [hag.bus, hag.out]

/-- An argument that is not a number is an error. -/
theorem step_unreadable {m : Machine σ β} {o : Opt} (h : Unreadable o) (s : State σ β) : ∃ s', step m o s = .error s' ∧ s'.bus = s.bus ∧ s'.out = s.out := by
  have key : ∀ text : List Byte, text ≠ [] → (∀ g n, ¬ Number.Reads text g n []) → (Number.unsigned text).2.1 ≠ [] := by
    intro text h0 hn
    by_cases hx : ∃ g n r, Number.Reads text g n r
    · obtain ⟨g, n, r, hr⟩ := hx
      have := (Number.number_unsigned_reads hr).2.2.2.1
      rw [this]
      intro e; rw [e] at hr; exact hn _ _ hr
    · have hnone : Number.scan text = none := by
        cases hs : Number.scan text with
        | none => rfl
        | some x =>
          obtain ⟨g, n, r⟩ := x
          exact absurd ⟨g, n, r, (Number.scan_iff _ _ _ _).1 hs⟩ hx
      have : (Number.unsigned text).2.1 = text := by
        simp only [Number.unsigned, Number.strtoull, hnone]
      rw [this]; exact h0
  have key2 : ∀ (text : List Byte) (rest : State σ β → Flow σ β), text ≠ [] → (∀ g n, ¬ Number.Reads text g n []) → ∃ s', number text s rest = .error s' ∧ s'.bus = s.bus ∧ s'.out = s.out := by
    intro text rest h0 hn
    exact ⟨{ s with value := BitVec.ofNat 64 (Number.unsigned text).1 }, by simp only [number]; rw [if_pos (key text h0 hn)], rfl, rfl⟩
  cases o with
  | «at» size text => simp only [step]; exact key2 _ _ h.1 h.2
  | address text => simp only [step]; exact key2 _ _ h.1 h.2
  | length text => simp only [step]; exact key2 _ _ h.1 h.2
  | mask text => simp only [step]; exact key2 _ _ h.1 h.2
  | delay text => simp only [step]; exact key2 _ _ h.1 h.2
  | operation op text =>
    cases op with
    | read => exact absurd rfl h.1
    | _ => simp only [step]; exact key2 _ _ h.2.1 h.2.2
  | test b => exact h.elim
  | flag => exact h.elim
  | menu => exact h.elim
  | other => exact h.elim

/-- C133.  After an argument that is not a number, or one of the two options that are recognised but not implemented, nothing is done any more: only the commands before it have an effect, and the status is one unless a condition has ended the
commands before it. -/
theorem memtool_invalid {m : Machine σ β} (hw : Honest m.world m.page.toNat m.memory) (hp : 0 < m.page.toNat) (hp8 : m.page.toNat % 8 = 0) {most : Nat} (h8 : 8 ≤ most) (hmost : most < 2 ^ 63)
    (hg : Grants m.world m.page.toNat most m.memory) {kernel : σ} (hk : m.memory kernel = fun _ => none) {opts : List Opt} {cmds : List Command} (hl : Line opts cmds) (bus : β) {r : Account β}
    (hf : follow m.bus most cmds (beginning bus) = some r) (o : Opt) (ho : Unreadable o ∨ o = .other) (rest : List Opt) :
    ∃ status, observed (main m (opts ++ o :: rest) kernel bus) = some (status, r.bus, r.out) ∧ (status = 1 ∨ status = 0 ∧ ∃ b, Command.test b ∈ cmds) := by
  have h := loop_follow hw hp hp8 hmost (o :: rest) hl _ _ _ (start_agrees (m := m) kernel bus) hf
  rcases h with ⟨s', e, e1, e2, e3⟩ | ⟨_, _, _, _, _, _, _, _, hno⟩ | ⟨s', e, hag⟩
  · exact ⟨0, by rw [main, e, observed, e1, e2], Or.inr ⟨rfl, e3⟩⟩
  · exact (hno most h8 (Nat.le_refl _) hg (start_owns kernel bus hk)).elim
  · refine ⟨1, ?_, Or.inl rfl⟩
    have hs : ∃ s'', step m o s' = .error s'' ∧ s''.bus = s'.bus ∧ s''.out = s'.out := by
      rcases ho with ho | rfl
      · exact step_unreadable ho s'
      · exact ⟨s', rfl, rfl, rfl⟩
    obtain ⟨s'', f1, f2, f3⟩ := hs
    rw [main, e, loop, f1]
    simp only [finish, observed]
    rw [f2, f3, hag.bus, hag.out]

/-- C133.  Whatever the options are, sensible or not, and whether there is an error or not, nothing is left mapped. -/
theorem memtool_unmaps {m : Machine σ β} (hw : Honest m.world m.page.toNat m.memory) (hp : 0 < m.page.toNat) {most : Nat} (hg : Grants m.world m.page.toNat most m.memory) {kernel : σ}
    (hk : m.memory kernel = fun _ => none) (opts : List Opt) (bus : β) (status : Nat) (s : State σ β) (h : main m opts kernel bus = .exit status s) : m.memory s.kernel = fun _ => none :=
  loop_owns hw hp hg opts _ (start_owns kernel bus hk) status s h

/-- C134.  Options with a region and offsets and options with addresses have the same effects, as long as no condition tests an offset, the address or the length of the region. -/
theorem memtool_styles_partial {m : Machine σ β} (hw : Honest m.world m.page.toNat m.memory) (hp : 0 < m.page.toNat) (hp8 : m.page.toNat % 8 = 0) {most : Nat} (h8 : 8 ≤ most) (hmost : most < 2 ^ 63)
    (hg : Grants m.world m.page.toNat most m.memory) {kernel : σ} (hk : m.memory kernel = fun _ => none) {A L : Nat} (hL : L ≠ 0) {cmds : List Command} (hs : Settled false cmds) {region addresses : List Opt}
    (h1 : Line region (.address A :: .length L :: cmds)) (h2 : Line addresses (cmds.map (absolute A))) (bus : β) (hf : follow m.bus most (.address A :: .length L :: cmds) (beginning bus) ≠ none) :
    observed (main m region kernel bus) = observed (main m addresses kernel bus) ∧ observed (main m region kernel bus) ≠ none := by
  cases hr : follow m.bus most (.address A :: .length L :: cmds) (beginning bus) with
  | none => exact absurd hr hf
  | some r =>
    have e1 := memtool_follows_partial hw hp hp8 h8 hmost hg hk h1 bus hr
    rw [follow, follow] at hr
    rw [if_neg (by simp)] at hr
    obtain ⟨r', f1, f2, f3⟩ := follow_alike m.bus (A := A) (L := L) hL cmds false ⟨A, L, 0, 0, 0, L, false, bus, []⟩ (beginning bus) r
      { address := rfl, length := rfl, nolength := rfl, offset := fun h => absurd rfl h, size := rfl, mask := rfl, value := fun e => (by cases e), unused := rfl, bus := rfl, out := rfl } hs hr
    have e2 := memtool_follows_partial hw hp hp8 h8 hmost hg hk h2 bus f1
    rw [e1, e2, f2, f3]
    exact ⟨rfl, fun h => by cases h⟩

/-- Arguments. -/
theorem spells {text : List Byte} {n : Nat} (h : Number.scan text = some (false, n, [])) (hn : n < 2 ^ 64) : Spells text n := ⟨(Number.scan_iff _ _ _ _).1 h, hn⟩

/-- The hypotheses can be met: `-a 4096 -l 4096 -4 4 -s 1 -u 1000 -c 1 -4 8 -r`. -/
def region : List Opt :=
  [.address [52, 48, 57, 54], .length [52, 48, 57, 54], .at .word [52], .operation .set [49], .delay [49, 48, 48, 48], .operation .clear [49], .at .word [56], .operation .read []]

/-- `-4 4100 -s 1 -u 1000 -c 1 -4 4104 -r`. -/
def addresses : List Opt :=
  [.at .word [52, 49, 48, 48], .operation .set [49], .delay [49, 48, 48, 48], .operation .clear [49], .at .word [52, 49, 48, 52], .operation .read []]

/-- What both stand for. -/
def both : List Command := [.at 4 4, .operation .set 1, .delay 1000, .operation .clear 1, .at 4 8, .operation .read 0]

theorem region_line : Line region (.address 4096 :: .length 4096 :: both) :=
  .cons (spells (by decide) (by decide)) (.cons (spells (by decide) (by decide)) (.cons ⟨rfl, spells (by decide) (by decide)⟩ (.cons ⟨rfl, Or.inr (spells (by decide) (by decide))⟩ (.cons (spells (by decide) (by decide))
    (.cons ⟨rfl, Or.inr (spells (by decide) (by decide))⟩ (.cons ⟨rfl, spells (by decide) (by decide)⟩ (.cons ⟨rfl, Or.inl rfl⟩ .nil)))))))

theorem addresses_line : Line addresses (both.map (absolute 4096)) :=
  .cons ⟨rfl, spells (by decide) (by decide)⟩ (.cons ⟨rfl, Or.inr (spells (by decide) (by decide))⟩ (.cons (spells (by decide) (by decide))
    (.cons ⟨rfl, Or.inr (spells (by decide) (by decide))⟩ (.cons ⟨rfl, spells (by decide) (by decide)⟩ (.cons ⟨rfl, Or.inl rfl⟩ .nil)))))

example : observed (main example_ region none []) = some (0, [.load 4100 4, .store 4100 4 421, .wait 1000000, .load 4100 4, .store 4100 4 420, .load 4104 4], [421]) := by decide

example : observed (main example_ region none []) = observed (main example_ addresses none []) :=
  (memtool_styles_partial example_honest (by decide) (by decide) (most := 65536) (by decide) (by decide) example_grants rfl (A := 4096) (L := 4096) (by decide) (by simp [both, Settled]) region_line addresses_line [] (by decide)).1

example : ∃ status, observed (main example_ (region ++ .mask [120] :: addresses) none []) = some (status, [.load 4100 4, .store 4100 4 421, .wait 1000000, .load 4100 4, .store 4100 4 420, .load 4104 4], [421]) ∧
    (status = 1 ∨ status = 0 ∧ ∃ b, Command.test b ∈ .address 4096 :: .length 4096 :: both) := by
  refine memtool_invalid example_honest (by decide) (by decide) (most := 65536) (by decide) (by decide) example_grants rfl region_line [] (r := ⟨4096, 4096, 8, 4, 0, 421, true, _, _⟩) rfl (.mask [120]) (Or.inl ⟨by decide, ?_⟩) _
  intro g n h
  have := (Number.scan_iff _ _ _ _).2 h
  revert this
  rw [show Number.scan [120] = none by decide]
  intro h; cases h

/-- C134 does not hold with a condition that tests an offset: `-a 4096 -l 4096 -1 0 -t -r` reads nothing, `-1 4096 -t -r` does. -/
theorem memtool_styles_counterexample :
    observed (main example_ [.address [52, 48, 57, 54], .length [52, 48, 57, 54], .at .byte [48], .test true, .operation .read []] none []) = some (0, [], []) ∧
    observed (main example_ [.at .byte [52, 48, 57, 54], .test true, .operation .read []] none []) = some (0, [.load 4096 1], [165]) := by decide

/-- C133 does not hold if the length is changed to zero while a region is mapped: `-a 4096 -l 4096 -1 1 -r -l 0 -1 9 -r` reads the byte at the address 4096 in the end instead of that at 9. -/
theorem memtool_length_counterexample :
    observed (main example_ [.address [52, 48, 57, 54], .length [52, 48, 57, 54], .at .byte [49], .operation .read [], .length [48], .at .byte [57], .operation .read []] none []) =
      some (0, [.load 4097 1, .load 4096 1], [165, 165]) := by decide

/-- C133 does not hold for the numbers of bits that an object does not have: `-1 4096 -S 8` stores the byte unchanged with a status of zero, and `-1 4096 -S 31` is not defined. -/
theorem memtool_bit_counterexample :
    observed (main example_ [.at .byte [52, 48, 57, 54], .operation .bitSet [56]] none []) = some (0, [.load 4096 1, .store 4096 1 165], []) ∧
    observed (main example_ [.at .byte [52, 48, 57, 54], .operation .bitSet [51, 49]] none []) = none := by decide

/-- C133 (options that only print): `-d`, `-o`, `-?` and whatever `getopt(3)` refuses make no difference wherever they are. -/
theorem memtool_ignored {m : Machine σ β} (o : Opt) (ho : o = .flag ∨ o = .menu) (before after : List Opt) (kernel : σ) (bus : β) : main m (before ++ o :: after) kernel bus = main m (before ++ after) kernel bus := by
  have key : ∀ (x : List Opt) (s : State σ β), loop m (x ++ o :: after) s = loop m (x ++ after) s := by
    intro x
    induction x with
    | nil => intro s; rcases ho with rfl | rfl <;> rfl
    | cons e x ih =>
      intro s
      rw [List.cons_append, List.cons_append, loop, loop]
      cases step m e s with
      | next t => exact ih t
      | _ => rfl
  exact key _ _

example : observed (main example_ (region ++ .menu :: []) none []) = observed (main example_ (region ++ []) none []) := by rw [memtool_ignored .menu (Or.inr rfl)]

/-- Without a size there is no access, and the status is zero: `-a 4096 -l 4096 -w 1`. -/
theorem memtool_size_counterexample : observed (main example_ [.address [52, 48, 57, 54], .length [52, 48, 57, 54], .operation .write [49]] none []) = some (0, [], []) := by decide

/-- Offsets are not compared with the length of the region: `-a 4096 -l 16 -1 4095 -w 1` stores a byte outside of it, and `-a 4096 -l 16 -1 4096 -w 1` is not defined. -/
theorem memtool_range_counterexample :
    observed (main example_ [.address [52, 48, 57, 54], .length [49, 54], .at .byte [52, 48, 57, 53], .operation .write [49]] none []) = some (0, [.store 8191 1 1], []) ∧
    observed (main example_ [.address [52, 48, 57, 54], .length [49, 54], .at .byte [52, 48, 57, 54], .operation .write [49]] none []) = none := by decide

end Diminuto.Memtool
