import Verif.InterfacesLemmas

/-!
# Properties of the lists of network interfaces and of their addresses
-/

namespace Diminuto.Interfaces

/-- `firsts` is what it should be: the same elements, no element twice, and in the same order. -/
theorem interfaces_firsts (l : List (List Byte)) : (∀ a, a ∈ firsts l ↔ a ∈ l) ∧ (firsts l).Nodup ∧ (firsts l).Sublist l := by
  induction l with
  | nil => simp [firsts]
  | cons b l ih =>
    obtain ⟨h1, h2, h3⟩ := ih
    unfold firsts
    refine ⟨fun a => ?_, ?_, ?_⟩
    · rw [List.mem_cons, List.mem_cons, List.mem_filter, h1 a]
      by_cases h : a = b <;> simp [h]
    · rw [List.nodup_cons]
      exact ⟨by simp, h2.sublist List.filter_sublist⟩
    · exact (List.filter_sublist.trans h3).cons_cons b

/-- The full claim is for all results of `malloc(3)`, which is not checked.  The list has every interface exactly once, and neither the vector nor the strings are larger than the
block. -/
theorem interfaces_partial (l : List Entry) (h : Strings l) :
    ∃ b, interfaces (some l) true = some (some b) ∧ b.pointers.map b.string = firsts (names l) := by
  obtain ⟨b, h1, h2, h3⟩ := fill_spec (1 + (names l).length) (0 + room (names l)) l ⟨[], []⟩ [] ⟨fun p hp => (by cases hp), rfl⟩ (fun s hs => (by cases hs)) h
    (by simp) (by simp)
  refine ⟨b, ?_, ?_⟩
  · unfold interfaces
    simp only [sizes_eq]
    rw [if_neg (by simp)]
    simp only [h1]
    rw [if_pos h3]
  · rw [h2.2]
    simp

/-- If the interfaces cannot be listed, the result is NULL. -/
theorem interfaces_error (malloc : Bool) (i : Option (List Byte)) :
    interfaces none malloc = some none ∧ interface4 none malloc i = some none ∧ interface6 none malloc i = some none := ⟨rfl, rfl, rfl⟩

def lo : List Byte := [108#8, 111#8]
def eth : List Byte := [101#8, 116#8, 104#8]
def host : List Entry := [⟨some lo, some (.inet 0x7f000001#32)⟩, ⟨some eth, some (.inet 0xc0a80101#32)⟩, ⟨some lo, some (.inet6 1#128)⟩, ⟨none, none⟩,
  ⟨some eth, some (.inet 0xc0a80102#32)⟩, ⟨some eth, none⟩]

example : Strings host := by
  intro e he n hn
  simp only [host, List.mem_cons, List.not_mem_nil, or_false] at he
  rcases he with rfl | rfl | rfl | rfl | rfl | rfl <;> cases hn <;> decide

example : (interfaces (some host) true) = some (some ⟨[0, 3], lo ++ [0#8] ++ eth ++ [0#8]⟩) := by decide

/-- If there is no memory, the null pointer is written to; so is it for the addresses. -/
theorem interfaces_memory_counterexample : ¬ ∀ l i, Strings l →
    (interfaces (some l) false).isSome ∧ (interface4 (some l) false (some i)).isSome ∧ (interface6 (some l) false (some i)).isSome := by
  intro h
  have := (h [] lo (fun e he => (by cases he))).1
  revert this
  decide

/-! ## Addresses -/

/-- The full claim is for all results of `malloc(3)`, and that the caller can tell the addresses: the array has exactly those of the interface, and can be read unless one of them is
zero. -/
theorem interfaces_addresses4_partial (l : List Entry) (h : Strings l) (i : List Byte) (hi : 0#8 ∉ i) :
    interface4 (some l) true (some i) = some (some (addresses4 i l ++ [0])) ∧
    (0 ∉ addresses4 i l → ∀ r, Reads (addresses4 i l ++ [0]) r ↔ r = addresses4 i l) := by
  constructor
  · refine collect_spec _ _ _ l fun e he => ?_
    unfold matches4
    cases hn : e.name with
    | none => cases e.address with
      | none => rfl
      | some a => cases a <;> rfl
    | some n =>
      cases e.address with
      | none => rfl
      | some a =>
        cases a with
        | inet a =>
          have hs := strncmp_take NAME n i (h e he n hn) hi
          simp only [Option.map_some, Option.some.injEq]
          by_cases hc : n.take 255 = i.take 255
          · rw [if_neg (by simpa using hs.2 hc), if_pos hc]
          · rw [if_pos (fun e => hc (hs.1 e)), if_neg hc]
        | inet6 _ => rfl
        | other => rfl
  · intro hz r
    constructor
    · rintro ⟨hr, rest, e⟩
      have := congrArg (List.takeWhile (· ≠ 0)) e
      rw [List.takeWhile_append_of_pos (fun a ha => by have : a ≠ 0 := (fun e => hz (e ▸ ha)); simpa using this), List.takeWhile_append_of_pos (fun a ha => by simpa using hr a ha)] at this
      simpa using this.symm
    · rintro rfl
      exact ⟨fun a ha e => hz (e ▸ ha), [], rfl⟩

theorem interfaces_addresses6_partial (l : List Entry) (h : Strings l) (i : List Byte) (hi : 0#8 ∉ i) :
    interface6 (some l) true (some i) = some (some (addresses6 i l ++ [0])) ∧
    (0 ∉ addresses6 i l → ∀ r, Reads (addresses6 i l ++ [0]) r ↔ r = addresses6 i l) := by
  constructor
  · refine collect_spec _ _ _ l fun e he => ?_
    unfold matches6
    cases hn : e.name with
    | none => cases e.address with
      | none => rfl
      | some a => cases a <;> rfl
    | some n =>
      cases e.address with
      | none => rfl
      | some a =>
        cases a with
        | inet6 a =>
          have hs := strncmp_take NAME n i (h e he n hn) hi
          simp only [Option.map_some, Option.some.injEq]
          by_cases hc : n.take 255 = i.take 255
          · rw [if_neg (by simpa using hs.2 hc), if_pos hc]
          · rw [if_pos (fun e => hc (hs.1 e)), if_neg hc]
        | inet _ => rfl
        | other => rfl
  · intro hz r
    constructor
    · rintro ⟨hr, rest, e⟩
      have := congrArg (List.takeWhile (· ≠ 0)) e
      rw [List.takeWhile_append_of_pos (fun a ha => by have : a ≠ 0 := (fun e => hz (e ▸ ha)); simpa using this), List.takeWhile_append_of_pos (fun a ha => by simpa using hr a ha)] at this
      simpa using this.symm
    · rintro rfl
      exact ⟨fun a ha e => hz (e ▸ ha), [], rfl⟩

example : interface4 (some host) true (some eth) = some (some [0xc0a80101#32, 0xc0a80102#32, 0]) := by decide
example : interface6 (some host) true (some lo) = some (some [1#128, 0]) := by decide

/-- The header says that the result is NULL if there is no such interface; it is an array without addresses. -/
theorem interfaces_missing_counterexample : ¬ ∀ l i, Strings l → 0#8 ∉ i → (∀ e ∈ l, e.name ≠ some i) →
    interface4 (some l) true (some i) = some none ∧ interface6 (some l) true (some i) = some none := by
  intro h
  have := (h [] lo (fun e he => (by cases he)) (by decide) (fun e he => (by cases he))).1
  revert this
  decide

/-- An interface with the address 0.0.0.0 hides the addresses after it. -/
theorem interfaces_zero_counterexample : ¬ ∀ l i, Strings l → 0#8 ∉ i → ∃ a, interface4 (some l) true (some i) = some (some a) ∧ Reads a (addresses4 i l) := by
  intro h
  obtain ⟨a, -, h2, -⟩ := h [⟨some lo, some (.inet 0)⟩] lo (by
    intro e he n hn
    simp only [List.mem_cons, List.not_mem_nil, or_false] at he
    subst he
    cases hn
    decide) (by decide)
  exact h2 0 (by decide) rfl

/-- A null pointer for the name is undefined behaviour if there is an address to compare it for; the header says that the result is NULL for an invalid string. -/
theorem interfaces_null_counterexample : interface4 (some host) true none = none ∧ interface6 (some host) true none = none := by decide

end Diminuto.Interfaces
