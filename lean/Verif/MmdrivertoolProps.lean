import Verif.MmdrivertoolLemmas

/-!
# Properties of the tool for the memory mapped driver
-/

namespace Diminuto.Mmdrivertool

theorem main_run {g : Geometry} {le : Bool} (os : List Opt) {s : State} {v : View} (h : Sees g le s v) :
    (∀ st t, main le s os = .exits st t → ∃ v', Run g le v os st v' ∧ Shows t v') ∧
    (main le s os = .undefined → ∃ t k, (Opt.clear true t ∈ os ∨ Opt.set true t ∈ os) ∧ Numeral t k ∧ 64 ≤ k) := by
  induction os generalizing s v with
  | nil =>
    refine ⟨?_, fun e => by cases e⟩
    intro st t e
    injection e with e1 e2
    exact ⟨v, e1 ▸ .done v, e2 ▸ ⟨h.out, h.memory⟩⟩
  | cons o os ih =>
    have hr := option_right h o
    simp only [main]
    cases ho : option le s o with
    | next t =>
      rw [ho] at hr
      obtain ⟨v', h1, h2⟩ := hr
      refine ⟨?_, ?_⟩
      · intro st t' e
        obtain ⟨v'', h3, h4⟩ := (ih h2).1 st t' e
        exact ⟨v'', .next h1 h3, h4⟩
      · intro e
        obtain ⟨x, k, h3, h4⟩ := (ih h2).2 e
        exact ⟨x, k, h3.imp (List.mem_cons_of_mem _) (List.mem_cons_of_mem _), h4⟩
    | stops t =>
      rw [ho] at hr
      obtain ⟨rfl, nonzero, rfl, hn⟩ := hr
      refine ⟨?_, fun e => by cases e⟩
      intro st t' e
      injection e with e1 e2
      exact ⟨v, e1 ▸ .stops hn, e2 ▸ ⟨h.out, h.memory⟩⟩
    | fails t =>
      rw [ho] at hr
      refine ⟨?_, fun e => by cases e⟩
      intro st t' e
      injection e with e1 e2
      exact ⟨v, e1 ▸ .fails hr.1, e2 ▸ hr.2⟩
    | undefined =>
      rw [ho] at hr
      obtain ⟨x, k, h1, h2⟩ := hr
      refine ⟨fun st t' e => (nomatch e), fun _ => ⟨x, k, ?_, h2⟩⟩
      rcases h1 with rfl | rfl
      · exact Or.inl List.mem_cons_self
      · exact Or.inr List.mem_cons_self

theorem start_sees (le : Bool) (node : List Byte) (devices : List Byte → Option Driver.Dev) (datum mask : List Byte) (hd : datum.length = 4) (hm : mask.length = 8) (memory : Memory)
    (h : ∀ name d, devices name = some d → d.mem = memory name) : Sees (geometry devices) le (.start node devices datum mask) (.start node memory) := by
  refine ⟨?_, hm, rfl, Or.inr (Or.inr (Or.inl rfl)), rfl, Or.inl rfl, rfl, rfl, ?_, fun _ => rfl, h, rfl⟩
  · show ([0, 0, 0, 0] ++ datum).length = 8
    simp [hd]
  · intro r hr
    rw [← Option.some.inj hr]
    cases le <;> rfl

/-- C166.  Whatever the options, the devices and what is in memory at the beginning: if the program ends, it has done the options one after the other, each of them what it is to do to the bits of the word and to nothing else, until a test said that it was to stop or until one failed; the status is one exactly if one did. -/
theorem mmdrivertool_partial (le : Bool) (node : List Byte) (devices : List Byte → Option Driver.Dev) (datum mask : List Byte) (hd : datum.length = 4) (hm : mask.length = 8) (memory : Memory)
    (h : ∀ name d, devices name = some d → d.mem = memory name) (os : List Opt) (st : Nat) (t : State) (he : main le (.start node devices datum mask) os = .exits st t) :
    ∃ v, Run (geometry devices) le (.start node memory) os st v ∧ Shows t v := (main_run os (start_sees le node devices datum mask hd hm memory h)).1 st t he

/-- C166.  The behaviour is undefined only if the number of a bit is 64 or more. -/
theorem mmdrivertool_defined (le : Bool) (node : List Byte) (devices : List Byte → Option Driver.Dev) (datum mask : List Byte) (hd : datum.length = 4) (hm : mask.length = 8) (os : List Opt)
    (h : ∀ t k, Opt.clear true t ∈ os ∨ Opt.set true t ∈ os → Numeral t k → k < 64) : ∃ st t, main le (.start node devices datum mask) os = .exits st t := by
  have hs := start_sees le node devices datum mask hd hm (fun name => match devices name with | some d => d.mem | none => fun _ => 0) (by intro name d e; simp only [e])
  cases hx : main le (.start node devices datum mask) os with
  | exits st t => exact ⟨st, t, rfl⟩
  | undefined =>
    obtain ⟨t, k, h1, h2, h3⟩ := (main_run os hs).2 hx
    have := h t k h1 h2
    omega

/-- A text. -/
def ascii (s : String) : List Byte := s.toList.map fun c => BitVec.ofNat 8 c.toNat

/-- A device with sixteen registers at the address 4096, in each of which is its number. -/
def sample : List Byte → Option Driver.Dev := fun name => if name = ascii "d" then some ⟨4096, 16, fun x => BitVec.ofNat 8 (x - 4096), 0, 0⟩ else none

/-- What is printed and the status, and what is in two of the registers. -/
def seen (e : End) : Option (Nat × List Nat × List Byte) :=
  match e with
  | .exits st s => some (st, s.out, match s.devices (ascii "d") with | some d => [d.mem 4096, d.mem 4097, d.mem 4098, d.mem 4099] | none => [])
  | .undefined => none

/-- The program for the sample. -/
def run (le : Bool) (os : List Opt) (junk : Byte) : Option (Nat × List Nat × List Byte) := seen (main le (.start (ascii "d") sample [junk, junk, junk, junk] (List.replicate 8 junk)) os)

example : run true [.at .halfword (ascii "2"), .read, .mask (ascii "0xff"), .set false (ascii "0x10"), .read, .test true, .clear true (ascii "8"), .read] 0xaa = some (0, [770, 784, 528], [0, 1, 0x10, 2]) := by decide +kernel

example : run false [.at .halfword (ascii "2"), .read, .at .byte (ascii "17"), .read] 0xaa = some (1, [515], [0, 1, 2, 3]) := by decide +kernel

example : run true [.read, .test false, .write (ascii "0"), .read] 0 = some (0, [50462976], [0, 1, 2, 3]) := by decide +kernel

/-- C166.  A bit beyond the word: nothing is done, nothing is said, and the status is that of success. -/
theorem mmdrivertool_bit_counterexample : run true [.at .byte (ascii "1"), .set true (ascii "9")] 0 = some (0, [], [0, 1, 2, 3]) := by decide +kernel

/-- C166.  A bit beyond all words: undefined behaviour. -/
theorem mmdrivertool_shift_counterexample : run true [.set true (ascii "64")] 0 = none := by decide +kernel

/-- C166.  A test after a size has been given looks at bytes that nothing has been put in. -/
theorem mmdrivertool_junk_counterexample :
    run true [.at .doubleword (ascii "0"), .test false, .at .byte (ascii "0"), .write (ascii "7")] 0 = some (0, [], [7, 1, 2, 3]) ∧
    run true [.at .doubleword (ascii "0"), .test false, .at .byte (ascii "0"), .write (ascii "7")] 1 = some (0, [], [0, 1, 2, 3]) := by decide +kernel

/-- C166.  A test after a bit has been cleared looks at the number of the option, and not at the register, whose bits are all zero by then. -/
theorem mmdrivertool_result_counterexample : run true [.at .byte (ascii "1"), .clear false (ascii "1"), .test false, .write (ascii "9")] 0 = some (0, [], [0, 0, 2, 3]) := by decide +kernel

/-- C166.  A word right behind the registers can be read and changed. -/
theorem mmdrivertool_behind_counterexample : (run true [.at .word (ascii "16"), .write (ascii "5"), .read] 0).map (fun x => (x.1, x.2.1)) = some (0, [5]) := by decide +kernel

end Diminuto.Mmdrivertool
