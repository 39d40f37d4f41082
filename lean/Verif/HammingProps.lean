import Verif.Hamming

/-!
# Property C06: the Hamming(8,4) code corrects single and detects double errors

The domain is finite (256 nibble arguments, 8 bit positions); each lemma checks
the whole table in the kernel.
-/

namespace Diminuto.Hamming

/-- `n` with bit `i` inverted. -/
def flip (n : Byte) (i : Fin 8) : Byte := n ^^^ BitVec.twoPow 8 i.val

/-- Number of one bits. -/
def weight (n : Byte) : Nat := ((List.range 8).filter fun i => n.getLsbD i).length

/-- C06 (no error): decoding an encoded nibble returns it, reporting no error.
Only the low four bits of the argument are used. -/
theorem hamming_no_error (nib : Byte) : sym2nib (nib2sym nib) = (nib &&& 0x0f, 0) := by
  revert nib
  decide +kernel

theorem hamming_single_low : ∀ v : BitVec 4, ∀ i : Fin 8,
    sym2nib (flip (nib2sym (v.setWidth 8)) i) = (v.setWidth 8, 1) := by
  decide +kernel

theorem hamming_double_low : ∀ v : BitVec 4, ∀ i j : Fin 8, i ≠ j →
    sym2nib (flip (flip (nib2sym (v.setWidth 8)) i) j) = (0, 2) := by
  decide +kernel

theorem nib2sym_low (nib : Byte) : nib2sym nib = nib2sym ((nib.setWidth 4).setWidth 8) := by
  revert nib
  decide +kernel

theorem mask_low (nib : Byte) : nib &&& 0x0f = (nib.setWidth 4).setWidth 8 := by
  revert nib
  decide +kernel

/-- C06 (single error): any one inverted bit is corrected and reported as one error. -/
theorem hamming_single_error (nib : Byte) (i : Fin 8) :
    sym2nib (flip (nib2sym nib) i) = (nib &&& 0x0f, 1) := by
  rw [nib2sym_low, mask_low]
  exact hamming_single_low _ i

/-- C06 (double error): any two inverted bits are reported as uncorrectable. -/
theorem hamming_double_error (nib : Byte) (i j : Fin 8) (h : i ≠ j) :
    sym2nib (flip (flip (nib2sym nib) i) j) = (0, 2) := by
  rw [nib2sym_low]
  exact hamming_double_low _ i j h

/-- C06 (trichotomy): the error count reported for any received symbol is its
Hamming distance to the nearest code word. -/
theorem hamming_distance (sym : Byte) :
    (∃ v : BitVec 4, weight (sym ^^^ nib2sym (v.setWidth 8)) = (sym2nib sym).2) ∧
    (∀ v : BitVec 4, (sym2nib sym).2 ≤ weight (sym ^^^ nib2sym (v.setWidth 8))) := by
  revert sym
  decide +kernel

-- Non-vacuity: a symbol with two wrong bits is a neighbour of no code word.
example : sym2nib (flip (flip (nib2sym 0x0b) 0) 7) = (0, 2) ∧ nib2sym 0x0b = 0x66 := by
  decide +kernel

end Diminuto.Hamming
