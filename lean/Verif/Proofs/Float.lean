import Verif.Spec.Float

/-! # The comparison of float bit patterns is the comparison of the numbers they denote -/

namespace Cddl

/-- |x| * 2^1074 for a float with exponent/mantissa bits `m` (IEEE 754 binary64).
Infinity is given the number the same formula yields, which lies above every finite one. -/
def magNum (m : Nat) : Nat :=
  if m < 2 ^ 52 then m else (2 ^ 52 + m % 2 ^ 52) * 2 ^ (m / 2 ^ 52 - 1)

theorem magNum_succ (m : Nat) : magNum m < magNum (m + 1) := by
  unfold magNum
  by_cases h1 : m + 1 < 2 ^ 52
  · rw [if_pos (by omega), if_pos h1]; omega
  · rw [if_neg h1]
    by_cases h2 : m < 2 ^ 52
    · rw [if_pos h2]
      have h3 : m + 1 = 2 ^ 52 := by omega
      have h4 : (2 ^ 52 + 2 ^ 52 % 2 ^ 52) * 2 ^ (2 ^ 52 / 2 ^ 52 - 1) = 2 ^ 52 := by decide
      rw [h3, h4]; omega
    · rw [if_neg h2]
      by_cases h3 : (m + 1) % 2 ^ 52 = 0
      · have h4 : (m + 1) / 2 ^ 52 = m / 2 ^ 52 + 1 := by omega
        have h5 : m % 2 ^ 52 = 2 ^ 52 - 1 := by omega
        have h6 : 1 ≤ m / 2 ^ 52 := by omega
        rw [h3, h4, h5]
        have h7 : m / 2 ^ 52 + 1 - 1 = (m / 2 ^ 52 - 1) + 1 := by omega
        rw [h7, Nat.pow_succ (n := 2) (m := m / 2 ^ 52 - 1)]
        generalize hp : 2 ^ (m / 2 ^ 52 - 1) = p
        have hp0 : 0 < p := by rw [← hp]; exact Nat.pow_pos (by omega)
        omega
      · have h4 : (m + 1) / 2 ^ 52 = m / 2 ^ 52 := by omega
        have h5 : (m + 1) % 2 ^ 52 = m % 2 ^ 52 + 1 := by omega
        rw [h4, h5]
        exact Nat.mul_lt_mul_of_pos_right (by omega) (Nat.pow_pos (by omega))

theorem magNum_lt {a b : Nat} (h : a < b) : magNum a < magNum b := by
  induction b with
  | zero => omega
  | succ b ih =>
    rcases Nat.lt_succ_iff_lt_or_eq.mp h with h | rfl
    · exact Nat.lt_trans (ih h) (magNum_succ b)
    · exact magNum_succ _

theorem magNum_lt_iff {a b : Nat} : magNum a < magNum b ↔ a < b := by
  refine ⟨fun h => ?_, magNum_lt⟩
  rcases Nat.lt_trichotomy a b with h' | rfl | h'
  · exact h'
  · omega
  · have := magNum_lt h'; omega

theorem magNum_zero {a : Nat} : magNum a = 0 ↔ a = 0 := by
  constructor
  · intro h
    rcases Nat.eq_zero_or_pos a with h' | h'
    · exact h'
    · have := magNum_lt h'; omega
  · rintro rfl; rfl

theorem F64.mag_eq (x : F64) : x.mag = 2 ^ 52 * x.exponent + x.fraction := by
  have h := x.bits.toNat_lt
  unfold F64.mag F64.neg F64.exponent F64.fraction
  simp only [decide_eq_true_eq]
  split <;> omega

theorem F64.absolute_eq (x : F64) : x.absolute = magNum x.mag := by
  have h1 : x.fraction < 2 ^ 52 := Nat.mod_lt _ (by decide)
  rw [F64.mag_eq]
  unfold F64.absolute magNum
  by_cases h : x.exponent = 0
  · rw [if_pos h, if_pos (by omega)]; omega
  · have h2 : (2 ^ 52 * x.exponent + x.fraction) % 2 ^ 52 = x.fraction := by omega
    have h3 : (2 ^ 52 * x.exponent + x.fraction) / 2 ^ 52 = x.exponent := by omega
    rw [if_neg h, if_neg (by omega), h2, h3]

theorem F64.num_eq (x : F64) : x.num = if x.neg then - (magNum x.mag : Int) else (magNum x.mag : Int) := by
  have h := x.bits.toNat_lt
  rw [← F64.absolute_eq]
  unfold F64.num F64.neg
  simp only [decide_eq_true_eq]
  split <;> split <;> first | rfl | omega

theorem F64.isNaN_eq (x : F64) : x.isNaN = x.nan := by
  have h1 : x.fraction < 2 ^ 52 := Nat.mod_lt _ (by decide)
  have h2 : x.exponent < 2 ^ 11 := Nat.mod_lt _ (by decide)
  rw [F64.isNaN, F64.mag_eq, F64.nan, Bool.eq_iff_iff]
  simp only [decide_eq_true_eq, Bool.and_eq_true, beq_iff_eq, bne_iff_ne, ne_eq]
  omega

theorem F64.num_lt (a b : F64) : a.num < b.num ↔ a.key < b.key := by
  rw [F64.num_eq, F64.num_eq]
  unfold F64.key
  have h1 := magNum_lt_iff (a := a.mag) (b := b.mag)
  have h2 := magNum_lt_iff (a := b.mag) (b := a.mag)
  have h3 := magNum_zero (a := a.mag)
  have h4 := magNum_zero (a := b.mag)
  split <;> split <;> omega

end Cddl
