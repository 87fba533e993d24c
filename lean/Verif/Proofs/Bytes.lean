import Verif.Model.Validate

/-! # Byte length of a number -/

namespace Cddl

/-- `k` is the length of the shortest big-endian encoding of `x` (0 for 0). -/
def MinBytes (x k : Nat) : Prop := x < 256 ^ k ∧ ∀ j, j < k → 256 ^ j ≤ x

theorem MinBytes.unique {x k k' : Nat} (h : MinBytes x k) (h' : MinBytes x k') : k = k' := by
  rcases Nat.lt_trichotomy k k' with hk | hk | hk
  · have := h'.2 k hk; have := h.1; omega
  · exact hk
  · have := h.2 k' hk; have := h'.1; omega

theorem minBytes_needed (x : Nat) :
    MinBytes x (if x = 0 then 0 else (Nat.log2 x + 1 + 7) / 8) := by
  have e : ∀ k, 256 ^ k = 2 ^ (8 * k) := fun k => by rw [Nat.pow_mul]
  split
  · rename_i h; subst h; exact ⟨by simp, by simp⟩
  · rename_i h
    refine ⟨?_, fun j hj => ?_⟩
    · rw [e]
      refine Nat.lt_of_lt_of_le (Nat.lt_log2_self) (Nat.pow_le_pow_right (by omega) ?_)
      omega
    · rw [e]
      refine Nat.le_trans (Nat.pow_le_pow_right (by omega) ?_) (Nat.log2_self_le h)
      omega

theorem toU64_nat {n : Nat} (h : n < 2 ^ 64) : toU64 (n : Int) = .ok n := by
  have h1 : (0 : Int) ≤ n := Int.natCast_nonneg n
  have h2 : (n : Int) ≤ 18446744073709551615 := by omega
  unfold toU64; rw [if_pos ⟨h1, h2⟩]; rfl

theorem shl1_bytes {N : Nat} (h : N < 16) : shl1 (N * 8) = .ok ((256 ^ N : Nat) : Int) := by
  unfold shl1
  rw [if_pos (by omega)]
  congr 1
  rw [Nat.mul_comm, Int.pow_mul, Int.natCast_pow]
  rfl

end Cddl
