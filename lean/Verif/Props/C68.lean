import Verif.Proofs.Linear
import Verif.Props.C66

/-! # C68  How many calls the parser makes at most -/

namespace Cddl

variable {x : ParseExt}

/-- C68.  Every text, whether in order or not, is read with at most four calls of `type2` for each of its characters, doubled
for each opening parenthesis and each single quote in it. -/
theorem C68_bound (s : String) :
    (parseCddlC x s).2 ≤ 4 * s.toList.length * 2 ^ (s.toList.count '(' + s.toList.count '\'') := parseCddlC_bound s

/-- C68.  So a text without parentheses and without single quotes is read with at most four calls for each of its characters:
the time is linear. -/
theorem C68_linear (s : String) (hp : '(' ∉ s.toList) (hq : '\'' ∉ s.toList) :
    (parseCddlC x s).2 ≤ 4 * s.toList.length := by
  have := C68_bound (x := x) s
  rw [List.count_eq_zero.mpr hp, List.count_eq_zero.mpr hq] at this
  simpa using this

/-- C68.  The doubling is real: the text of C66 with `n` parentheses takes 2^n calls at least, so for a text with `n` parentheses
nothing smaller than the bound divided by twenty times `n + 1` will do. -/
theorem C68_tight (n : Nat) : ∃ s : String, s.toList.count '(' = n ∧ '\'' ∉ s.toList ∧ (∃ c, parseCddl x s = .ok c) ∧
    4 * s.toList.length * 2 ^ n ≤ 20 * (n + 1) * (parseCddlC x s).2 := by
  have hc : (parensText n).count '(' = n := by
    induction n with
    | zero => decide
    | succ n ih =>
      rw [parensText, List.count_cons_self, List.count_cons_of_ne (by decide), List.count_append, ih]
      simp
  have hq : '\'' ∉ parensText n := by
    clear hc
    induction n with
    | zero => decide
    | succ n ih => simp [parensText, ih]
  obtain ⟨h1, h2, h3⟩ := C66_exponential (x := x) n
  refine ⟨_, ?_, ?_, ⟨_, h2⟩, ?_⟩
  · simp [ruleA, hc]
  · simp [ruleA, hq]
  · rw [h1]
    have e : 4 * (5 * n + 5) = 20 * (n + 1) := by omega
    rw [e]
    exact Nat.mul_le_mul_left _ h3

/-- C68.  The condition on parentheses cannot be dropped, whatever the factor: for each there is a text, in order and without single
quotes, that takes more calls. -/
theorem C68_parens_needed (k : Nat) : ∃ s : String, '\'' ∉ s.toList ∧ (∃ c, parseCddl x s = .ok c) ∧
    k * s.toList.length < (parseCddlC x s).2 := by
  have hq : ∀ n, '\'' ∉ parensText n := by
    intro n
    induction n with
    | zero => decide
    | succ n ih => simp [parensText, ih]
  have hpow : ∀ n : Nat, n * n < 4 * 2 ^ n := by
    have h2 : ∀ n : Nat, n < 2 ^ n := fun n => Nat.lt_two_pow_self
    intro n
    induction n with
    | zero => decide
    | succ n ih =>
      have := h2 n
      rw [Nat.pow_succ, Nat.add_mul, Nat.mul_add]
      omega
  have hbig : k * (5 * (40 * k + 40) + 5) < 2 ^ (40 * k + 40) := by
    have h1 := hpow (40 * k + 40)
    have h2 : k * (5 * (40 * k + 40) + 5) * 4 ≤ (40 * k + 40) * (40 * k + 40) := by
      have e1 : k * (5 * (40 * k + 40) + 5) * 4 = 800 * (k * k) + 820 * k := by
        have : k * (5 * (40 * k)) = 200 * (k * k) := by
          rw [← Nat.mul_assoc 5 40 k, Nat.mul_left_comm]
        simp only [Nat.mul_add, Nat.add_mul, this]
        omega
      have e2 : (40 * k + 40) * (40 * k + 40) = 1600 * (k * k) + 3200 * k + 1600 := by
        have : 40 * k * (40 * k) = 1600 * (k * k) := by
          rw [Nat.mul_assoc, Nat.mul_left_comm k 40 k, ← Nat.mul_assoc]
        simp only [Nat.mul_add, Nat.add_mul, this]
        omega
      rw [e1, e2]
      omega
    omega
  obtain ⟨h1, h2, h3⟩ := C66_exponential (x := x) (40 * k + 40)
  refine ⟨_, ?_, ⟨_, h2⟩, ?_⟩
  · simp [ruleA, hq]
  · rw [h1]
    omega

/-! ## Examples -/

/-- Brackets that are never closed: each is read as a type, and once more as an entry of a group. -/
example : (parseCddlC demoExt "a=[[[[").2 = 10 ∧ (parseCddlC demoExt "a=[[[[").2 ≤ 24 :=
  ⟨by decide +kernel, C68_linear _ (by decide) (by decide)⟩

/-- A text with most of the notation: the 39 characters take 11 calls. -/
example : (parseCddlC demoExt "a = { ? x: int / tstr, b<[1..2]> => 3 }").2 = 11 ∧
    (parseCddlC demoExt "a = { ? x: int / tstr, b<[1..2]> => 3 }").2 ≤ 156 :=
  ⟨by decide +kernel, C68_linear _ (by decide) (by decide)⟩

/-- Nested parentheses, and the bound. -/
example : (parseCddlC demoExt "a=[([([1],)],)]").2 = 24 ∧ (parseCddlC demoExt "a=[([([1],)],)]").2 ≤ 240 :=
  ⟨by decide +kernel, C68_bound _⟩

/-- Why quotes count: if something behind a byte string fails, the entry is read as a group name `h`, and then what stands
behind the name is read once more. -/
example : (parseCddlC demoExt "a=[h''/[1,[18446744073709551616]]]").2 = 18 ∧
    (parseCddlC demoExt "a=[b/[1,[18446744073709551616]]]").2 = 12 := by decide +kernel

end Cddl
