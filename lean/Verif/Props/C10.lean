import Verif.Props.C09
import Verif.Proofs.Bytes

/-! # C10  `.size` on unsigned integers -/

namespace Cddl

/-- C10.  `uint .size N` accepts exactly the integers `0 <= x < 256^N`.  The bound on `v` is the range
of the i128 that holds integers in the code. -/
theorem C10_size_uint (env : Env) (c : Ctx) (t a : Node) (N : Nat) (v : Value)
    (ht : Names env c t (.prelude .uint)) (ha : Names env c a (.literal (.int N))) (hN : N < 2 ^ 64)
    (hv : ∀ x : Nat, v = .integer x → x < 2 ^ 127) :
    (Accepts env c (.ctl .size t a) v ↔ ∃ x : Nat, v = .integer x ∧ x < 256 ^ N) ∧
    (Accepts env c (.ctl .size t a) v ∨
      ∃ m, validate env v (.ctl .size t a) c = .err (.mismatch m)) := by
  unfold Accepts validate
  rw [val_eq]
  have hu := toU64_nat hN
  simp only [valBody, validateControl, validateControlSize, ht.chase, ha.chase, Res.bind,
    normalizeSizeRange, hu, validateSizeUint, sizeEndpoints]
  cases v <;> simp
  rename_i x
  by_cases h0 : x < 0
  · simp only [h0, if_true]
    constructor
    · simp
      rintro y rfl
      omega
    · exact Or.inr ⟨_, rfl⟩
  · simp only [h0, if_false]
    obtain ⟨y, rfl⟩ : ∃ y : Nat, x = y := ⟨x.toNat, by omega⟩
    have hy := hv y rfl
    have key : (∃ z : Nat, (y : Int) = z ∧ z < 256 ^ N) ↔ y < 256 ^ N :=
      ⟨fun ⟨z, hz, h⟩ => by rw [Int.ofNat_inj.mp hz]; exact h, fun h => ⟨y, rfl, h⟩⟩
    rw [key]
    by_cases h16 : 16 ≤ N
    · have h1 : 256 ^ 16 ≤ 256 ^ N := Nat.pow_le_pow_right (by omega) h16
      have h2 : y < 256 ^ N := Nat.lt_of_lt_of_le hy (Nat.le_trans (by decide) h1)
      simp [h16, h2]
    · rw [if_neg h16, shl1_bytes (by omega)]
      simp only [Res.bind, Int.ofNat_lt]
      by_cases h1 : y < 256 ^ N
      · simp only [h1, if_true, true_or, and_true]
      · simp only [h1, if_false]
        exact ⟨by simp, Or.inr ⟨_, rfl⟩⟩

/-- C10 for ranges `a..b` / `a...b` with `a < b`: exactly the non-negative integers whose shortest
encoding has a length in the range. -/
theorem C10_size_uint_range (env : Env) (c : Ctx) (t z : Node) (a b : Nat) (inclusive : Bool)
    (v : Value) (ht : Names env c t (.prelude .uint))
    (ha : Names env c z (.range (.literal (.int a)) (.literal (.int b)) inclusive))
    (hb : b < 2 ^ 64) (hab : a < b) :
    (Accepts env c (.ctl .size t z) v ↔ ∃ x k : Nat, v = .integer x ∧ MinBytes x k ∧ a ≤ k ∧
      if inclusive then k ≤ b else k < b) ∧
    (Accepts env c (.ctl .size t z) v ∨
      ∃ m, validate env v (.ctl .size t z) c = .err (.mismatch m)) := by
  unfold Accepts validate
  rw [val_eq]
  have hu := toU64_nat (Nat.lt_trans hab hb)
  have hu' := toU64_nat hb
  simp only [valBody, validateControl, validateControlSize, ht.chase, ha.chase, Res.bind,
    normalizeSizeRange, hu, hu', validateSizeUint, sizeEndpoints]
  have h1 : ¬ (a > b ∨ a = b ∧ inclusive = false) := by omega
  have h2 : ¬ (a = b ∧ inclusive = true) := by omega
  simp only [h1, h2, if_false]
  cases v
  all_goals first | (simp; done) | skip
  rename_i x
  dsimp only
  by_cases h0 : x < 0
  · simp only [h0, if_true]
    simp
    rintro y rfl
    omega
  · simp only [h0, if_false]
    obtain ⟨y, rfl⟩ : ∃ y : Nat, x = y := ⟨x.toNat, by omega⟩
    simp only [Int.toNat_natCast]
    have hm := minBytes_needed y
    generalize (if y = 0 then 0 else (Nat.log2 y + 1 + 7) / 8) = k at hm
    have key : (∃ z j : Nat, Value.integer y = .integer z ∧ MinBytes z j ∧ a ≤ j ∧
        if inclusive = true then j ≤ b else j < b) ↔
        a ≤ k ∧ if inclusive = true then k ≤ b else k < b := by
      constructor
      · rintro ⟨z, j, hz, hj, h⟩
        have : y = z := by have := Value.integer.inj hz; omega
        subst this
        rw [hm.unique hj]; exact h
      · intro h; exact ⟨_, k, rfl, hm, h⟩
    rw [key]
    by_cases hka : k < a
    · have : ¬ a ≤ k := by omega
      simp [hka, this]
    · have : a ≤ k := by omega
      rw [if_neg hka]
      cases inclusive <;> simp [this] <;> split <;> simp_all

/-- C10 for `N..N`: the same answers as for `N`, whatever the target. -/
theorem C10_size_single (env : Env) (c : Ctx) (t a z : Node) (N : Int) (v : Value)
    (ha : Names env c a (.literal (.int N))) (hz : Names env c z (.range (.literal (.int N)) (.literal (.int N)) true)) :
    validate env v (.ctl .size t z) c = validate env v (.ctl .size t a) c := by
  unfold validate
  rw [val_eq, val_eq]
  simp only [valBody, validateControl, validateControlSize, ha.chase, hz.chase, Res.bind, normalizeSizeRange]
  cases toU64 N <;> rfl

/-- C10 for ranges without elements: no value is accepted. -/
theorem C10_size_empty (env : Env) (c : Ctx) (t z : Node) (a b : Nat) (inclusive : Bool) (v : Value)
    (ht : Names env c t (.prelude .uint)) (hz : Names env c z (.range (.literal (.int a)) (.literal (.int b)) inclusive))
    (ha : a < 2 ^ 64) (hb : b < 2 ^ 64) (hab : b < a ∨ a = b ∧ inclusive = false) :
    validate env v (.ctl .size t z) c = .err (.mismatch "uint over .size limit") := by
  unfold validate
  rw [val_eq]
  have hu := toU64_nat ha
  have hu' := toU64_nat hb
  simp only [valBody, validateControl, validateControlSize, ht.chase, hz.chase, Res.bind, normalizeSizeRange, hu, hu',
    validateSizeUint, sizeEndpoints]
  rw [if_pos (by omega)]

example : validate (demoEnv []) (.integer 7) (.ctl .size (.prelude .uint)
    (.range (.literal (.int 3)) (.literal (.int 1)) true)) top = .err (.mismatch "uint over .size limit") :=
  C10_size_empty _ _ _ _ 3 1 true _ (.here _ _ (by simp)) (.here _ _ (by simp)) (by decide) (by decide) (.inl (by decide))

/-- C10: a size that is not a u64 is a schema error for every value. -/
theorem C10_bad_size (env : Env) (c : Ctx) (t a : Node) (N : Int) (v : Value)
    (ha : Names env c a (.literal (.int N))) (hN : N < 0 ∨ 18446744073709551616 ≤ N) :
    ∃ m, validate env v (.ctl .size t a) c = .err (.structural m) := by
  unfold validate
  rw [val_eq]
  have hu : toU64 N = .err (.structural ("bad .size limit " ++ toString N)) := by
    unfold toU64; rw [if_neg (by omega)]
  simp only [valBody, validateControl, validateControlSize, ha.chase, Res.bind,
    normalizeSizeRange, hu]
  exact ⟨_, rfl⟩

/-- The degenerate range `uint .size (2..2)` is read as `.size 2` and accepts 5, although 5 needs
only one byte: the code's range semantics is not uniform at `a = b`, which is why
`C10_size_uint_range` asks for `a < b`. -/
example : Accepts (demoEnv []) top
    (.ctl .size (.prelude .uint) (.range (.literal (.int 2)) (.literal (.int 2)) true)) (.integer 5) :=
  accepts_of_fuel 60 (by decide)
example : ¬ Accepts (demoEnv []) top
    (.ctl .size (.prelude .uint) (.range (.literal (.int 2)) (.literal (.int 3)) true)) (.integer 5) := by
  intro h
  obtain ⟨x, k, hx, hm, h2, _⟩ := (C10_size_uint_range _ _ _ _ 2 3 _ _ (.here _ _ (by simp))
    (.here _ _ (by simp)) (by decide) (by decide)).1.mp h
  have : x = 5 := by have := Value.integer.inj hx; omega
  subst this
  have := hm.2 1 (by omega)
  omega
example : ¬ Accepts (demoEnv []) top (.ctl .size (.prelude .uint) (.literal (.int 2))) (.integer 65536) := by
  intro h
  obtain ⟨x, hx, h⟩ := (C10_size_uint _ _ _ _ 2 _ (.here _ _ (by simp)) (.here _ _ (by simp))
    (by decide) (by intro x hx; have := Value.integer.inj hx; omega)).1.mp h
  have := Value.integer.inj hx
  omega

/-- C10: a size range with an end that is not a u64 is a schema error for every value. -/
theorem C10_bad_size_range (env : Env) (c : Ctx) (t z : Node) (a b : Int) (inclusive : Bool) (v : Value)
    (hz : Names env c z (.range (.literal (.int a)) (.literal (.int b)) inclusive))
    (hab : (a < 0 ∨ 18446744073709551616 ≤ a) ∨ b < 0 ∨ 18446744073709551616 ≤ b) :
    ∃ m, validate env v (.ctl .size t z) c = .err (.structural m) := by
  unfold validate
  rw [val_eq]
  simp only [valBody, validateControl, validateControlSize, hz.chase, Res.bind, normalizeSizeRange]
  by_cases ha : 0 ≤ a ∧ a ≤ 18446744073709551615
  · have hb : ¬ (0 ≤ b ∧ b ≤ 18446744073709551615) := by omega
    simp only [toU64, if_pos ha, if_neg hb]
    exact ⟨_, rfl⟩
  · simp only [toU64, if_neg ha]
    exact ⟨_, rfl⟩

/-- `uint .size (2..-1)`. -/
example : ∃ m, validate (demoEnv []) .null
    (.ctl .size (.prelude .uint) (.range (.literal (.int 2)) (.literal (.int (-1))) true)) top = .err (.structural m) :=
  C10_bad_size_range _ _ _ _ 2 (-1) _ _ (.here _ _ (by simp)) (by decide)

end Cddl
