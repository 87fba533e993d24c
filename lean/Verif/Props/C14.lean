import Verif.Props.C12

/-! # C14  Homogeneous arrays and occurrence bounds -/

namespace Cddl

/-- What the occurrence indicators mean (RFC 8610, 3.2); `none` is unbounded. -/
def OccurLimit.Allows : OccurLimit → Nat → Prop
  | .optional, k => k ≤ 1
  | .zeroOrMore, _ => True
  | .oneOrMore, k => 1 ≤ k
  | .numbered n m, k => n ≤ k ∧ k ≤ m

theorem occur_homog {env : Env} {c : Ctx} {m t : Node} (h : Entry env c m t) {lo up : Nat} {msg : String} :
    ∀ (k cnt : Nat) (w : WArr), cnt < up → up + 1 ≤ cnt + k →
      ((∃ w', occurLoopS (fun w => (lim env).arr m w c) lo up msg k cnt w = .ok w' ∧ w'.array = []) ↔
        (∀ x ∈ w.array, Accepts env c t x) ∧ lo ≤ cnt + w.array.length ∧ cnt + w.array.length ≤ up)
  | 0, cnt, w, h1, h2 => by omega
  | k + 1, cnt, w, h1, h2 => by
    have ht := h.takesOne
    have fin : ∀ (w' : WArr) (n : Nat),
        ((∃ w'', (if n < lo then SRes.err (.mismatch msg) w' else .ok w') = .ok w'' ∧ w''.array = []) ↔
        w'.array = [] ∧ lo ≤ n) := by
      intro w' n
      split
      · simp; omega
      · simp; omega
    simp only [occurLoopS]
    cases hw : w.array with
    | nil =>
      obtain ⟨e, he⟩ := ht.1 w hw
      dsimp only at he
      simp only [he, Err.isMismatch, if_true]
      rw [fin w cnt, hw]
      simp
      omega
    | cons x xs =>
      have h2' := ht.2 w x xs hw
      dsimp only at h2'
      rw [h2']
      cases hv : validate env x t c with
      | ok =>
        obtain ⟨w', h3, h4⟩ := popFront_ok hw
        simp only [h3]
        have hx : Accepts env c t x := hv
        by_cases hge : cnt + 1 ≥ up
        · rw [if_pos hge, fin w' (cnt + 1), h4]
          constructor
          · rintro ⟨rfl, h5⟩
            refine ⟨by simpa using hx, ?_, ?_⟩ <;> simp <;> omega
          · rintro ⟨_, h6, h7⟩
            simp only [List.length_cons] at h6 h7
            have : xs = [] := List.length_eq_zero_iff.mp (by omega)
            subst this
            simp only [List.length_nil] at h6
            exact ⟨rfl, by omega⟩
        · rw [if_neg hge, occur_homog h k (cnt + 1) w' (by omega) (by omega), h4]
          simp only [List.mem_cons, forall_eq_or_imp, List.length_cons, hx, true_and]
          constructor <;> (rintro ⟨a, b, c⟩; exact ⟨a, by omega, by omega⟩)
      | err e =>
        have hx : ¬ Accepts env c t x := by unfold Accepts; rw [hv]; simp
        simp only [SRes.ofRes]
        constructor
        · rintro ⟨w', h5, h6⟩
          split at h5
          · split at h5
            · cases h5
            · cases h5; rw [hw] at h6; cases h6
          · cases h5
        · rintro ⟨h5, _⟩
          exact absurd (h5 x (by simp)) hx
      | panic =>
        have hx : ¬ Accepts env c t x := by unfold Accepts; rw [hv]; simp
        simp only [SRes.ofRes]
        constructor
        · rintro ⟨w', h5, _⟩; cases h5
        · rintro ⟨h5, _⟩
          exact absurd (h5 x (by simp)) hx
      | fuel =>
        have hx : ¬ Accepts env c t x := by unfold Accepts; rw [hv]; simp
        simp only [SRes.ofRes]
        constructor
        · rintro ⟨w', h5, _⟩; cases h5
        · rintro ⟨h5, _⟩
          exact absurd (h5 x (by simp)) hx

/-- C14 (partial: the full statement has no hypothesis on the upper bound).  `[n*m t]` accepts exactly
the arrays with an allowed number of elements, all accepted by `t`, provided the upper bound is not
0.  Missing: upper bound 0, for which the property is false (`C14_upper_zero_refuted`).
Array lengths fit a 64-bit `usize`. -/
theorem C14_homogeneous_partial (env : Env) (c : Ctx) (lim' : OccurLimit) (m t : Node) (xs : List Value)
    (h : Entry env c m t) (hm : 1 ≤ lim'.limits.2) (hlen : xs.length < 2 ^ 64) :
    Accepts env c (.array [.occur lim' m]) (.array xs) ↔
      lim'.Allows xs.length ∧ ∀ x ∈ xs, Accepts env c t x := by
  rw [array_accepts]
  have e : ∀ w, seqLoopS (fun m w => (lim env).arr m w c) [.occur lim' m] w =
      validateArrayOccur env (lim env) lim' m w c := by
    intro w
    simp only [seqLoopS, arr_eq]
    show _ = arrBody env (lim env) (.occur lim' m) w c
    cases arrBody env (lim env) (.occur lim' m) w c <;> rfl
  constructor
  · rintro ⟨ys, hy, w', h1, h2⟩
    cases hy
    rw [e] at h1
    have := (occur_homog h (lo := lim'.limits.1) (up := lim'.limits.2) _ 0 (WArr.new xs) (by omega)
      (by omega)).mp ⟨w', h1, h2⟩
    simp only [WArr.new, Nat.zero_add] at this
    refine ⟨?_, this.1⟩
    cases lim' <;> simp_all [OccurLimit.Allows, OccurLimit.limits]
  · rintro ⟨h1, h2⟩
    refine ⟨xs, rfl, ?_⟩
    rw [e]
    refine (occur_homog h (lo := lim'.limits.1) (up := lim'.limits.2) _ 0 (WArr.new xs) (by omega)
      (by omega)).mpr ⟨h2, ?_⟩
    simp only [WArr.new, Nat.zero_add]
    cases lim' <;> simp_all [OccurLimit.Allows, OccurLimit.limits, usizeMax] <;> omega

/-- With upper bound 0 the loop does what it does with upper bound 1. -/
theorem occurLoopS_zero {σ : Type} (f : σ → SRes σ) (lo : Nat) (msg : String) (k : Nat) (w : σ) :
    occurLoopS f lo 0 msg (k + 1) 0 w = occurLoopS f lo 1 msg (k + 1) 0 w := by
  simp only [occurLoopS]
  cases f w <;> simp

/-- C14: what the code does for all bounds.  `[n*m t]` accepts exactly the arrays of at least `n` and at most `m`
elements accepted by `t`, except that it reads an upper bound of 0 as 1. -/
theorem C14_exact (env : Env) (c : Ctx) (n u : Nat) (m t : Node) (xs : List Value) (h : Entry env c m t) :
    Accepts env c (.array [.occur (.numbered n u) m]) (.array xs) ↔
      n ≤ xs.length ∧ xs.length ≤ max u 1 ∧ ∀ x ∈ xs, Accepts env c t x := by
  rw [array_accepts]
  have e : ∀ w, seqLoopS (fun m w => (lim env).arr m w c) [.occur (.numbered n u) m] w =
      validateArrayOccur env (lim env) (.numbered n u) m w c := by
    intro w
    simp only [seqLoopS, arr_eq]
    show _ = arrBody env (lim env) (.occur (.numbered n u) m) w c
    cases arrBody env (lim env) (.occur (.numbered n u) m) w c <;> rfl
  have main : ∀ w : WArr, (∃ w', validateArrayOccur env (lim env) (.numbered n u) m w c = .ok w' ∧ w'.array = []) ↔
      (∀ x ∈ w.array, Accepts env c t x) ∧ n ≤ w.array.length ∧ w.array.length ≤ max u 1 := by
    intro w
    cases u with
    | zero =>
      have h1 : validateArrayOccur env (lim env) (.numbered n 0) m w c =
          occurLoopS (fun w => (lim env).arr m w c) n 1 ("more array element [" ++ occurDisplay env.fmtF64 (.numbered n 0) m ++ "]") 2 0 w := by
        show occurLoopS _ n 0 _ (0 + 1) 0 w = _
        rw [occurLoopS_zero]
        simp only [occurLoopS]
        cases (lim env).arr m w c <;> simp
      rw [h1]
      simpa using occur_homog h (lo := n) (up := 1) (msg := "more array element [" ++ occurDisplay env.fmtF64 (.numbered n 0) m ++ "]") 2 0 w (by omega) (by omega)
    | succ u =>
      have := occur_homog h (lo := n) (up := u + 1) (msg := "more array element [" ++ occurDisplay env.fmtF64 (.numbered n (u + 1)) m ++ "]") (u + 1 + 1) 0 w (by omega) (by omega)
      simp only [Nat.zero_add] at this
      rw [Nat.max_eq_left (Nat.le_add_left 1 u)]
      exact this
  constructor
  · rintro ⟨ys, hy, w', h1, h2⟩
    cases hy
    rw [e] at h1
    obtain ⟨a, b, d⟩ := (main _).mp ⟨w', h1, h2⟩
    exact ⟨b, d, a⟩
  · rintro ⟨b, d, a⟩
    refine ⟨xs, rfl, ?_⟩
    rw [e]
    exact (main (WArr.new xs)).mpr ⟨a, b, d⟩

/-- C14: only arrays are accepted. -/
theorem C14_only_arrays (env : Env) (c : Ctx) (ms : List Node) (v : Value)
    (h : Accepts env c (.array ms) v) : ∃ xs, v = .array xs := by
  obtain ⟨xs, h, _⟩ := array_accepts.mp h
  exact ⟨xs, h⟩

/-- C14 is false for the upper bound 0: `[0*0 int]` accepts `[5]`. -/
theorem C14_upper_zero_refuted :
    ¬ ∀ (env : Env) (c : Ctx) (lim' : OccurLimit) (m t : Node) (xs : List Value), Entry env c m t →
      xs.length < 2 ^ 64 →
      (Accepts env c (.array [.occur lim' m]) (.array xs) ↔
        lim'.Allows xs.length ∧ ∀ x ∈ xs, Accepts env c t x) := by
  intro h
  have h1 := h (demoEnv []) top (.numbered 0 0) (.prelude .int) (.prelude .int) [.integer 5]
    (.plain (.prelude _ _)) (by decide)
  have h2 : Accepts (demoEnv []) top (.array [.occur (.numbered 0 0) (.prelude .int)])
      (.array [.integer 5]) := accepts_of_fuel 60 (by decide)
  have := (h1.mp h2).1
  simp [OccurLimit.Allows] at this

/-- `[0*0 int]` accepts arrays of one integer, and `[1*0 int]` only these. -/
example : Accepts (demoEnv []) top (.array [.occur (.numbered 1 0) (.prelude .int)]) (.array [.integer 5]) ∧
    ¬ Accepts (demoEnv []) top (.array [.occur (.numbered 1 0) (.prelude .int)]) (.array []) := by
  rw [C14_exact _ _ _ _ _ _ _ (.plain (.prelude _ _)), C14_exact _ _ _ _ _ _ _ (.plain (.prelude _ _))]
  refine ⟨⟨by simp, by simp, ?_⟩, by simp⟩
  intro x hx
  rw [List.mem_singleton.mp hx]
  exact accepts_of_fuel 60 (by decide)

example : Accepts (demoEnv []) top (.array [.occur (.numbered 2 3) (.prelude .int)])
    (.array [.integer 1, .integer 2]) :=
  (C14_homogeneous_partial _ _ _ _ _ _ (.plain (.prelude _ _)) (by decide) (by decide)).mpr
    ⟨by simp [OccurLimit.Allows], by
      intro x hx
      simp only [List.mem_cons, List.not_mem_nil, or_false] at hx
      rcases hx with rfl | rfl
      · exact accepts_of_fuel 60 (by decide)
      · exact accepts_of_fuel 60 (by decide)⟩

/-- C14.  Other data than arrays is a mismatch. -/
theorem C14_not_array (env : Env) (c : Ctx) (ms : List Node) (v : Value) (h : ∀ xs, v ≠ .array xs) :
    ∃ m, validate env v (.array ms) c = .err (.mismatch m) := by
  unfold validate
  rw [val_eq]
  cases v with
  | array xs => exact absurd rfl (h xs)
  | _ => exact ⟨_, rfl⟩

example : ∃ m, validate (demoEnv []) .null (.array [.occur .zeroOrMore (.prelude .any)]) top = .err (.mismatch m) :=
  C14_not_array _ _ _ _ (by simp)

end Cddl
