import Verif.Spec.Demo

/-! # C09  Integer control operators -/

namespace Cddl

/-- A node that reaches `n'` through rule references (the targets and arguments of control
operators may be given by name). -/
inductive Names (env : Env) : Ctx → Node → Node → Prop
  | here (c : Ctx) (n : Node) (h : ∀ s l, n ≠ .rule s l) : Names env c n n
  | rule {c c' : Ctx} {name : String} {args : List Node} {n n' : Node} :
      c.lookupRule env name args = .ok (n, c') → Names env c' n n' →
      Names env c (.rule name args) n'

theorem Names.chase {env : Env} {c : Ctx} {n n' : Node} (h : Names env c n n') :
    (lim env).chase n c = .ok n' := by
  induction h with
  | here c n h =>
    rw [chase_eq]
    cases n <;> first | rfl | exact absurd rfl (h _ _)
  | rule h1 _ ih => rw [chase_eq]; simp only [chaseBody, h1, Res.ofExcept, Res.bind]; exact ih

/-- The integer types that may be the target of a comparison. -/
def InIntType : PreludeType → Int → Prop
  | .uint, x => 0 ≤ x
  | .nint, x => x < 0
  | .int, _ => True
  | _, _ => False

/-- The comparison of an operator. -/
def Compares : CtlOp → Int → Int → Prop
  | .lt, x, n => x < n
  | .le, x, n => x ≤ n
  | .gt, x, n => x > n
  | .ge, x, n => x ≥ n
  | .size, _, _ => False

/-- C09.  `t .op n` accepts exactly the integers of type `t` that satisfy the comparison;
everything else mismatches. -/
theorem C09_integer_controls (env : Env) (c : Ctx) (op : CtlOp) (t a : Node) (p : PreludeType)
    (n : Int) (v : Value) (hop : op ≠ .size) (ht : Names env c t (.prelude p))
    (hp : p = .uint ∨ p = .nint ∨ p = .int) (ha : Names env c a (.literal (.int n))) :
    (Accepts env c (.ctl op t a) v ↔ ∃ x, v = .integer x ∧ InIntType p x ∧ Compares op x n) ∧
    (Accepts env c (.ctl op t a) v ∨
      ∃ m, validate env v (.ctl op t a) c = .err (.mismatch m)) := by
  unfold Accepts validate
  rw [val_eq]
  have h1 := ht.chase
  have h2 := ha.chase
  cases op <;> simp only [valBody, validateControl, validateControlLt, validateControlLe,
    validateControlGt, validateControlGe, h1, h2, Res.bind, limitOf]
  · exact absurd rfl hop
  all_goals
    rcases hp with rfl | rfl | rfl <;> cases v <;>
      simp [validateLtUint, validateLtNint, validateLtInt, validateLeUint, validateLeNint,
        validateLeInt, validateGtUint, validateGtNint, validateGtInt, validateGeUint,
        validateGeNint, validateGeInt, InIntType, Compares] <;>
      (repeat' split) <;> simp_all <;> omega

/-- C09: a non-integer argument is a schema error for every value. -/
theorem C09_bad_argument (env : Env) (c : Ctx) (op : CtlOp) (t a a' : Node) (v : Value)
    (hop : op ≠ .size) (ha : Names env c a a') (hn : ∀ n, a' ≠ .literal (.int n)) :
    ∃ m, validate env v (.ctl op t a) c = .err (.structural m) := by
  unfold validate
  rw [val_eq]
  have h2 := ha.chase
  have h3 : ∀ op, ∃ m, limitOf env op a' = .err (.structural m) := by
    intro op
    cases a' <;> try exact ⟨_, rfl⟩
    rename_i l
    cases l <;> try exact ⟨_, rfl⟩
    exact absurd rfl (hn _)
  cases op <;> simp only [valBody, validateControl, validateControlLt, validateControlLe,
    validateControlGt, validateControlGe, h2, Res.bind]
  · exact absurd rfl hop
  all_goals
    first
      | (obtain ⟨m, hm⟩ := h3 "lt"; rw [hm]; exact ⟨m, rfl⟩)
      | (obtain ⟨m, hm⟩ := h3 "le"; rw [hm]; exact ⟨m, rfl⟩)
      | (obtain ⟨m, hm⟩ := h3 "gt"; rw [hm]; exact ⟨m, rfl⟩)
      | (obtain ⟨m, hm⟩ := h3 "ge"; rw [hm]; exact ⟨m, rfl⟩)

example : Accepts (demoEnv []) top (.ctl .le (.prelude .nint) (.literal (.int (-2)))) (.integer (-2)) :=
  accepts_of_fuel 60 (by decide)
example : ¬ Accepts (demoEnv [("n", ⟨[], .literal (.int 7)⟩)]) top
    (.ctl .gt (.prelude .uint) (.rule "n" [])) (.integer 7) := by
  rw [(C09_integer_controls _ _ _ _ _ .uint 7 _ (by simp) (.here _ _ (by simp)) (by simp)
    (.rule (c' := .frame [] top 1) (n := .literal (.int 7)) rfl (.here _ _ (by simp)))).1]
  simp [Compares]

end Cddl
