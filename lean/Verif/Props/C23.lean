import Verif.Proofs.Uses

/-! # C23  Generic arity -/

namespace Cddl

/-- C23.  Wherever validation comes to use a rule with a number of arguments different from its number
of parameters, the result is `GenericError`, whatever the data. -/
theorem C23_wrong_arity (env : Env) (c : Ctx) (s : String) (as : List Node) (d : RuleDef) (v : Value) (n : Node)
    (hp : c.param s = none) (hl : env.lookup s = .ok d) (ha : d.params.length ≠ as.length)
    (h : FirstUse s as v n) : validate env v n c = .err .genericError := by
  refine firstUse_err rfl ?_ h
  rw [lookupRule_global hp]
  simp [hl, Except.bind, Ctx.derive, ha]

/-- C23.  Conversely a matching number of arguments is never the cause of `GenericError`: resolving the name
then fails only at the recursion limit. -/
theorem C23_right_arity (env : Env) (c : Ctx) (s : String) (as : List Node) (d : RuleDef)
    (hp : c.param s = none) (hl : env.lookup s = .ok d) (ha : d.params.length = as.length) (v : Value) :
    (c.depth < 50 ∧ validate env v (.rule s as) c = validate env v d.node (.frame (d.params.zip as) c (c.depth + 1))) ∨
    (50 ≤ c.depth ∧ validate env v (.rule s as) c = .err (.structural "hit recursion limit")) := by
  have e := lookupRule_global (env := env) (as := as) hp
  by_cases hd : c.depth ≥ maxDepth
  · refine .inr ⟨hd, firstUse_err rfl ?_ (.rule v)⟩
    rw [e]
    simp [hl, Except.bind, Ctx.derive, ha, Ctx.incDepth, hd]
  · refine .inl ⟨by simp only [maxDepth] at hd; omega, ?_⟩
    have : c.lookupRule env s as = .ok (d.node, .frame (d.params.zip as) c (c.depth + 1)) := by
      rw [e]
      simp [hl, Except.bind, Ctx.derive, ha, Ctx.incDepth, hd]
    unfold validate
    rw [val_eq]
    simp only [valBody, validateRule, this, Res.ofExcept, Res.bind]

/-- C23.  Validating directly against a rule that has parameters is always `GenericError`. -/
theorem C23_direct (env : Env) (v : Value) (d : RuleDef) (h : d.params ≠ []) :
    doValidate env v d = .err .genericError := by
  simp [doValidate, h]

/-- `pair<a, b>` used as `pair<int>` inside `[1* pair<int>]` and as a choice. -/
example : let env := demoEnv [("pair", ⟨["a", "b"], .array [.rule "a" [], .rule "b" []]⟩)]
    ∀ xs, validate env (.array xs) (.array [.occur .oneOrMore (.rule "pair" [.prelude .int])]) top
      = .err .genericError :=
  fun xs => C23_wrong_arity _ _ "pair" [.prelude .int] _ _ _ rfl rfl (by decide) (.arrayOccur _ _ _)

example : doValidate (demoEnv []) .null ⟨["a"], .rule "a" []⟩ = .err .genericError :=
  C23_direct _ _ _ (by simp)

end Cddl
