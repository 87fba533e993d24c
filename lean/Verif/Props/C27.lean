import Verif.Proofs.Uses

/-! # C27  Missing rules are reported by name -/

namespace Cddl

/-- C27.  Wherever validation comes to use a name that is neither a parameter nor a rule of the table, the
result is `MissingRule` with exactly that name. -/
theorem C27_missing_rule (env : Env) (t : RuleTable) (c : Ctx) (s : String) (as : List Node) (v : Value) (n : Node)
    (hp : c.param s = none) (hs : ∀ d, (s, d) ∉ t) (h : FirstUse s as v n) :
    validate { env with lookup := t.lookup } v n c = .err (.missingRule s) := by
  refine firstUse_err rfl ?_ h
  rw [lookupRule_global hp]
  have : t.find s = none := by
    induction t with
    | nil => rfl
    | cons p t ih =>
      obtain ⟨k, d⟩ := p
      simp only [List.mem_cons, not_or] at hs
      have h1 : ¬ k = s := fun hk => (hs d).1 (by rw [hk])
      simp [RuleTable.find, ih fun d => (hs d).2, h1]
  simp [RuleTable.lookup, this, Except.bind]

/-- C27 for an arbitrary lookup: its error is passed on unchanged. -/
theorem C27_lookup_error (env : Env) (c : Ctx) (s : String) (as : List Node) (v : Value) (n : Node) (e : Err)
    (hp : c.param s = none) (hs : env.lookup s = .error e) (he : e.isFatal = true) (h : FirstUse s as v n) :
    validate env v n c = .err e := by
  refine firstUse_err he ?_ h
  rw [lookupRule_global hp]
  simp [hs, Except.bind]

example : validate (demoEnv [("a", ⟨[], .prelude .int⟩)]) (.map []) (.map [.unwrap "b" [], .rule "a" []]) top
    = .err (.missingRule "b") :=
  C27_missing_rule (demoEnv []) [("a", ⟨[], .prelude .int⟩)] top "b" [] _ _ rfl (by simp) (.mapUnwrap _ _)

end Cddl
