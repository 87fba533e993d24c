import Verif.Spec.Entry

/-! # C01  Validation always returns -/

namespace Cddl

/-- C01.  For every rule lookup (any schema, recursive or not, generic or not), every value and every
rule definition: the validator returns, i.e. some finite number of recursive steps suffices and
every larger budget gives the same answer. -/
theorem C01_validation_returns (env : Env) (v : Value) (rd : RuleDef) :
    doValidate env v rd ≠ .fuel ∧ ∃ N, ∀ n, N ≤ n → doValidateF env n v rd = doValidate env v rd := by
  refine ⟨doValidate_returns env v rd, ?_⟩
  unfold doValidate doValidateF
  split
  · exact ⟨0, fun _ _ => rfl⟩
  · exact (lim_ev env).val v rd.node (.root 0)

/-- C01 for the validator at any place of a schema that the recursion limit allows. -/
theorem C01_validate_returns (env : Env) (v : Value) (n : Node) (c : Ctx) (hc : CtxOK c) :
    validate env v n c ≠ .fuel := lim_val_returns env v n hc

/-- C01 for the functions that take decoded data. -/
theorem C01_data_returns (env : Env) (rd : RuleDef) (c : Cbor) (j : Json) :
    (validateCbor env rd c ≠ .fuel ∧ ∃ N, ∀ n, N ≤ n → validateCborF env n rd c = validateCbor env rd c) ∧
    (validateJson env rd j ≠ .fuel ∧ ∃ N, ∀ n, N ≤ n → validateJsonF env n rd j = validateJson env rd j) :=
  ⟨validateCbor_fuel env rd c, validateJson_fuel env rd j⟩

/-- `t = t` : the limit ends the recursion with an error. -/
example : doValidate (demoEnv [("t", ⟨[], .rule "t" []⟩)]) .null ⟨[], .rule "t" []⟩ =
    .err (.structural "hit recursion limit") :=
  doValidate_of_fuel (k := 60) (by decide) (by decide)

/-- `g<x> = [x, g<g<x>>] / int` : a generic rule whose argument refers back to it. -/
example : doValidate (demoEnv [("g", ⟨["x"], .choice [.array [.rule "x" [],
      .rule "g" [.rule "g" [.rule "x" []]]], .prelude .int]⟩)])
    (.array [.null, .integer 3]) ⟨[], .rule "g" [.prelude .nil]⟩ = .ok () :=
  doValidate_of_fuel (k := 60) (by decide) (by decide)

end Cddl
