import Verif.Spec.Demo
import Verif.Proofs.Safe

/-! # C03  Internal cut errors never escape -/

namespace Cddl

/-- C03.  With a rule lookup that does not itself return `MapCut`, validation never returns it. -/
theorem C03_no_mapCut (env : Env) (v : Value) (rd : RuleDef) (hv : v.WF)
    (hl : ∀ s m, env.lookup s ≠ .error (.mapCut m)) (m : String) :
    doValidate env v rd ≠ .err (.mapCut m) := by
  unfold doValidate
  split
  · simp
  · intro h
    have hE : OkErr env fun e => ∀ m, e ≠ .mapCut m :=
      ⟨fun _ h => h, fun s e he m hm => hl s m (hm ▸ he)⟩
    have := (lim_good hE).val v rd.node (.root 0) hv
    rw [h] at this
    exact this m rfl

/-- C03 for the standard context, whose lookup reports `MissingRule`. -/
theorem C03_no_mapCut_table (env : Env) (t : RuleTable) (ht : env.lookup = t.lookup) (v : Value)
    (rd : RuleDef) (hv : v.WF) (m : String) : doValidate env v rd ≠ .err (.mapCut m) := by
  refine C03_no_mapCut env v rd hv (fun s m => ?_) m
  rw [ht]
  unfold RuleTable.lookup
  split <;> simp

/-- A cut that fires is reported as a plain mismatch. -/
example : doValidate (demoEnv []) (.map [(.text "a", .null)])
    ⟨[], .map [.occur .optional (.keyValue (.literal (.text "a")) (.prelude .int) true),
      .occur .zeroOrMore (.keyValue (.prelude .tstr) (.prelude .any) false)]⟩ =
    .err (.mismatch "int") :=
  doValidate_of_fuel (k := 60) (by decide) (by decide)

end Cddl
