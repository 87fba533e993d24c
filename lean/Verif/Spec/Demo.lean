import Verif.Proofs.Term

/-! # Shared vocabulary of the property theorems, and a concrete environment for the examples -/

namespace Cddl

/-- The validator at an arbitrary place of a schema: `validate`, /repo/src/validate.rs:318-335, without a
step budget (C01 shows that it returns). -/
noncomputable def validate (env : Env) (v : Value) (n : Node) (c : Ctx) : Res Unit := (lim env).val v n c

/-- `v` is accepted by `n` in scope `c`. -/
def Accepts (env : Env) (c : Ctx) (n : Node) (v : Value) : Prop := validate env v n c = .ok ()

/-- `v` is rejected by `n` with a (non-fatal) data mismatch. -/
def Mismatches (env : Env) (c : Ctx) (n : Node) (v : Value) : Prop :=
  ∃ e, validate env v n c = .err e ∧ e.isFatal = false

/-- The scope in which a rule body is validated by the public entry points. -/
abbrev top : Ctx := .root 0

theorem doValidate_plain (env : Env) (v : Value) (n : Node) :
    doValidate env v ⟨[], n⟩ = validate env v n top := by
  simp [doValidate, validate, top]

/-- An environment for examples: the given rules, no regular expression matches, nothing decodes. -/
def demoEnv (t : RuleTable) : Env :=
  ⟨t.lookup, fun _ _ => false, fun _ => .error "bad", fun _ => "f"⟩

/-- Evaluate a concrete call of the model. -/
theorem validate_of_fuel {env : Env} (k : Nat) {v : Value} {n : Node} {c : Ctx} {r : Res Unit}
    (h : (fns env k).val v n c = r ∧ r ≠ .fuel) : validate env v n c = r :=
  lim_val_of_fns h.1 h.2

theorem accepts_of_fuel {env : Env} (k : Nat) {v : Value} {n : Node} {c : Ctx}
    (h : (fns env k).val v n c = .ok ()) : Accepts env c n v :=
  lim_val_of_fns h (by simp)

theorem val_eq (env : Env) (v : Value) (n : Node) (c : Ctx) :
    (lim env).val v n c = valBody env (lim env) v n c :=
  congrArg (fun r : Rec => r.val v n c) (lim_eq env)

theorem arr_eq (env : Env) (n : Node) (w : WArr) (c : Ctx) :
    (lim env).arr n w c = arrBody env (lim env) n w c :=
  congrArg (fun r : Rec => r.arr n w c) (lim_eq env)

theorem map_eq (env : Env) (n : Node) (w : WMap) (c : Ctx) :
    (lim env).map n w c = mapBody env (lim env) n w c :=
  congrArg (fun r : Rec => r.map n w c) (lim_eq env)

theorem chf_eq (env : Env) (s : String) (l : List Node) (v : Value) (c : Ctx) :
    (lim env).chf s l v c = chfBody env (lim env) s l v c :=
  congrArg (fun r : Rec => r.chf s l v c) (lim_eq env)

theorem mchf_eq (env : Env) (s : String) (l : List Node) (w : WMap) (c : Ctx) :
    (lim env).mchf s l w c = mchfBody env (lim env) s l w c :=
  congrArg (fun r : Rec => r.mchf s l w c) (lim_eq env)

theorem deref_eq (env : Env) (n : Node) (c : Ctx) :
    (lim env).deref n c = derefBody env (lim env) n c :=
  congrArg (fun r : Rec => r.deref n c) (lim_eq env)

theorem chase_eq (env : Env) (n : Node) (c : Ctx) :
    (lim env).chase n c = chaseBody env (lim env) n c :=
  congrArg (fun r : Rec => r.chase n c) (lim_eq env)

end Cddl
