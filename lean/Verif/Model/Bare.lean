import Verif.Model.Validate

/-!
# The validator built without the feature `ciborium`

The only function of /repo/src/validate.rs that depends on a feature is `validate_control_cbor` (l.1059-1082).
Model/Validate.lean has the version with the feature `ciborium`, which is on by default; this is the other one.
-/

namespace Cddl

/-- `validate` without the feature: `validate_control_cbor` is the function of /repo/src/validate.rs:1059-1064, which looks
at neither its argument nor the value. -/
def valBodyBare (env : Env) (self : Rec) (v : Value) (node : Node) (ctx : Ctx) : Res Unit :=
  match node with
  | .ctlCbor _ => .err (.unsupported "'.cbor' control operator; enable ciborium feature to support.")
  | n => valBody env self v n ctx

/-- All recursive functions, without the feature. -/
def stepBare (env : Env) (self : Rec) : Rec := { step env self with val := valBodyBare env self }

/-- The validator without the feature, with step budget `n`. -/
def fnsBare (env : Env) : Nat → Rec
  | 0 => Rec.bot
  | n + 1 => stepBare env (fnsBare env n)

/-- `do_validate`, /repo/src/validate.rs:141-159, without the feature and with a step budget. -/
def doValidateBareF (env : Env) (n : Nat) (v : Value) (rd : RuleDef) : Res Unit :=
  if rd.params ≠ [] then .err .genericError
  else (fnsBare env n).val v rd.node (.root 0)

end Cddl
