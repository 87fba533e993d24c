import Verif.Spec.Demo

/-! # Map members with literal keys -/

namespace Cddl

/-- A map member with a literal key, written `key: type`, `key => type`, `? key: type` or
`? key => type`. -/
structure Field where
  key : Literal
  type : Node
  optional : Bool
  cut : Bool

/-- The member as a node. -/
def Field.node (f : Field) : Node :=
  if f.optional then .occur .optional (.keyValue (.literal f.key) f.type f.cut)
  else .keyValue (.literal f.key) f.type f.cut

/-- The map has all required keys, no unknown keys, and accepted values. -/
def RecordSat (env : Env) (c : Ctx) (fs : List Field) (m : VMap) : Prop :=
  (∀ f ∈ fs, f.optional = false → ∃ v, (f.key.toValue, v) ∈ m) ∧
  (∀ f ∈ fs, ∀ v, (f.key.toValue, v) ∈ m → Accepts env c f.type v) ∧
  (∀ k v, (k, v) ∈ m → ∃ f ∈ fs, f.key.toValue = k)

end Cddl
