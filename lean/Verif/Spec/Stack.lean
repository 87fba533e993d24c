import Verif.Model.Validate

/-! # Contexts stacked upon each other -/

namespace Cddl

/-- A context (`LookupContext`, /repo/src/context.rs:21-24) as the validator sees it. -/
abbrev Lookup := String → Except Err RuleDef

/-- A context that asks `a` first, and `b` for what `a` does not have. -/
def Lookup.over (a b : Lookup) : Lookup := fun s =>
  match a s with
  | .error (.missingRule _) => b s
  | r => r

end Cddl
