import Verif.Model.Validate

/-! # Types that cannot do without certain rules -/

namespace Cddl

mutual

/-- Whatever is to match the node has, at some place, to match one of the rules `S`: they are used directly, in all
alternatives, in an entry that has to be there, or in a value to be decoded. -/
def Node.Needs (S : String → Prop) : Node → Prop
  | .rule s _ => S s
  | .unwrap s _ => S s
  | .choice l => Node.NeedsAll S l
  | .map l => Node.NeedsSome S l
  | .array l => Node.NeedsSome S l
  | .group l => Node.NeedsSome S l
  | .keyValue _ v _ => v.Needs S
  | .occur .oneOrMore n => n.Needs S
  | .occur (.numbered lo _) n => 1 ≤ lo ∧ n.Needs S
  | .ctlCbor n => n.Needs S
  | _ => False

/-- All nodes of a list. -/
def Node.NeedsAll (S : String → Prop) : List Node → Prop
  | [] => True
  | n :: ns => n.Needs S ∧ Node.NeedsAll S ns

/-- One node of a list. -/
def Node.NeedsSome (S : String → Prop) : List Node → Prop
  | [] => False
  | n :: ns => n.Needs S ∨ Node.NeedsSome S ns

end

/-- Each of the rules `S` needs one of them again.  No rule has a parameter of the same name. -/
structure Endless (S : String → Prop) (env : Env) : Prop where
  again : ∀ s rd, S s → env.lookup s = .ok rd → rd.node.Needs S
  params : ∀ s rd, env.lookup s = .ok rd → ∀ p ∈ rd.params, ¬ S p

/-- No parameter in scope has the name of one of the rules. -/
def Ctx.Clear (S : String → Prop) : Ctx → Prop
  | .root _ => True
  | .frame g past _ => (∀ p ∈ g, ¬ S p.1) ∧ past.Clear S

end Cddl
