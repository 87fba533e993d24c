import Verif.Model.Validate

/-! # The size of schemas -/

namespace Cddl

mutual
/-- Size of a node; references weigh one more than what they bind. -/
def Node.size : Node → Nat
  | .literal _ => 1
  | .prelude _ => 1
  | .rule _ args => 2 + Node.sizes args
  | .choice l => 1 + Node.sizes l
  | .map l => 1 + Node.sizes l
  | .array l => 1 + Node.sizes l
  | .group l => 1 + Node.sizes l
  | .keyValue k v _ => 1 + Node.size k + Node.size v
  | .occur _ n => 1 + Node.size n
  | .unwrap _ args => 2 + Node.sizes args
  | .range a b _ => 1 + Node.size a + Node.size b
  | .ctl _ a b => 1 + Node.size a + Node.size b
  | .ctlRegexp _ => 1
  | .ctlCbor n => 1 + Node.size n
  | .choiceify _ args => 2 + Node.sizes args
  | .choiceifyInline l => 1 + Node.sizes l
/-- Sum of sizes. -/
def Node.sizes : List Node → Nat
  | [] => 0
  | n :: ns => Node.size n + Node.sizes ns
end

/-- The rules that can be looked up have at most size `S`. -/
def Env.Within (env : Env) (S : Nat) : Prop := ∀ s rd, env.lookup s = .ok rd → rd.node.size ≤ S

/-- The size of the largest rule. -/
def RuleTable.size (t : RuleTable) : Nat := (t.map fun r => r.2.node.size).foldr max 0

end Cddl
