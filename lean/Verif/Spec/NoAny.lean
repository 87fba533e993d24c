import Verif.Model.Validate

/-! # Schemas that do not mention `any`, and how deeply they are nested -/

namespace Cddl

mutual
/-- Nothing that data is matched with is `any`, except for the operands of ranges and of `.size`, `.lt` and so on. -/
def Node.noAny : Node → Bool
  | .prelude .any => false
  | .rule _ as | .unwrap _ as | .choiceify _ as => Node.noAnyL as
  | .choice l | .map l | .array l | .group l | .choiceifyInline l => Node.noAnyL l
  | .keyValue k v _ => k.noAny && v.noAny
  | .occur _ n | .ctlCbor n => n.noAny
  | _ => true
/-- None of these. -/
def Node.noAnyL : List Node → Bool
  | [] => true
  | n :: ns => n.noAny && Node.noAnyL ns
end

/-- No rule of the table mentions `any`. -/
def RuleTable.noAny (t : RuleTable) : Bool := t.all fun r => r.2.node.noAny

mutual
/-- How deeply arrays and maps are nested in this part of a rule, not counting what stands behind names. -/
def Node.brackets : Node → Nat
  | .array l | .map l => Node.bracketsL l + 1
  | .choice l | .group l | .choiceifyInline l => Node.bracketsL l
  | .keyValue k v _ => max k.brackets v.brackets
  | .occur _ n => n.brackets
  | _ => 0
/-- The most of these. -/
def Node.bracketsL : List Node → Nat
  | [] => 0
  | n :: ns => max n.brackets (Node.bracketsL ns)
end

/-- The most of all rules. -/
def RuleTable.brackets (t : RuleTable) : Nat := (t.map fun r => r.2.node.brackets).foldr max 0

end Cddl
