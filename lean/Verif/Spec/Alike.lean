import Verif.Spec.All2
import Verif.Model.Validate
import Verif.Model.Parse

/-! # Data that the literals of a schema do not tell apart -/

namespace Cddl

mutual
/-- The literals in a node. -/
def Node.lits : Node → List Literal
  | .literal l => [l]
  | .prelude _ => []
  | .rule _ args => Node.litsL args
  | .choice l => Node.litsL l
  | .map l => Node.litsL l
  | .array l => Node.litsL l
  | .group l => Node.litsL l
  | .keyValue k v _ => Node.lits k ++ Node.lits v
  | .occur _ n => Node.lits n
  | .unwrap _ args => Node.litsL args
  | .range a b _ => Node.lits a ++ Node.lits b
  | .ctl _ a b => Node.lits a ++ Node.lits b
  | .ctlRegexp _ => []
  | .ctlCbor n => Node.lits n
  | .choiceify _ args => Node.litsL args
  | .choiceifyInline l => Node.litsL l
/-- The literals in nodes. -/
def Node.litsL : List Node → List Literal
  | [] => []
  | n :: ns => Node.lits n ++ Node.litsL ns
end

/-- All literals in the node are among `S`. -/
def Node.Over (S : Literal → Prop) (n : Node) : Prop := ∀ l ∈ n.lits, S l

/-- The same for all rules. -/
def Env.Over (S : Literal → Prop) (env : Env) : Prop := ∀ s rd, env.lookup s = .ok rd → rd.node.Over S

/-- The arguments in a scope. -/
def Ctx.Over (S : Literal → Prop) : Ctx → Prop
  | .root _ => True
  | .frame g past _ => (∀ p ∈ g, p.2.Over S) ∧ past.Over S

/-- Data that differs only in negative integers and in floats, and there so that no literal of `S` lies at or between
the two.  (Floats are compared both as numbers and in the total order of their bits.) -/
inductive Alike (S : Literal → Prop) : Value → Value → Prop
  | same (v : Value) : Alike S v v
  | integer {i j : Int} : i < 0 → j < 0 → (∀ k, S (.int k) → (k = i ↔ k = j) ∧ (k < i ↔ k < j)) →
      Alike S (.integer i) (.integer j)
  | float {f g : F64} : (∀ h, S (.float h) → (h = f ↔ h = g) ∧ (h.ordKey < f.ordKey ↔ h.ordKey < g.ordKey) ∧
        f.lt h = g.lt h ∧ f.le h = g.le h) → Alike S (.float f) (.float g)
  | array {xs ys : List Value} : All2 (Alike S) xs ys → Alike S (.array xs) (.array ys)
  | map {m m' : List (Value × Value)} : All2 (Alike S) (m.map Prod.fst) (m'.map Prod.fst) →
      All2 (Alike S) (m.map Prod.snd) (m'.map Prod.snd) → Alike S (.map m) (.map m')

/-- The literals that can be written in a schema text. -/
def Writable (x : ParseExt) : Literal → Prop
  | .int k => -2 ^ 63 < k ∧ k < 2 ^ 64
  | .float f => ∃ s, x.parseF64 s = some f
  | _ => True

end Cddl
