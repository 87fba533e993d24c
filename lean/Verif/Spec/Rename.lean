import Verif.Spec.Syntax
import Verif.Spec.Cong

/-! # Renaming rules and parameters in a schema -/

namespace Cddl.Ast

mutual
/-- Rename every use of a rule or parameter in a type.  Barewords are keys, not names. -/
def Ty2.rename (f : String → String) : Ty2 → Ty2
  | .value v => .value v
  | .typename s as => .typename (f s) (Ty1.renames f as)
  | .parens t => .parens (Ty1.renames f t)
  | .map g => .map (GrpEnt.renamess f g)
  | .array g => .array (GrpEnt.renamess f g)
  | .unwrap s as => .unwrap (f s) (Ty1.renames f as)
  | .choiceifyInline g => .choiceifyInline (GrpEnt.renamess f g)
  | .choiceify s as => .choiceify (f s) (Ty1.renames f as)
/-- The same for a type with its range or operator. -/
def Ty1.rename (f : String → String) : Ty1 → Ty1
  | .simple t => .simple (t.rename f)
  | .range a b i => .range (a.rename f) (b.rename f) i
  | .control t a op => .control (t.rename f) (a.rename f) op
/-- The same for the alternatives of a type. -/
def Ty1.renames (f : String → String) : List Ty1 → List Ty1
  | [] => []
  | t :: ts => t.rename f :: Ty1.renames f ts
/-- The same for the alternatives of a group. -/
def GrpEnt.renamess (f : String → String) : List (List GrpEnt) → List (List GrpEnt)
  | [] => []
  | g :: gs => GrpEnt.renames f g :: GrpEnt.renamess f gs
/-- The same for the entries of one alternative. -/
def GrpEnt.renames (f : String → String) : List GrpEnt → List GrpEnt
  | [] => []
  | e :: es => e.rename f :: GrpEnt.renames f es
/-- The same for one entry. -/
def GrpEnt.rename (f : String → String) : GrpEnt → GrpEnt
  | .mk o v => .mk o (v.rename f)
/-- The same for an entry without its occurrence. -/
def GrpEntVal.rename (f : String → String) : GrpEntVal → GrpEntVal
  | .member t => .member (Ty1.renames f t)
  | .keyed k cut t => .keyed (k.rename f) cut (Ty1.renames f t)
  | .groupname s => .groupname (f s)
  | .parens g => .parens (GrpEnt.renamess f g)
/-- The same for a key. -/
def MemberKeyVal.rename (f : String → String) : MemberKeyVal → MemberKeyVal
  | .type1 t => .type1 (t.rename f)
  | .bareword s => .bareword s
  | .value v => .value v
end

/-- Rename every use of a rule or parameter on the right of a rule. -/
def RuleVal.rename (f : String → String) : RuleVal → RuleVal
  | .assignType t => .assignType (Ty1.renames f t)
  | .assignGroup g => .assignGroup (g.rename f)

/-- The names by which a rule refers to other rules: those it uses that are not its parameters. -/
def Rule.free (r : Rule) : List String := r.names.filter fun a => a ∉ r.params

/-- `r'` is `r` with its own name changed by `f` and the names inside it changed by some `g`, which keeps different names
different, agrees with `f` on everything but parameters, and neither changes names of the prelude nor introduces them. -/
def Rule.Alpha (f : String → String) (r r' : Rule) : Prop :=
  ∃ g : String → String, r' = ⟨f r.name, r.params.map g, r.val.rename g⟩ ∧
    (∀ a ∈ r.params ++ r.names, ∀ b ∈ r.params ++ r.names, g a = g b → a = b) ∧
    (∀ a ∈ r.free, g a = f a) ∧
    ∀ a ∈ r.names, (¬ UserName a → g a = a) ∧ (UserName a → UserName (g a))

end Cddl.Ast

namespace Cddl

mutual
/-- Rename every use of a rule or parameter in a translated type. -/
def Node.rename (f : String → String) : Node → Node
  | .literal l => .literal l
  | .prelude p => .prelude p
  | .ctlRegexp r => .ctlRegexp r
  | .rule s as => .rule (f s) (Node.renames f as)
  | .choice l => .choice (Node.renames f l)
  | .map l => .map (Node.renames f l)
  | .array l => .array (Node.renames f l)
  | .group l => .group (Node.renames f l)
  | .keyValue k v cut => .keyValue (k.rename f) (v.rename f) cut
  | .occur o n => .occur o (n.rename f)
  | .unwrap s as => .unwrap (f s) (Node.renames f as)
  | .range a b i => .range (a.rename f) (b.rename f) i
  | .ctl o a b => .ctl o (a.rename f) (b.rename f)
  | .ctlCbor n => .ctlCbor (n.rename f)
  | .choiceify s as => .choiceify (f s) (Node.renames f as)
  | .choiceifyInline l => .choiceifyInline (Node.renames f l)
/-- The same for a list. -/
def Node.renames (f : String → String) : List Node → List Node
  | [] => []
  | n :: ns => n.rename f :: Node.renames f ns
end

/-- Rename a definition and its parameters. -/
def RuleDef.rename (f : String → String) (d : RuleDef) : RuleDef := ⟨d.params.map f, d.node.rename f⟩

/-- `tree'` is `tree` with its rules renamed by `f` and the parameters of each rule renamed in any way.  Names of different
rules stay different; a name that is not defined stays as it is. -/
structure Renaming (f : String → String) (tree tree' : Ast.Cddl) : Prop where
  rules : All2 (Ast.Rule.Alpha f) tree tree'
  apart : ∀ r ∈ tree, ∀ a ∈ r.name :: r.free, ∀ q ∈ tree, ∀ b ∈ q.name :: q.free, f a = f b → a = b
  missing : ∀ r ∈ tree, ∀ a ∈ r.free, (∀ q ∈ tree, q.name ≠ a) → f a = a

end Cddl
