import Verif.Model.Ast

/-! # Putting other texts in place of texts, in syntax trees -/

namespace Cddl.Ast

/-- The literal with another text. -/
def Value.reword (f : String → String) : Value → Value
  | .text s => .text (f s)
  | v => v

mutual
/-- Put other texts in place of the text literals and barewords of a type.  Names of rules and parameters stay. -/
def Ty2.reword (f : String → String) : Ty2 → Ty2
  | .value v => .value (v.reword f)
  | .typename s as => .typename s (Ty1.rewords f as)
  | .parens t => .parens (Ty1.rewords f t)
  | .map g => .map (GrpEnt.rewordss f g)
  | .array g => .array (GrpEnt.rewordss f g)
  | .unwrap s as => .unwrap s (Ty1.rewords f as)
  | .choiceifyInline g => .choiceifyInline (GrpEnt.rewordss f g)
  | .choiceify s as => .choiceify s (Ty1.rewords f as)
/-- The same for a type with its range or operator.  The pattern of `.regexp` stays. -/
def Ty1.reword (f : String → String) : Ty1 → Ty1
  | .simple t => .simple (t.reword f)
  | .range a b i => .range (a.reword f) (b.reword f) i
  | .control t a op => .control (t.reword f) (if op = "regexp" then a else a.reword f) op
/-- The same for the alternatives of a type. -/
def Ty1.rewords (f : String → String) : List Ty1 → List Ty1
  | [] => []
  | t :: ts => t.reword f :: Ty1.rewords f ts
/-- The same for the alternatives of a group. -/
def GrpEnt.rewordss (f : String → String) : List (List GrpEnt) → List (List GrpEnt)
  | [] => []
  | g :: gs => GrpEnt.rewords f g :: GrpEnt.rewordss f gs
/-- The same for the entries of one alternative. -/
def GrpEnt.rewords (f : String → String) : List GrpEnt → List GrpEnt
  | [] => []
  | e :: es => e.reword f :: GrpEnt.rewords f es
/-- The same for one entry. -/
def GrpEnt.reword (f : String → String) : GrpEnt → GrpEnt
  | .mk o v => .mk o (v.reword f)
/-- The same for an entry without its occurrence. -/
def GrpEntVal.reword (f : String → String) : GrpEntVal → GrpEntVal
  | .member t => .member (Ty1.rewords f t)
  | .keyed k cut t => .keyed (k.reword f) cut (Ty1.rewords f t)
  | .groupname s => .groupname s
  | .parens g => .parens (GrpEnt.rewordss f g)
/-- The same for a key. -/
def MemberKeyVal.reword (f : String → String) : MemberKeyVal → MemberKeyVal
  | .type1 t => .type1 (t.reword f)
  | .bareword s => .bareword (f s)
  | .value v => .value (v.reword f)
end

/-- The same for the right side of a rule. -/
def RuleVal.reword (f : String → String) : RuleVal → RuleVal
  | .assignType t => .assignType (Ty1.rewords f t)
  | .assignGroup g => .assignGroup (g.reword f)

/-- The same for a schema. -/
def Cddl.reword (f : String → String) (tree : Cddl) : Cddl := tree.map fun r => ⟨r.name, r.params, r.val.reword f⟩

end Cddl.Ast
