import Verif.Spec.Outside
import Verif.Spec.Syntax

/-! # What a schema is written with -/

namespace Cddl

open Ast (Ty Ty1 Ty2 MemberKeyVal GrpEntVal GrpEnt Group GrpChoice RuleVal)

/-- The characters of CDDL outside of literals and comments (RFC 8610 appendix B), apart from those of tags (`#`):
white space, what names and numbers are written with, punctuation, and what literals and comments begin with. -/
def CodeChar (c : Char) : Prop :=
  Blank c ∨ EAlpha c ∨ Digit c ∨
    c ∈ ['-', '+', '.', '(', ')', '[', ']', '{', '}', '<', '>', ',', ':', '?', '*', '^', '&', '~', '/', '=', '"', '\'', ';']

instance (c : Char) : Decidable (CodeChar c) := by unfold CodeChar Blank EAlpha Digit; infer_instance

/-- The control operators listed as supported in /repo/src/lib.rs:106. -/
def supportedOps : List String := ["cbor", "size", "lt", "le", "gt", "ge", "regexp"]

/-- The names of the prelude of RFC 8610 (appendix D) that stand for one tag, with the type of what the tag encloses,
without `time`, for which see `unsupportedNames`. -/
def taggedNames : List (String × PreludeType) :=
  [("tdate", .tstr), ("biguint", .bstr), ("bignint", .bstr), ("eb64url", .any), ("eb64legacy", .any), ("eb16", .any),
   ("encoded-cbor", .bstr), ("uri", .tstr), ("b64url", .tstr), ("b64legacy", .tstr), ("regexp", .tstr),
   ("mime-message", .tstr), ("cbor-any", .any)]

mutual
/-- The control operators in a `type2`. -/
def Ast.ops2 : Ty2 → List String
  | .value _ => []
  | .typename _ args => Ast.ops1s args
  | .parens t => Ast.ops1s t
  | .map g => Ast.opsGroup g
  | .array g => Ast.opsGroup g
  | .unwrap _ args => Ast.ops1s args
  | .choiceifyInline g => Ast.opsGroup g
  | .choiceify _ args => Ast.ops1s args
/-- The control operators in a `type1`. -/
def Ast.ops1 : Ty1 → List String
  | .simple t => Ast.ops2 t
  | .range a b _ => Ast.ops2 a ++ Ast.ops2 b
  | .control a b op => op :: (Ast.ops2 a ++ Ast.ops2 b)
/-- The control operators in a list of types. -/
def Ast.ops1s : List Ty1 → List String
  | [] => []
  | t :: ts => Ast.ops1 t ++ Ast.ops1s ts
/-- The control operators in a key. -/
def Ast.opsKey : MemberKeyVal → List String
  | .type1 t => Ast.ops1 t
  | .bareword _ => []
  | .value _ => []
/-- The control operators in a group entry without its occurrence. -/
def Ast.opsEntryVal : GrpEntVal → List String
  | .member t => Ast.ops1s t
  | .keyed k _ t => Ast.opsKey k ++ Ast.ops1s t
  | .groupname _ => []
  | .parens g => Ast.opsGroup g
/-- The control operators in a group entry. -/
def Ast.opsEntry : GrpEnt → List String
  | .mk _ v => Ast.opsEntryVal v
/-- The control operators in a list of group entries. -/
def Ast.opsEntries : List GrpEnt → List String
  | [] => []
  | e :: es => Ast.opsEntry e ++ Ast.opsEntries es
/-- The control operators in a group. -/
def Ast.opsGroup : List (List GrpEnt) → List String
  | [] => []
  | c :: cs => Ast.opsEntries c ++ Ast.opsGroup cs
end

/-- The control operators in a rule. -/
def Ast.Rule.ops (r : Ast.Rule) : List String :=
  match r.val with
  | .assignType t => Ast.ops1s t
  | .assignGroup e => Ast.opsEntry e

end Cddl
