import Verif.Spec.Grammar

/-!
# Printing syntax trees

The crate has no printer; this one is for stating that parsing loses nothing.  It writes decimal numbers,
hexadecimal byte strings, one space around operators and a comma behind every group entry.
-/

namespace Cddl

open Ast (Ty Ty1 Ty2 MemberKeyVal GrpEntVal GrpEnt Group GrpChoice RuleVal)

/-- How floats and the inside of text literals are written. -/
structure PrintExt where
  f64 : F64 → List Char
  esc : String → List Char

/-- Decimal digits of a number. -/
def decText (n : Nat) : List Char :=
  if h : n < 10 then [Nat.digitChar n] else decText (n / 10) ++ [Nat.digitChar (n % 10)]
termination_by n

/-- Two hexadecimal digits for each byte. -/
def hexText (b : List UInt8) : List Char :=
  b.flatMap fun c => [Nat.digitChar (c.toNat / 16), Nat.digitChar (c.toNat % 16)]

/-- The text of a literal. -/
def prValue (p : PrintExt) : Ast.Value → List Char
  | .uint n => decText n
  | .nint i => '-' :: decText i.natAbs
  | .float f => p.f64 f
  | .text s => '"' :: p.esc s ++ ['"']
  | .bytes b => 'h' :: '\'' :: hexText b ++ ['\'']

/-- The text of an occurrence. -/
def prOccur : OccurLimit → List Char
  | .optional => ['?']
  | .oneOrMore => ['+']
  | .zeroOrMore => ['*']
  | .numbered 0 m => '*' :: decText m
  | .numbered (n + 1) m => decText (n + 1) ++ '*' :: decText m

mutual
/-- The text of a `type2`. -/
def prTy2 (p : PrintExt) : Ty2 → List Char
  | .value v => prValue p v
  | .typename n as => prName p n as
  | .parens t => '(' :: prTy p t ++ [')']
  | .map g => '{' :: prGroup p g ++ ['}']
  | .array g => '[' :: prGroup p g ++ [']']
  | .unwrap n as => '~' :: prName p n as
  | .choiceifyInline g => '&' :: '(' :: prGroup p g ++ [')']
  | .choiceify n as => '&' :: prName p n as
/-- A name with its generic arguments. -/
def prName (p : PrintExt) (n : String) : List Ty1 → List Char
  | [] => n.toList
  | a :: as => n.toList ++ '<' :: prTy1 p a ++ prArgs p as ++ ['>']
/-- Further generic arguments. -/
def prArgs (p : PrintExt) : List Ty1 → List Char
  | [] => []
  | a :: as => ',' :: ' ' :: prTy1 p a ++ prArgs p as
/-- The text of a `type1`. -/
def prTy1 (p : PrintExt) : Ty1 → List Char
  | .simple t => prTy2 p t
  | .range a b true => prTy2 p a ++ " .. ".toList ++ prTy2 p b
  | .range a b false => prTy2 p a ++ " ... ".toList ++ prTy2 p b
  | .control a b op => prTy2 p a ++ " .".toList ++ op.toList ++ " ".toList ++ prTy2 p b
/-- The text of a type. -/
def prTy (p : PrintExt) : List Ty1 → List Char
  | [] => []
  | t :: ts => prTy1 p t ++ prAlts p ts
/-- Further alternatives. -/
def prAlts (p : PrintExt) : List Ty1 → List Char
  | [] => []
  | t :: ts => " / ".toList ++ prTy1 p t ++ prAlts p ts
/-- The text of a group. -/
def prGroup (p : PrintExt) : List (List GrpEnt) → List Char
  | [] => []
  | c :: cs => prChoice p c ++ prChoices p cs
/-- Further group choices. -/
def prChoices (p : PrintExt) : List (List GrpEnt) → List Char
  | [] => []
  | c :: cs => " // ".toList ++ prChoice p c ++ prChoices p cs
/-- The text of a group choice. -/
def prChoice (p : PrintExt) : List GrpEnt → List Char
  | [] => []
  | e :: es => prEntry p e ++ ", ".toList ++ prChoice p es
/-- The text of a group entry. -/
def prEntry (p : PrintExt) : GrpEnt → List Char
  | .mk none v => prVal p v
  | .mk (some o) v => prOccur o ++ " ".toList ++ prVal p v
/-- A group entry without its occurrence. -/
def prVal (p : PrintExt) : GrpEntVal → List Char
  | .member t => prTy p t
  | .keyed (.bareword s) _ t => s.toList ++ ": ".toList ++ prTy p t
  | .keyed (.value v) _ t => prValue p v ++ ": ".toList ++ prTy p t
  | .keyed (.type1 u) true t => prTy1 p u ++ " ^ => ".toList ++ prTy p t
  | .keyed (.type1 u) false t => prTy1 p u ++ " => ".toList ++ prTy p t
  | .groupname s => s.toList
  | .parens g => '(' :: prGroup p g ++ [')']
end

/-- Generic parameters. -/
def prParams : List String → List Char
  | [] => []
  | a :: as => '<' :: a.toList ++ (as.flatMap fun b => ',' :: ' ' :: b.toList) ++ ['>']

/-- The text of a rule. -/
def prRule (p : PrintExt) (r : Ast.Rule) : List Char :=
  r.name.toList ++ prParams r.params ++ " = ".toList ++ (match r.val with
    | .assignType t => prTy p t
    | .assignGroup e => prEntry p e) ++ "\n".toList

/-- The text of a schema. -/
def printCddl (p : PrintExt) (c : Ast.Cddl) : String := String.ofList (c.flatMap (prRule p))

/-! ## Which trees have a text -/

/-- Literals that can be written. -/
def OkValue (x : ParseExt) (p : PrintExt) : Ast.Value → Prop
  | .uint n => n < 2 ^ 64
  | .nint i => - 2 ^ 63 < i ∧ i ≤ 0
  | .float f => ValueText x true (p.f64 f) (.float f)
  | .text s => Quoted true '"' (p.esc s) ∧ x.unescape (String.ofList (p.esc s)) = some s
  | .bytes _ => True

/-- Occurrences that can be written. -/
def OkOccur : OccurLimit → Prop
  | .numbered n m => n < 2 ^ 64 ∧ m < 2 ^ 64
  | _ => True

mutual
/-- Types that can be written. -/
def OkTy2 (x : ParseExt) (p : PrintExt) : Ty2 → Prop
  | .value v => OkValue x p v
  | .typename n as => Ident n.toList ∧ OkTy1s x p as
  | .parens t => t ≠ [] ∧ OkTy1s x p t
  | .map g => g ≠ [] ∧ OkGroup x p g
  | .array g => g ≠ [] ∧ OkGroup x p g
  | .unwrap n as => Ident n.toList ∧ OkTy1s x p as
  | .choiceifyInline g => g ≠ [] ∧ OkGroup x p g
  | .choiceify n as => Ident n.toList ∧ OkTy1s x p as
def OkTy1 (x : ParseExt) (p : PrintExt) : Ty1 → Prop
  | .simple t => OkTy2 x p t
  | .range a b _ => OkTy2 x p a ∧ OkTy2 x p b
  | .control a b op => OkTy2 x p a ∧ OkTy2 x p b ∧ Ident op.toList
def OkTy1s (x : ParseExt) (p : PrintExt) : List Ty1 → Prop
  | [] => True
  | t :: ts => OkTy1 x p t ∧ OkTy1s x p ts
def OkGroup (x : ParseExt) (p : PrintExt) : List (List GrpEnt) → Prop
  | [] => True
  | c :: cs => OkChoice x p c ∧ OkGroup x p cs
def OkChoice (x : ParseExt) (p : PrintExt) : List GrpEnt → Prop
  | [] => True
  | e :: es => OkEntry x p e ∧ OkChoice x p es
def OkEntry (x : ParseExt) (p : PrintExt) : GrpEnt → Prop
  | .mk none v => OkVal x p v
  | .mk (some o) v => OkOccur o ∧ OkVal x p v
/-- A bare word or literal as key always cuts, and a name alone is a type. -/
def OkVal (x : ParseExt) (p : PrintExt) : GrpEntVal → Prop
  | .member t => t ≠ [] ∧ OkTy1s x p t
  | .keyed (.bareword s) cut t => cut = true ∧ Ident s.toList ∧ t ≠ [] ∧ OkTy1s x p t
  | .keyed (.value v) cut t => cut = true ∧ OkValue x p v ∧ t ≠ [] ∧ OkTy1s x p t
  | .keyed (.type1 u) _ t => OkTy1 x p u ∧ t ≠ [] ∧ OkTy1s x p t
  | .groupname _ => False
  | .parens g => g ≠ [] ∧ OkGroup x p g
end

/-- As the right-hand side of a rule, a group entry must begin with `?`, `+`, `*` or be a group in parentheses. -/
def RuleEntry : GrpEnt → Prop
  | .mk none (.parens _) => True
  | .mk none _ => False
  | .mk (some (.numbered n _)) _ => n = 0
  | .mk (some _) _ => True

/-- Rules that can be written. -/
def OkRule (x : ParseExt) (p : PrintExt) (r : Ast.Rule) : Prop :=
  Ident r.name.toList ∧ (∀ a ∈ r.params, Ident a.toList) ∧
    match r.val with
    | .assignType t => t ≠ [] ∧ OkTy1s x p t
    | .assignGroup e => OkEntry x p e ∧ RuleEntry e

/-- Schemas that can be written. -/
def OkCddl (x : ParseExt) (p : PrintExt) (c : Ast.Cddl) : Prop := c ≠ [] ∧ ∀ r ∈ c, OkRule x p r

/-- Whatever a literal can denote is read back from the text it is printed as.  (For text this is possible with any
`unescape`, for floats it takes a notation with an exponent.) -/
structure Writes (x : ParseExt) (p : PrintExt) : Prop where
  float : ∀ s f, ValueText x false s (.float f) → ValueText x true (p.f64 f) (.float f)
  text : ∀ s t, ValueText x false s (.text t) → Quoted true '"' (p.esc t) ∧ x.unescape (String.ofList (p.esc t)) = some t

end Cddl
