import Verif.Model.Ivt

/-!
# Abstract syntax tree

Models /repo/src/ast.rs.
-/

namespace Cddl.Ast

/-- `ast::Value`, /repo/src/ast.rs:13-25.  `u64` and `i64` are unbounded here; a parsed schema only
has values within 64 bits (C41). -/
inductive Value
  | text (s : String)
  | uint (n : Nat)
  | nint (i : Int)
  | float (f : F64)
  | bytes (b : List UInt8)
  deriving DecidableEq, Repr

mutual
/-- `Type2`, /repo/src/ast.rs:159-168.  `NameGeneric` (l.134-139) is inlined as name and arguments;
`Type` (l.223) is the list of its choices, `Group` (l.117) the list of its group choices, `GrpChoice` (l.105)
the list of its entries. -/
inductive Ty2
  | value (v : Value)
  | typename (name : String) (args : List Ty1)
  | parens (t : List Ty1)
  | map (g : List (List GrpEnt))
  | array (g : List (List GrpEnt))
  | unwrap (name : String) (args : List Ty1)
  | choiceifyInline (g : List (List GrpEnt))
  | choiceify (name : String) (args : List Ty1)
/-- `Type1`, /repo/src/ast.rs:177-184, with `TypeRange` (l.192-196) and `TypeControl` (l.205-209) inlined. -/
inductive Ty1
  | simple (t : Ty2)
  | range (start stop : Ty2) (inclusive : Bool)
  | control (target arg : Ty2) (op : String)
/-- `MemberKeyVal`, /repo/src/ast.rs:30-37. -/
inductive MemberKeyVal
  | type1 (t : Ty1)
  | bareword (s : String)
  | value (v : Value)
/-- `GrpEntVal`, /repo/src/ast.rs:75-79.  `Member` (l.57-60) is split into `member` (key `None`) and `keyed`
(key `Some(MemberKey { val, cut })`, l.47-52). -/
inductive GrpEntVal
  | member (value : List Ty1)
  | keyed (key : MemberKeyVal) (cut : Bool) (value : List Ty1)
  | groupname (s : String)
  | parens (g : List (List GrpEnt))
/-- `GrpEnt`, /repo/src/ast.rs:94-97. -/
inductive GrpEnt
  | mk (occur : Option OccurLimit) (val : GrpEntVal)
end

deriving instance Repr for Ty2, Ty1, MemberKeyVal, GrpEntVal, GrpEnt
deriving instance Inhabited for Ty2, Ty1

/-- `Type`, /repo/src/ast.rs:222-223. -/
abbrev Ty := List Ty1
/-- `GrpChoice`, /repo/src/ast.rs:104-105. -/
abbrev GrpChoice := List GrpEnt
/-- `Group`, /repo/src/ast.rs:116-117. -/
abbrev Group := List GrpChoice

/-- `RuleVal`, /repo/src/ast.rs:259-265. -/
inductive RuleVal
  | assignType (t : Ty)
  | assignGroup (g : GrpEnt)
  deriving Repr

/-- `Rule`, /repo/src/ast.rs:239-246. -/
structure Rule where
  name : String
  params : List String
  val : RuleVal
  deriving Repr

/-- `Cddl`, /repo/src/ast.rs:272-275. -/
abbrev Cddl := List Rule

/-- `CddlSlice`, /repo/src/ast.rs:284-287. -/
abbrev CddlSlice := List (Rule × String)

end Cddl.Ast
