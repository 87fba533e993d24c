import Verif.Model.Value

/-!
# Intermediate validation tree

Models /repo/src/ivt.rs (and `ast::Occur`).
-/

namespace Cddl

/-- `usize::MAX` on a 64-bit target. -/
def usizeMax : Nat := 2 ^ 64 - 1

/-- `PreludeType`, /repo/src/ivt.rs:50-71. -/
inductive PreludeType
  | any | nil | bool | int | uint | nint | float | tstr | bstr
  deriving DecidableEq, Repr

/-- `Display` of `PreludeType` (strum: the variant name), /repo/src/ivt.rs:50-71. -/
def PreludeType.display : PreludeType → String
  | .any => "Any"
  | .nil => "Nil"
  | .bool => "Bool"
  | .int => "Int"
  | .uint => "Uint"
  | .nint => "Nint"
  | .float => "Float"
  | .tstr => "Tstr"
  | .bstr => "Bstr"

/-- `Literal`, /repo/src/ivt.rs:74-83. -/
inductive Literal
  | bool (b : Bool)
  | int (i : Int)
  | float (f : F64)
  | text (s : String)
  | bytes (b : List UInt8)
  deriving DecidableEq, Repr

/-- `Display` of `Literal`, /repo/src/ivt.rs:85-97; float printing is the parameter `fmtF64`. -/
def Literal.display (fmtF64 : F64 → String) : Literal → String
  | .bool b => if b then "true" else "false"
  | .int i => toString i
  | .float f => fmtF64 f
  | .text s => "\"" ++ s ++ "\""
  | .bytes _ => "LiteralBytes"

/-- `ast::Occur` = `ivt::OccurLimit`, /repo/src/ast.rs:62-70, /repo/src/ivt.rs:238. -/
inductive OccurLimit
  | optional
  | zeroOrMore
  | oneOrMore
  | numbered (n m : Nat)
  deriving DecidableEq, Repr

/-- `Occur::symbol`, /repo/src/ivt.rs:263-273. -/
def OccurLimit.symbol : OccurLimit → String
  | .optional => "?"
  | .zeroOrMore => "*"
  | .oneOrMore => "+"
  | .numbered n m =>
    if n = 0 ∧ m = usizeMax then toString n ++ "*" else toString n ++ "*" ++ toString m

/-- `Occur::limits`, /repo/src/ivt.rs:284-291. -/
def OccurLimit.limits : OccurLimit → Nat × Nat
  | .optional => (0, 1)
  | .zeroOrMore => (0, usizeMax)
  | .oneOrMore => (1, usizeMax)
  | .numbered n m => (n, m)

/-- The control operators with a target and an argument: `Control::{Size,Lt,Le,Gt,Ge}`,
/repo/src/ivt.rs:376-503. -/
inductive CtlOp
  | size | lt | le | gt | ge
  deriving DecidableEq, Repr

/-- `Node`, /repo/src/ivt.rs:537-554.  `Rule { name, generic_args }` (l.131-134) is inlined in
`rule`, `unwrap` and `choiceify`; `Choice`, `Map`, `Array`, `Group`, `KeyValue`, `Occur`, `Range`
structs are inlined; `Control` is split into `ctl` (the five operators with target and argument),
`ctlRegexp` (the compiled regex is represented by its pattern text) and `ctlCbor`. -/
inductive Node
  | literal (l : Literal)
  | prelude (p : PreludeType)
  | rule (name : String) (args : List Node)
  | choice (options : List Node)
  | map (members : List Node)
  | array (members : List Node)
  | group (members : List Node)
  | keyValue (key value : Node) (cut : Bool)
  | occur (limit : OccurLimit) (node : Node)
  | unwrap (name : String) (args : List Node)
  | range (start stop : Node) (inclusive : Bool)
  | ctl (op : CtlOp) (target arg : Node)
  | ctlRegexp (pattern : String)
  | ctlCbor (node : Node)
  | choiceify (name : String) (args : List Node)
  | choiceifyInline (members : List Node)
  deriving Repr, Inhabited

/-- `Display` of `Node`, /repo/src/ivt.rs:556-568 (and `KeyValue`, l.209-213). -/
def Node.display (fmtF64 : F64 → String) : Node → String
  | .literal l => l.display fmtF64
  | .prelude p => p.display
  | .keyValue k v _ => Node.display fmtF64 k ++ ": " ++ Node.display fmtF64 v
  | .rule .. => "Rule"
  | .choice _ => "Choice"
  | .map _ => "Map"
  | .array _ => "Array"
  | .group _ => "Group"
  | .occur .. => "Occur"
  | .unwrap .. => "Unwrap"
  | .range .. => "Range"
  | .ctl .. => "Control"
  | .ctlRegexp _ => "Control"
  | .ctlCbor _ => "Control"
  | .choiceify .. => "Choiceify"
  | .choiceifyInline _ => "ChoiceifyInline"

/-- `Display` of `Occur`, /repo/src/ivt.rs:294-298. -/
def occurDisplay (fmtF64 : F64 → String) (limit : OccurLimit) (node : Node) : String :=
  limit.symbol ++ " " ++ node.display fmtF64

/-- `Display` of `Range`, /repo/src/ivt.rs:364-369. -/
def rangeDisplay (fmtF64 : F64 → String) (start stop : Node) (inclusive : Bool) : String :=
  start.display fmtF64 ++ (if inclusive then ".." else "...") ++ stop.display fmtF64

/-- `RuleDef`, /repo/src/ivt.rs:20-26. -/
structure RuleDef where
  params : List String
  node : Node
  deriving Repr, Inhabited

/-- `RulesByName = BTreeMap<String, RuleDef>`, /repo/src/ivt.rs:32.  Represented by the association list
of insertions, oldest first; `find` returns the last insertion of the name, as repeated
`BTreeMap::insert` does. -/
abbrev RuleTable := List (String × RuleDef)

/-- `BTreeMap::get` on a table built by successive inserts. -/
def RuleTable.find (t : RuleTable) (name : String) : Option RuleDef :=
  match t with
  | [] => none
  | (n, d) :: rest =>
    match RuleTable.find rest name with
    | some d' => some d'
    | none => if n = name then some d else none

/-- `impl From<&Literal> for Value`, /repo/src/validate.rs:382-392. -/
def Literal.toValue : Literal → Value
  | .bool b => .bool b
  | .int i => .integer i
  | .float f => .float f
  | .text s => .text s
  | .bytes b => .bytes b

end Cddl
