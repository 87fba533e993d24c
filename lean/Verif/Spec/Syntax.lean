import Verif.Model.Ast
import Verif.Spec.Cong

/-!
# What a schema text's syntax tree stands for

Independent of the functions of Model/Flatten.
-/

namespace Cddl

open Ast (Ty1 Ty2 MemberKeyVal GrpEntVal GrpEnt RuleVal)

/-- The supported names of the CDDL prelude (RFC 8610 appendix D) and what the crate takes them to be. -/
def preludeTable : List (String × Node) :=
  [("any", .prelude .any), ("nil", .prelude .nil), ("null", .prelude .nil), ("bool", .prelude .bool),
   ("false", .literal (.bool false)), ("true", .literal (.bool true)), ("int", .prelude .int),
   ("uint", .prelude .uint), ("nint", .prelude .nint), ("float", .prelude .float), ("tstr", .prelude .tstr),
   ("text", .prelude .tstr), ("bstr", .prelude .bstr), ("bytes", .prelude .bstr),
   ("float16", .prelude .float), ("float32", .prelude .float), ("float64", .prelude .float),
   ("float16-32", .prelude .float), ("float32-64", .prelude .float), ("tdate", .prelude .tstr),
   ("uri", .prelude .tstr), ("b64url", .prelude .tstr), ("b64legacy", .prelude .tstr),
   ("regexp", .prelude .tstr), ("mime-message", .prelude .tstr), ("biguint", .prelude .bstr),
   ("bignint", .prelude .bstr), ("encoded-cbor", .prelude .bstr), ("eb64url", .prelude .any),
   ("eb64legacy", .prelude .any), ("eb16", .prelude .any), ("cbor-any", .prelude .any)]

/-- The names of the CDDL prelude the crate does not support. -/
def unsupportedNames : List String :=
  ["time", "bigint", "integer", "unsigned", "number", "decfrac", "bigfloat", "undefined"]

/-- A name the schema author can define. -/
def UserName (s : String) : Prop := s ∉ preludeTable.map Prod.fst ∧ s ∉ unsupportedNames

instance (s : String) : Decidable (UserName s) := by unfold UserName; infer_instance

/-! ## Translation of syntax trees -/

/-- The literal written as this value. -/
inductive ValueIs : Ast.Value → Literal → Prop
  | text (s) : ValueIs (.text s) (.text s)
  | uint (n : Nat) : (n : Int) < 2 ^ 127 → ValueIs (.uint n) (.int n)
  | nint (i : Int) : - 2 ^ 127 ≤ i → i < 2 ^ 127 → ValueIs (.nint i) (.int i)
  | float (f) : ValueIs (.float f) (.float f)
  | bytes (b) : ValueIs (.bytes b) (.bytes b)

/-- Types that can be the argument of a control operator. -/
inductive CtlArg : CtlOp → Node → Prop
  | int (op i) : CtlArg op (.literal (.int i))
  | rule (op s as) : CtlArg op (.rule s as)
  | range (a b i) : CtlArg .size (.range a b i)

/-- The text of a control operator. -/
def CtlOp.text : CtlOp → String
  | .size => "size"
  | .lt => "lt"
  | .le => "le"
  | .gt => "gt"
  | .ge => "ge"

/-- One option alone is that option; two or more are a choice. -/
inductive OneOrChoice : List Node → Node → Prop
  | one (n) : OneOrChoice [n] n
  | many (a b l) : OneOrChoice (a :: b :: l) (.choice (a :: b :: l))

/-- An entry with its occurrence. -/
inductive Occurs : Option OccurLimit → Node → Node → Prop
  | none (n) : Occurs none n n
  | some (o n) : Occurs (some o) n (.occur o n)

mutual
/-- The type `n` that a `type2` stands for.  `re` says which regular expressions compile. -/
inductive Flat2 (re : String → Bool) : Ty2 → Node → Prop
  | value {v l} : ValueIs v l → Flat2 re (.value v) (.literal l)
  | preludeName {s n} : (s, n) ∈ preludeTable → Flat2 re (.typename s []) n
  | name {s as ns} : UserName s → Flat1s re as ns → Flat2 re (.typename s as) (.rule s ns)
  | parens {t ns n} : Flat1s re t ns → OneOrChoice ns n → Flat2 re (.parens t) n
  | map {g ns} : FlatGroup re g ns → Flat2 re (.map g) (.map ns)
  | array {g ns} : FlatGroup re g ns → Flat2 re (.array g) (.array ns)
  | unwrap {s as ns} : UserName s → Flat1s re as ns → Flat2 re (.unwrap s as) (.unwrap s ns)
  | choiceify {s as ns} : UserName s → Flat1s re as ns → Flat2 re (.choiceify s as) (.choiceify s ns)
  | inline {g ns} : FlatGroup re g ns → Flat2 re (.choiceifyInline g) (.choiceifyInline ns)
/-- The type a `type1` stands for. -/
inductive Flat1 (re : String → Bool) : Ty1 → Node → Prop
  | simple {t n} : Flat2 re t n → Flat1 re (.simple t) n
  | range {a b m n i} : FlatPoint re a m → FlatPoint re b n → Flat1 re (.range a b i) (.range m n i)
  | ctl {t a m n} (op : CtlOp) : Flat2 re t m → Flat2 re a n → CtlArg op n →
      Flat1 re (.control t a op.text) (.ctl op m n)
  | regexp {t a p} : Flat2 re t (.prelude .tstr) → Flat2 re a (.literal (.text p)) → re p = true →
      Flat1 re (.control t a "regexp") (.ctlRegexp p)
  | cbor {t a n} : Flat2 re t (.prelude .bstr) → Flat2 re a n → Flat1 re (.control t a "cbor") (.ctlCbor n)
/-- The end point of a range: a literal, `true`, `false` or a name. -/
inductive FlatPoint (re : String → Bool) : Ty2 → Node → Prop
  | value {v l} : ValueIs v l → FlatPoint re (.value v) (.literal l)
  | literalName {s l} : (s, .literal l) ∈ preludeTable → FlatPoint re (.typename s []) (.literal l)
  | name {s as ns} : UserName s → Flat1s re as ns → FlatPoint re (.typename s as) (.rule s ns)
/-- The types of a list. -/
inductive Flat1s (re : String → Bool) : List Ty1 → List Node → Prop
  | nil : Flat1s re [] []
  | cons {t n ts ns} : Flat1 re t n → Flat1s re ts ns → Flat1s re (t :: ts) (n :: ns)
/-- The members of a group: the entries of the only group choice, or one choice between groups. -/
inductive FlatGroup (re : String → Bool) : List (List GrpEnt) → List Node → Prop
  | one {es ns} : FlatEntries re es ns → FlatGroup re [es] ns
  | many {gs os} : gs.length ≠ 1 → FlatOptions re gs os → FlatGroup re gs [.choice os]
/-- Group choices, each a group of its entries. -/
inductive FlatOptions (re : String → Bool) : List (List GrpEnt) → List Node → Prop
  | nil : FlatOptions re [] []
  | cons {es ns gs os} : FlatEntries re es ns → FlatOptions re gs os →
      FlatOptions re (es :: gs) (.group ns :: os)
/-- The entries of a group choice. -/
inductive FlatEntries (re : String → Bool) : List GrpEnt → List Node → Prop
  | nil : FlatEntries re [] []
  | cons {e n es ns} : FlatEntry re e n → FlatEntries re es ns → FlatEntries re (e :: es) (n :: ns)
/-- An entry with its occurrence. -/
inductive FlatEntry (re : String → Bool) : GrpEnt → Node → Prop
  | mk {o v m n} : FlatEntryVal re v m → Occurs o m n → FlatEntry re (.mk o v) n
/-- An entry without its occurrence. -/
inductive FlatEntryVal (re : String → Bool) : GrpEntVal → Node → Prop
  | member {t ns n} : Flat1s re t ns → OneOrChoice ns n → FlatEntryVal re (.member t) n
  | keyed {k m cut t ns n} : FlatKey re k m → Flat1s re t ns → OneOrChoice ns n →
      FlatEntryVal re (.keyed k cut t) (.keyValue m n cut)
  | preludeName {s n} : (s, n) ∈ preludeTable → FlatEntryVal re (.groupname s) n
  | name {s} : UserName s → FlatEntryVal re (.groupname s) (.rule s [])
  | parens {g ns} : FlatGroup re g ns → FlatEntryVal re (.parens g) (.group ns)
/-- A member key; a bareword is a text. -/
inductive FlatKey (re : String → Bool) : MemberKeyVal → Node → Prop
  | bareword (s) : FlatKey re (.bareword s) (.literal (.text s))
  | type1 {t n} : Flat1 re t n → FlatKey re (.type1 t) n
  | value {v l} : ValueIs v l → FlatKey re (.value v) (.literal l)
end

/-- The definition a rule stands for. -/
inductive FlatRule (re : String → Bool) : Ast.Rule → String × RuleDef → Prop
  | type {s ps t ns n} : Flat1s re t ns → OneOrChoice ns n → FlatRule re ⟨s, ps, .assignType t⟩ (s, ⟨ps, n⟩)
  | group {s ps g n} : FlatEntry re g n → FlatRule re ⟨s, ps, .assignGroup g⟩ (s, ⟨ps, n⟩)

/-! ## Names used in a syntax tree -/

mutual
/-- The names used as types or groups in a `type2` (not member keys). -/
def Ast.names2 : Ty2 → List String
  | .value _ => []
  | .typename s as | .unwrap s as | .choiceify s as => s :: Ast.names1s as
  | .parens t => Ast.names1s t
  | .map g | .array g | .choiceifyInline g => Ast.namesGroup g
/-- The names used in a `type1`. -/
def Ast.names1 : Ty1 → List String
  | .simple t => Ast.names2 t
  | .range a b _ => Ast.names2 a ++ Ast.names2 b
  | .control a b _ => Ast.names2 a ++ Ast.names2 b
/-- The names used in a list of `type1`s. -/
def Ast.names1s : List Ty1 → List String
  | [] => []
  | t :: ts => Ast.names1 t ++ Ast.names1s ts
/-- The names used in a group. -/
def Ast.namesGroup : List (List GrpEnt) → List String
  | [] => []
  | g :: gs => Ast.namesEntries g ++ Ast.namesGroup gs
/-- The names used in a list of entries. -/
def Ast.namesEntries : List GrpEnt → List String
  | [] => []
  | e :: es => Ast.namesEntry e ++ Ast.namesEntries es
/-- The names used in an entry. -/
def Ast.namesEntry : GrpEnt → List String
  | .mk _ v => Ast.namesEntryVal v
/-- The names used in an entry without its occurrence. -/
def Ast.namesEntryVal : GrpEntVal → List String
  | .member t => Ast.names1s t
  | .keyed k _ t => Ast.namesKey k ++ Ast.names1s t
  | .groupname s => [s]
  | .parens g => Ast.namesGroup g
/-- The names used in a member key; a bareword is not a name. -/
def Ast.namesKey : MemberKeyVal → List String
  | .type1 t => Ast.names1 t
  | .bareword _ => []
  | .value _ => []
end

/-- The names used on the right-hand side of a rule. -/
def Ast.Rule.names (r : Ast.Rule) : List String :=
  match r.val with
  | .assignType t => Ast.names1s t
  | .assignGroup g => Ast.namesEntry g

mutual
/-- Every group inside has at least one group choice (the grammar demands it, the type `Vec` does not). -/
def Ast.full2 : Ty2 → Prop
  | .value _ => True
  | .typename _ as | .unwrap _ as | .choiceify _ as => Ast.full1s as
  | .parens t => Ast.full1s t
  | .map g | .array g | .choiceifyInline g => g ≠ [] ∧ Ast.fullGroup g
/-- `full2` for a `type1`. -/
def Ast.full1 : Ty1 → Prop
  | .simple t => Ast.full2 t
  | .range a b _ => Ast.full2 a ∧ Ast.full2 b
  | .control a b _ => Ast.full2 a ∧ Ast.full2 b
/-- `full2` for a list of `type1`s. -/
def Ast.full1s : List Ty1 → Prop
  | [] => True
  | t :: ts => Ast.full1 t ∧ Ast.full1s ts
/-- `full2` for the group choices of a group. -/
def Ast.fullGroup : List (List GrpEnt) → Prop
  | [] => True
  | g :: gs => Ast.fullEntries g ∧ Ast.fullGroup gs
/-- `full2` for entries. -/
def Ast.fullEntries : List GrpEnt → Prop
  | [] => True
  | e :: es => Ast.fullEntry e ∧ Ast.fullEntries es
/-- `full2` for an entry. -/
def Ast.fullEntry : GrpEnt → Prop
  | .mk _ v => Ast.fullEntryVal v
/-- `full2` for an entry without its occurrence. -/
def Ast.fullEntryVal : GrpEntVal → Prop
  | .member t => Ast.full1s t
  | .keyed k _ t => Ast.fullKey k ∧ Ast.full1s t
  | .groupname _ => True
  | .parens g => g ≠ [] ∧ Ast.fullGroup g
/-- `full2` for a member key. -/
def Ast.fullKey : MemberKeyVal → Prop
  | .type1 t => Ast.full1 t
  | .bareword _ => True
  | .value _ => True
end

/-- Every group in the rule has at least one group choice. -/
def Ast.Rule.full (r : Ast.Rule) : Prop :=
  match r.val with
  | .assignType t => Ast.full1s t
  | .assignGroup g => Ast.fullEntry g

/-! ## Well-formed trees -/

mutual
/-- Trees that describe a type. -/
inductive TypeTree (re : String → Bool) : Node → Prop
  | literal (l) : TypeTree re (.literal l)
  | prelude (p) : TypeTree re (.prelude p)
  | rule {s as} : UserName s → (∀ n ∈ as, TypeTree re n) → TypeTree re (.rule s as)
  | unwrap {s as} : UserName s → (∀ n ∈ as, TypeTree re n) → TypeTree re (.unwrap s as)
  | choiceify {s as} : UserName s → (∀ n ∈ as, TypeTree re n) → TypeTree re (.choiceify s as)
  | choice {os} : 2 ≤ os.length → (∀ n ∈ os, TypeTree re n) → TypeTree re (.choice os)
  | map {ms} : MembersTree re ms → TypeTree re (.map ms)
  | array {ms} : MembersTree re ms → TypeTree re (.array ms)
  | inline {ms} : MembersTree re ms → TypeTree re (.choiceifyInline ms)
  | range {a b i} : PointTree re a → PointTree re b → TypeTree re (.range a b i)
  | ctl {op t a} : TypeTree re t → TypeTree re a → CtlArg op a → TypeTree re (.ctl op t a)
  | regexp {p} : re p = true → TypeTree re (.ctlRegexp p)
  | cbor {n} : TypeTree re n → TypeTree re (.ctlCbor n)
/-- End points of ranges: literals and names. -/
inductive PointTree (re : String → Bool) : Node → Prop
  | literal (l) : PointTree re (.literal l)
  | rule {s as} : UserName s → (∀ n ∈ as, TypeTree re n) → PointTree re (.rule s as)
/-- Trees that describe an entry without its occurrence. -/
inductive BareTree (re : String → Bool) : Node → Prop
  | type {n} : TypeTree re n → BareTree re n
  | keyValue {k v cut} : TypeTree re k → TypeTree re v → BareTree re (.keyValue k v cut)
  | group {ms} : MembersTree re ms → BareTree re (.group ms)
/-- Trees that describe an entry: occurrences do not nest. -/
inductive EntryTree (re : String → Bool) : Node → Prop
  | bare {n} : BareTree re n → EntryTree re n
  | occur {o n} : BareTree re n → EntryTree re (.occur o n)
/-- The members of a map, array or group: entries, or a single choice between groups of entries. -/
inductive MembersTree (re : String → Bool) : List Node → Prop
  | entries {ms} : (∀ n ∈ ms, EntryTree re n) → MembersTree re ms
  | choice {os} : 2 ≤ os.length → (∀ o ∈ os, OptionTree re o) → MembersTree re [.choice os]
/-- An alternative of a group choice. -/
inductive OptionTree (re : String → Bool) : Node → Prop
  | group {ms} : (∀ n ∈ ms, EntryTree re n) → OptionTree re (.group ms)
end

end Cddl
