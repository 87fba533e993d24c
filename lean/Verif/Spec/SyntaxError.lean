import Verif.Spec.Syntax

/-!
# What is wrong with a syntax tree

The error that a syntax tree is refused with: the first thing that is wrong, reading from left to right.  Independent of the
functions of Model/Flatten.
-/

namespace Cddl

open Ast (Ty1 Ty2 MemberKeyVal GrpEntVal GrpEnt RuleVal)

/-- An integer that is too large for the crate. -/
inductive BadValue : Ast.Value → Err → Prop
  | uint (n : Nat) : 2 ^ 127 ≤ (n : Int) → BadValue (.uint n) (.structural ("integer conversion failed: " ++ toString (n : Int)))
  | nint (i : Int) : i < - 2 ^ 127 ∨ 2 ^ 127 ≤ i → BadValue (.nint i) (.structural ("integer conversion failed: " ++ toString i))

/-- A name of the prelude that is not supported. -/
inductive BadName : String → Err → Prop
  | mk {s} : s ∈ unsupportedNames → BadName s (.unsupported ("prelude type '" ++ s ++ "'"))

/-- The control operators. -/
def IsControl (op : String) : Prop := (∃ c : CtlOp, op = c.text) ∨ op = "regexp" ∨ op = "cbor"

mutual
/-- What is wrong with a `type2`. -/
inductive Bad2 (re : String → Bool) : Ty2 → Err → Prop
  | value {v e} : BadValue v e → Bad2 re (.value v) e
  | name {s as e} : BadName s e → Bad2 re (.typename s as) e
  /-- prelude types have no parameters -/
  | preludeArgs {s n as} : (s, n) ∈ preludeTable → as ≠ [] → Bad2 re (.typename s as) .genericError
  | args {s as e} : UserName s → Bad1s re as e → Bad2 re (.typename s as) e
  | parens {t e} : Bad1s re t e → Bad2 re (.parens t) e
  | empty : Bad2 re (.parens []) (.unsupported "flatten type with 0 options")
  | map {g e} : BadGroup re g e → Bad2 re (.map g) e
  | array {g e} : BadGroup re g e → Bad2 re (.array g) e
  | inline {g e} : BadGroup re g e → Bad2 re (.choiceifyInline g) e
  /-- behind `~` and `&` must be a name that the author of the schema can define; whatever is wrong is a generic error -/
  | unwrapName {s as} : ¬ UserName s → Bad2 re (.unwrap s as) .genericError
  | unwrapArgs {s as e} : UserName s → Bad1s re as e → Bad2 re (.unwrap s as) .genericError
  | choiceifyName {s as} : ¬ UserName s → Bad2 re (.choiceify s as) .genericError
  | choiceifyArgs {s as e} : UserName s → Bad1s re as e → Bad2 re (.choiceify s as) .genericError
/-- What is wrong with a `type1`. -/
inductive Bad1 (re : String → Bool) : Ty1 → Err → Prop
  | simple {t e} : Bad2 re t e → Bad1 re (.simple t) e
  | start {a b i e} : BadPoint re a e → Bad1 re (.range a b i) e
  | stop {a m b i e} : FlatPoint re a m → BadPoint re b e → Bad1 re (.range a b i) e
  | operator {t a op} : ¬ IsControl op → Bad1 re (.control t a op) (.unsupported "control operator")
  | target {t a op e} : IsControl op → Bad2 re t e → Bad1 re (.control t a op) e
  | arg {t m a op e} : IsControl op → Flat2 re t m → Bad2 re a e → Bad1 re (.control t a op) e
  | limit {t m a n} (op : CtlOp) : Flat2 re t m → Flat2 re a n → ¬ CtlArg op n →
      Bad1 re (.control t a op.text) (.unsupported ("." ++ op.text ++ " limit type"))
  | regexpTarget {t m a n} : Flat2 re t m → Flat2 re a n → m ≠ .prelude .tstr →
      Bad1 re (.control t a "regexp") (.structural "bad regexp target type")
  | regexpArg {t a n} : Flat2 re t (.prelude .tstr) → Flat2 re a n → (∀ p, n ≠ .literal (.text p)) →
      Bad1 re (.control t a "regexp") (.structural "improper regexp type")
  | regexp {t a p} : Flat2 re t (.prelude .tstr) → Flat2 re a (.literal (.text p)) → re p = false →
      Bad1 re (.control t a "regexp") (.structural "malformed regexp")
  | cborTarget {t m a n} : Flat2 re t m → Flat2 re a n → m ≠ .prelude .bstr →
      Bad1 re (.control t a "cbor") (.structural "bad .cbor target type")
/-- What is wrong with the end point of a range. -/
inductive BadPoint (re : String → Bool) : Ty2 → Err → Prop
  | value {v e} : BadValue v e → BadPoint re (.value v) e
  | name {s as e} : BadName s e → BadPoint re (.typename s as) e
  | preludeArgs {s n as} : (s, n) ∈ preludeTable → as ≠ [] → BadPoint re (.typename s as) .genericError
  | args {s as e} : UserName s → Bad1s re as e → BadPoint re (.typename s as) e
  | prelude {s p} : (s, .prelude p) ∈ preludeTable →
      BadPoint re (.typename s []) (.structural "bad type on range operator")
  | other {t} : (∀ v, t ≠ .value v) → (∀ s as, t ≠ .typename s as) →
      BadPoint re t (.structural "bad type on range operator")
/-- What is wrong with a list of types. -/
inductive Bad1s (re : String → Bool) : List Ty1 → Err → Prop
  | head {t ts e} : Bad1 re t e → Bad1s re (t :: ts) e
  | tail {t n ts e} : Flat1 re t n → Bad1s re ts e → Bad1s re (t :: ts) e
/-- What is wrong with a group. -/
inductive BadGroup (re : String → Bool) : List (List GrpEnt) → Err → Prop
  | head {es gs e} : BadEntries re es e → BadGroup re (es :: gs) e
  | tail {es ns gs e} : FlatEntries re es ns → BadGroup re gs e → BadGroup re (es :: gs) e
/-- What is wrong with the entries of a group choice. -/
inductive BadEntries (re : String → Bool) : List GrpEnt → Err → Prop
  | head {o v es e} : BadEntryVal re v e → BadEntries re (.mk o v :: es) e
  | tail {x n es e} : FlatEntry re x n → BadEntries re es e → BadEntries re (x :: es) e
/-- What is wrong with an entry. -/
inductive BadEntryVal (re : String → Bool) : GrpEntVal → Err → Prop
  | member {t e} : Bad1s re t e → BadEntryVal re (.member t) e
  | memberEmpty : BadEntryVal re (.member []) (.unsupported "flatten type with 0 options")
  | key {k cut t e} : BadKey re k e → BadEntryVal re (.keyed k cut t) e
  | keyed {k m cut t e} : FlatKey re k m → Bad1s re t e → BadEntryVal re (.keyed k cut t) e
  | keyedEmpty {k m cut} : FlatKey re k m → BadEntryVal re (.keyed k cut []) (.unsupported "flatten type with 0 options")
  | name {s e} : BadName s e → BadEntryVal re (.groupname s) e
  | parens {g e} : BadGroup re g e → BadEntryVal re (.parens g) e
/-- What is wrong with a member key. -/
inductive BadKey (re : String → Bool) : MemberKeyVal → Err → Prop
  | type1 {t e} : Bad1 re t e → BadKey re (.type1 t) e
  | value {v e} : BadValue v e → BadKey re (.value v) e
end

/-- What is wrong with a rule. -/
inductive BadRule (re : String → Bool) : Ast.Rule → Err → Prop
  | type {s ps t e} : Bad1s re t e → BadRule re ⟨s, ps, .assignType t⟩ e
  | empty {s ps} : BadRule re ⟨s, ps, .assignType []⟩ (.unsupported "flatten type with 0 options")
  | group {s ps o v e} : BadEntryVal re v e → BadRule re ⟨s, ps, .assignGroup (.mk o v)⟩ e

/-- The errors that a text of a schema can be refused with once it is parsed. -/
inductive TextError : Err → Prop
  | generic : TextError .genericError
  | name {s : String} : s ∈ unsupportedNames → TextError (.unsupported ("prelude type '" ++ s ++ "'"))
  | operator : TextError (.unsupported "control operator")
  | limit (op : CtlOp) : TextError (.unsupported ("." ++ op.text ++ " limit type"))
  | regexpTarget : TextError (.structural "bad regexp target type")
  | regexpArg : TextError (.structural "improper regexp type")
  | regexp : TextError (.structural "malformed regexp")
  | cborTarget : TextError (.structural "bad .cbor target type")
  | range : TextError (.structural "bad type on range operator")

end Cddl
