import Verif.Spec.Single
import Verif.Spec.Field
import Verif.Proofs.VMap

/-! # What messages say

How parts of a schema are written in messages, and what the answer is for arrays and maps whose entries are plain. -/

namespace Cddl

/-- How a part of a schema is written in a message: literals as they are, prelude types and everything else by what kind of
thing they are.  `fmt` prints floats. -/
inductive Shows (fmt : F64 → String) : Node → String → Prop
  | true : Shows fmt (.literal (.bool true)) "true"
  | false : Shows fmt (.literal (.bool false)) "false"
  | int (i : Int) : Shows fmt (.literal (.int i)) (toString i)
  | float (f : F64) : Shows fmt (.literal (.float f)) (fmt f)
  | text (s : String) : Shows fmt (.literal (.text s)) ("\"" ++ s ++ "\"")
  | bytes (b : List UInt8) : Shows fmt (.literal (.bytes b)) "LiteralBytes"
  | any : Shows fmt (.prelude .any) "Any"
  | nil : Shows fmt (.prelude .nil) "Nil"
  | bool : Shows fmt (.prelude .bool) "Bool"
  | intType : Shows fmt (.prelude .int) "Int"
  | uint : Shows fmt (.prelude .uint) "Uint"
  | nint : Shows fmt (.prelude .nint) "Nint"
  | floatType : Shows fmt (.prelude .float) "Float"
  | tstr : Shows fmt (.prelude .tstr) "Tstr"
  | bstr : Shows fmt (.prelude .bstr) "Bstr"
  | keyValue {k t : Node} (cut : Bool) {a b : String} : Shows fmt k a → Shows fmt t b →
      Shows fmt (.keyValue k t cut) (a ++ ": " ++ b)
  | rule (s : String) (as : List Node) : Shows fmt (.rule s as) "Rule"
  | choice (l : List Node) : Shows fmt (.choice l) "Choice"
  | map (l : List Node) : Shows fmt (.map l) "Map"
  | array (l : List Node) : Shows fmt (.array l) "Array"
  | group (l : List Node) : Shows fmt (.group l) "Group"
  | occur (o : OccurLimit) (n : Node) : Shows fmt (.occur o n) "Occur"
  | unwrap (s : String) (as : List Node) : Shows fmt (.unwrap s as) "Unwrap"
  | range (a b : Node) (i : Bool) : Shows fmt (.range a b i) "Range"
  | ctl (o : CtlOp) (a b : Node) : Shows fmt (.ctl o a b) "Control"
  | regexp (p : String) : Shows fmt (.ctlRegexp p) "Control"
  | cbor (n : Node) : Shows fmt (.ctlCbor n) "Control"
  | choiceify (s : String) (as : List Node) : Shows fmt (.choiceify s as) "Choiceify"
  | choiceifyInline (l : List Node) : Shows fmt (.choiceifyInline l) "ChoiceifyInline"

/-- What is said to be expected when data is not of a prelude type. -/
def PreludeType.word : PreludeType → String
  | .any => "any" | .nil => "nil" | .bool => "bool" | .int => "int" | .uint => "uint" | .nint => "nint"
  | .float => "float" | .tstr => "tstr" | .bstr => "bstr"

/-- What is said when an integer of the right type fails a comparison.  Five of the twelve are misleading. -/
def CtlOp.complaint : CtlOp → PreludeType → String
  | .lt, .uint => "uint over .lt limit"
  | .lt, .nint => "nint over .lt limit"
  | .lt, .int => "int over .lt limit"
  | .le, .uint => "uint over .le limit"
  | .le, .nint => "nint over .lt limit"
  | .le, .int => "int over .le limit"
  | .gt, .uint => "uint under .gt limit"
  | .gt, .nint => "nint over .gt limit"
  | .gt, .int => "int over .ge limit"
  | .ge, .uint => "uint under .ge limit"
  | .ge, .nint => "nint over .ge limit"
  | .ge, .int => "int over .ge limit"
  | _, _ => ""

/-- The name of a comparison. -/
def CtlOp.word : CtlOp → String
  | .size => "size" | .lt => "lt" | .le => "le" | .gt => "gt" | .ge => "ge"

/-- How an occurrence that asks for at least one item is written. -/
inductive Sign : OccurLimit → Nat → Nat → String → Prop
  | plus : Sign .oneOrMore 1 18446744073709551615 "+"
  | numbers (n u : Nat) (h : 0 < n) : Sign (.numbered n u) n u (toString n ++ "*" ++ toString u)

/-- What is said when an array ends before the entry `n`. -/
inductive Lacks (env : Env) : Ctx → Node → String → Prop
  | one {c : Ctx} {n : Node} {s : String} : Single env c n → (∀ s as, n ≠ .rule s as) → (∀ l, n ≠ .choice l) →
      Shows env.fmtF64 n s → Lacks env c n ("array element " ++ s)
  | keyed {c : Ctx} (k : Node) {t : Node} (cut : Bool) {s : String} :
      Shows env.fmtF64 t s → Lacks env c (.keyValue k t cut) ("array element " ++ s)
  | rule {c c' : Ctx} {name : String} {args : List Node} {n : Node} {s : String} :
      c.lookupRule env name args = .ok (n, c') → Lacks env c' n s → Lacks env c (.rule name args) s
  | choice {c : Ctx} {l : List Node} (f : Node → String) :
      (∀ n ∈ l, Lacks env c n (f n)) → Lacks env c (.choice l) ("choice of " ++ toString l.length)

/-- The answer for an array: its elements are taken in order, one for each entry. -/
inductive TupleSays (env : Env) (c : Ctx) : List Node → List Value → Res Unit → Prop
  /-- everything is used up -/
  | done : TupleSays env c [] [] (.ok ())
  /-- elements are left over -/
  | more (x : Value) (xs : List Value) : TupleSays env c [] (x :: xs) (.err (.mismatch "shorter array"))
  /-- the array ends too early -/
  | lack {m : Node} {ms : List Node} {s : String} : Lacks env c m s → TupleSays env c (m :: ms) [] (.err (.mismatch s))
  /-- the next element does not fit, and its own answer is given -/
  | wrong {m t : Node} {ms : List Node} {x : Value} {xs : List Value} {r : Res Unit} : Entry env c m t →
      validate env x t c = r → r ≠ .ok () → TupleSays env c (m :: ms) (x :: xs) r
  /-- the next element fits -/
  | step {m t : Node} {ms : List Node} {x : Value} {xs : List Value} {r : Res Unit} : Entry env c m t →
      Accepts env c t x → TupleSays env c ms xs r → TupleSays env c (m :: ms) (x :: xs) r

/-- The answer for a map: the fields are looked up in order. -/
inductive RecordSays (env : Env) (c : Ctx) : List Field → VMap → Res Unit → Prop
  /-- everything is used up -/
  | done : RecordSays env c [] [] (.ok ())
  /-- pairs are left over -/
  | more (p : Value × Value) (m : VMap) : RecordSays env c [] (p :: m) (.err (.mismatch "shorter map"))
  /-- a required key is missing -/
  | missing {f : Field} {fs : List Field} {m : VMap} {s : String} : f.optional = false →
      (∀ v, (f.key.toValue, v) ∉ m) → Shows env.fmtF64 (.literal f.key) s →
      RecordSays env c (f :: fs) m (.err (.mismatch ("map{" ++ s ++ "}")))
  /-- an optional key is missing -/
  | skip {f : Field} {fs : List Field} {m : VMap} {r : Res Unit} : f.optional = true →
      (∀ v, (f.key.toValue, v) ∉ m) → RecordSays env c fs m r → RecordSays env c (f :: fs) m r
  /-- the key is there and its value fits -/
  | take {f : Field} {fs : List Field} {m : VMap} {v : Value} {r : Res Unit} : (f.key.toValue, v) ∈ m →
      Accepts env c f.type v → RecordSays env c fs (m.filter fun p => decide (p.1 ≠ f.key.toValue)) r →
      RecordSays env c (f :: fs) m r
  /-- an optional field without a cut is passed over when the value does not fit -/
  | leave {f : Field} {fs : List Field} {m : VMap} {v : Value} {s : String} {r : Res Unit} : f.optional = true → f.cut = false →
      (f.key.toValue, v) ∈ m → validate env v f.type c = .err (.mismatch s) → RecordSays env c fs m r →
      RecordSays env c (f :: fs) m r
  /-- otherwise the answer for the value is given -/
  | wrong {f : Field} {fs : List Field} {m : VMap} {v : Value} {r : Res Unit} :
      (f.optional = false ∨ f.cut = true ∨ ∀ s, r ≠ .err (.mismatch s)) →
      (f.key.toValue, v) ∈ m → validate env v f.type c = r → r ≠ .ok () → RecordSays env c (f :: fs) m r

end Cddl
