import Verif.Model.Parse

/-!
# The grammar of CDDL texts

A declarative grammar in the style of RFC 8610 appendix B, with the deviations documented in the parser (tabs and
carriage returns are white space, any character may follow a backslash, no `/=`, `//=` and `#`), relating texts to
syntax trees.  Nothing here refers to the parser; `ParseExt` supplies the meaning of number and string literals.

With `strict = true` the texts are *layouts*: white space is wherever two tokens would otherwise run together, and
a syntax tree that the grammar gives only ambiguously is left out.  With `strict = false` these extra conditions
are void.
-/

namespace Cddl

open Ast (Ty Ty1 Ty2 MemberKeyVal GrpEntVal GrpEnt Group GrpChoice RuleVal)

/-! ## Tokens -/

/-- White-space characters. -/
def Blank (c : Char) : Prop := c = ' ' ∨ c = '\t' ∨ c = '\r' ∨ c = '\n'

/-- White space: blanks and comments, each comment up to and including its line ending. -/
inductive WS : List Char → Prop
  | nil : WS []
  | blank {c w} : Blank c → WS w → WS (c :: w)
  | comment {t w} : (∀ c ∈ t, c ≠ '\r' ∧ c ≠ '\n') → WS w → WS (';' :: t ++ '\n' :: w)
  | commentCr {t w} : (∀ c ∈ t, c ≠ '\r' ∧ c ≠ '\n') → WS w → WS (';' :: t ++ '\r' :: '\n' :: w)

/-- Decimal digits. -/
def Digit (c : Char) : Prop := '0' ≤ c ∧ c ≤ '9'

/-- Hexadecimal digits. -/
def HexDigit (c : Char) : Prop := Digit c ∨ ('a' ≤ c ∧ c ≤ 'f') ∨ ('A' ≤ c ∧ c ≤ 'F')

/-- EALPHA: letters, `@`, `_`, `$`. -/
def EAlpha (c : Char) : Prop :=
  ('a' ≤ c ∧ c ≤ 'z') ∨ ('A' ≤ c ∧ c ≤ 'Z') ∨ c = '@' ∨ c = '_' ∨ c = '$'

/-- `*(*("-" / ".") (EALPHA / DIGIT))` -/
inductive IdTail : List Char → Prop
  | nil : IdTail []
  | cons {ps c t} : (∀ p ∈ ps, p = '-' ∨ p = '.') → EAlpha c ∨ Digit c → IdTail t → IdTail (ps ++ c :: t)

/-- `id = EALPHA *(*("-" / ".") (EALPHA / DIGIT))` -/
inductive Ident : List Char → Prop
  | mk {c t} : EAlpha c → IdTail t → Ident (c :: t)

/-- The value of a digit. -/
def digitValue (c : Char) : Nat := "0123456789abcdef".toList.idxOf c.toLower

/-- The number written by these digits. -/
def numeral (base : Nat) (ds : List Char) : Nat := ds.foldl (fun n c => n * base + digitValue c) 0

/-- Texts of unsigned numbers. -/
inductive UintText : List Char → Nat → Prop
  | zero : UintText ['0'] 0
  | dec {c ds} : Digit c → c ≠ '0' → (∀ d ∈ ds, Digit d) → UintText (c :: ds) (numeral 10 (c :: ds))
  | hex {ds} : ds ≠ [] → (∀ d ∈ ds, HexDigit d) → UintText ('0' :: 'x' :: ds) (numeral 16 ds)
  | bin {ds} : ds ≠ [] → (∀ d ∈ ds, d = '0' ∨ d = '1') → UintText ('0' :: 'b' :: ds) (numeral 2 ds)

/-- An optional fraction. -/
inductive FracText : List Char → Prop
  | none : FracText []
  | some {ds} : ds ≠ [] → (∀ d ∈ ds, Digit d) → FracText ('.' :: ds)

/-- An optional exponent. -/
inductive ExpText : List Char → Prop
  | none : ExpText []
  | plain {ds} : ds ≠ [] → (∀ d ∈ ds, Digit d) → ExpText ('e' :: ds)
  | signed {c ds} : c = '+' ∨ c = '-' → ds ≠ [] → (∀ d ∈ ds, Digit d) → ExpText ('e' :: c :: ds)

/-- Characters of a text or byte string that stand for themselves, apart from the quote and the backslash.
RFC 8610 allows up to 0x10FFFD; layouts are restricted to what the parser takes. -/
def PlainChar (strict : Bool) (c : Char) : Prop :=
  0x20 ≤ c.toNat ∧ c.toNat ≠ 0x7F ∧ c.toNat ≤ 0x10FFFD ∧ (strict = true → c.toNat ≤ 0x10FFD)

/-- The inside of a string quoted by `q`. -/
inductive Quoted (strict : Bool) (q : Char) : List Char → Prop
  | nil : Quoted strict q []
  | plain {c t} : PlainChar strict c → c ≠ q → c ≠ '\\' → Quoted strict q t → Quoted strict q (c :: t)
  | esc {c t} : Quoted strict q t → Quoted strict q ('\\' :: c :: t)

/-- Pairs of hexadecimal digits and the bytes they write. -/
inductive HexBytes : List Char → List UInt8 → Prop
  | nil : HexBytes [] []
  | cons {a b s bs} : HexDigit a → HexDigit b → HexBytes s bs →
      HexBytes (a :: b :: s) (UInt8.ofNat (16 * digitValue a + digitValue b) :: bs)

/-- Blanks ignored between hexadecimal digits. -/
def HexBlank (c : Char) : Prop := Blank c ∨ c = '\x0c'

instance (c : Char) : Decidable (HexBlank c) := by unfold HexBlank Blank; infer_instance

/-- Literals. -/
inductive ValueText (x : ParseExt) (strict : Bool) : List Char → Ast.Value → Prop
  | uint {s n} : UintText s n → n < 2 ^ 64 → ValueText x strict s (.uint n)
  | nint {s n} : UintText s n → n < 2 ^ 63 → ValueText x strict ('-' :: s) (.nint (-(n : Int)))
  | float {sg u n fr ex f} : sg = [] ∨ sg = ['-'] → UintText u n →
      (strict = true → n < 2 ^ 64 ∧ ∀ d ∈ u, Digit d) → FracText fr → ExpText ex →
      fr ≠ [] ∨ ex ≠ [] → x.parseF64 (String.ofList (sg ++ u ++ fr ++ ex)) = some f →
      ValueText x strict (sg ++ u ++ fr ++ ex) (.float f)
  | text {s t} : Quoted strict '"' s → x.unescape (String.ofList s) = some t →
      ValueText x strict ('"' :: s ++ ['"']) (.text t)
  | bytes {s t} : Quoted strict '\'' s → x.unescape (String.ofList s) = some t →
      ValueText x strict ('\'' :: s ++ ['\'']) (.bytes t.toUTF8.data.toList)
  | hex {s b} : Quoted strict '\'' s → HexBytes (s.filter fun c => ¬ HexBlank c) b →
      ValueText x strict ('h' :: '\'' :: s ++ ['\'']) (.bytes b)
  | base64 {s b} : Quoted strict '\'' s → x.base64 (String.ofList s) = some b →
      ValueText x strict ('b' :: '6' :: '4' :: '\'' :: s ++ ['\'']) (.bytes b)

/-- Occurrences. -/
inductive OccurText : List Char → OccurLimit → Prop
  | optional : OccurText ['?'] .optional
  | plus : OccurText ['+'] .oneOrMore
  | star : OccurText ['*'] .zeroOrMore
  | lower {s n} : UintText s n → n < 2 ^ 64 → OccurText (s ++ ['*']) (.numbered n (2 ^ 64 - 1))
  | upper {s n} : UintText s n → n < 2 ^ 64 → OccurText ('*' :: s) (.numbered 0 n)
  | both {s n t m} : UintText s n → n < 2 ^ 64 → UintText t m → m < 2 ^ 64 →
      OccurText (s ++ '*' :: t) (.numbered n m)

/-! ## What may follow a token in a layout -/

/-- The text does not begin with a character of the given kind. -/
def NotHead (p : Char → Prop) : List Char → Prop
  | [] => True
  | c :: _ => ¬ p c

/-- What may follow an identifier. -/
def AfterIdent (r : List Char) : Prop :=
  NotHead (fun c => EAlpha c ∨ Digit c ∨ c = '-' ∨ c = '.' ∨ c = '\'' ∨ c = '<') r

/-- What may follow a number. -/
def AfterNumber : List Char → Prop
  | '.' :: c :: _ => ¬ Digit c
  | r => NotHead (fun c => EAlpha c ∨ Digit c ∨ c = '*') r

/-- What may follow the text of a `type2`. -/
def AfterTy2 (t : Ty2) (r : List Char) : Prop :=
  match t with
  | .value (.uint _) | .value (.nint _) | .value (.float _) => AfterNumber r
  | .typename _ [] | .unwrap _ [] | .choiceify _ [] => AfterIdent r
  | _ => True

/-- What may follow the text of a `type1`. -/
def AfterTy1 (t : Ty1) (r : List Char) : Prop :=
  match t with
  | .simple t => AfterTy2 t r
  | .range _ t _ => AfterTy2 t r
  | .control _ t _ => AfterTy2 t r

/-- What may follow the text of a type: what may follow its last alternative. -/
def AfterTy (t : Ty) (r : List Char) : Prop := ∀ u, t.getLast? = some u → AfterTy1 u r

/-- What may follow the text of a group entry without occurrence. -/
def AfterVal (v : GrpEntVal) (r : List Char) : Prop :=
  match v with
  | .member t => AfterTy t r
  | .keyed _ _ t => AfterTy t r
  | .groupname _ => False
  | .parens _ => True

/-- What may follow an occurrence. -/
def AfterOccur (o : OccurLimit) (r : List Char) : Prop :=
  match o with
  | .optional | .oneOrMore => True
  | .zeroOrMore => NotHead Digit r
  | .numbered _ _ => NotHead (fun c => EAlpha c ∨ Digit c) r

/-- A group that the parser reads as a type in parentheses, unless there is a comma: a single entry that is just a
type. -/
def TypeLike : Group → Prop
  | [[.mk none (.member _)]] => True
  | _ => False

/-! ## Types, groups, rules -/

/-- An optional comma with white space around. -/
inductive OptComma : List Char → Prop
  | none {w} : WS w → OptComma w
  | some {w w'} : WS w → WS w' → OptComma (w ++ ',' :: w')

mutual
/-- `type2` -/
inductive GTy2 (x : ParseExt) (strict : Bool) : List Char → Ty2 → Prop
  | value {s v} : ValueText x strict s v → GTy2 x strict s (.value v)
  | name {s n as} : GName x strict s n as → GTy2 x strict s (.typename n as)
  | parens {w s t w'} : WS w → GTy x strict s t → WS w' → GTy2 x strict ('(' :: (w ++ s ++ w') ++ [')']) (.parens t)
  | map {w s g w'} : WS w → GGroup x strict s g → WS w' → GTy2 x strict ('{' :: (w ++ s ++ w') ++ ['}']) (.map g)
  | array {w s g w'} : WS w → GGroup x strict s g → WS w' →
      GTy2 x strict ('[' :: (w ++ s ++ w') ++ [']']) (.array g)
  | unwrap {w s n as} : WS w → GName x strict s n as → GTy2 x strict ('~' :: w ++ s) (.unwrap n as)
  | inline {v w s g w'} : WS v → WS w → GGroup x strict s g → WS w' →
      GTy2 x strict ('&' :: v ++ ('(' :: (w ++ s ++ w') ++ [')'])) (.choiceifyInline g)
  | choiceify {w s n as} : WS w → GName x strict s n as → GTy2 x strict ('&' :: w ++ s) (.choiceify n as)
/-- A name with optional generic arguments. -/
inductive GName (x : ParseExt) (strict : Bool) : List Char → String → List Ty1 → Prop
  | plain {s} : Ident s → GName x strict s (String.ofList s) []
  | generic {s w a as} : Ident s → WS w → GArgs x strict a as →
      GName x strict (s ++ ('<' :: w ++ (a ++ ['>']))) (String.ofList s) as
/-- Generic arguments. -/
inductive GArgs (x : ParseExt) (strict : Bool) : List Char → List Ty1 → Prop
  | one {s t w} : GTy1 x strict s t → WS w → GArgs x strict (s ++ w) [t]
  | cons {s t w w' a as} : GTy1 x strict s t → WS w → WS w' → GArgs x strict a as →
      GArgs x strict (s ++ w ++ (',' :: w') ++ a) (t :: as)
/-- `type1` -/
inductive GTy1 (x : ParseExt) (strict : Bool) : List Char → Ty1 → Prop
  | simple {s t} : GTy2 x strict s t → GTy1 x strict s (.simple t)
  | range {s a w w' s' b} : GTy2 x strict s a → WS w → WS w' → GTy2 x strict s' b →
      (strict = true → AfterTy2 a (w ++ ['.', '.'])) →
      GTy1 x strict (s ++ (w ++ (['.', '.'] ++ (w' ++ s')))) (.range a b true)
  | rangeExcl {s a w w' s' b} : GTy2 x strict s a → WS w → WS w' → GTy2 x strict s' b →
      (strict = true → AfterTy2 a (w ++ ['.', '.'])) →
      GTy1 x strict (s ++ (w ++ (['.', '.', '.'] ++ (w' ++ s')))) (.range a b false)
  | control {s a w op w' s' b} : GTy2 x strict s a → WS w → Ident op → WS w' → GTy2 x strict s' b →
      (strict = true → AfterTy2 a (w ++ '.' :: op) ∧ AfterIdent (w' ++ s')) →
      GTy1 x strict (s ++ (w ++ ('.' :: op ++ (w' ++ s')))) (.control a b (String.ofList op))
/-- `type` -/
inductive GTy (x : ParseExt) (strict : Bool) : List Char → Ty → Prop
  | one {s t} : GTy1 x strict s t → GTy x strict s [t]
  | cons {s t w w' s' ts} : GTy1 x strict s t → WS w → WS w' → GTy x strict s' ts →
      GTy x strict (s ++ (w ++ ('/' :: w')) ++ s') (t :: ts)
/-- `group` -/
inductive GGroup (x : ParseExt) (strict : Bool) : List Char → Group → Prop
  | one {s g} : GChoice x strict s g → GGroup x strict s [g]
  | cons {s g w w' s' gs} : GChoice x strict s g → WS w → WS w' → GGroup x strict s' gs →
      GGroup x strict (s ++ (w ++ ('/' :: '/' :: w')) ++ s') (g :: gs)
/-- `grpchoice` -/
inductive GChoice (x : ParseExt) (strict : Bool) : List Char → GrpChoice → Prop
  | nil : GChoice x strict [] []
  | cons {s o v c s' es} : GEntry x strict s (.mk o v) → OptComma c → GChoice x strict s' es →
      (strict = true → es ≠ [] → AfterVal v (c ++ s')) →
      GChoice x strict (s ++ c ++ s') (.mk o v :: es)
/-- `grpent` -/
inductive GEntry (x : ParseExt) (strict : Bool) : List Char → GrpEnt → Prop
  | plain {s v} : GVal x strict s v → GEntry x strict s (.mk none v)
  | occur {s o w s' v} : OccurText s o → WS w → GVal x strict s' v → (strict = true → AfterOccur o (w ++ s')) →
      GEntry x strict (s ++ w ++ s') (.mk (some o) v)
/-- A group entry without its occurrence.  White space behind a keyless member is counted to it.  (`comma` is a
special case of `parens`, except for the last condition there.) -/
inductive GVal (x : ParseExt) (strict : Bool) : List Char → GrpEntVal → Prop
  | bareword {k w w' s t} : Ident k → WS w → WS w' → GTy x strict s t →
      GVal x strict (k ++ w ++ (':' :: w') ++ s) (.keyed (.bareword (String.ofList k)) true t)
  | value {k v w w' s t} : ValueText x strict k v → WS w → WS w' → GTy x strict s t →
      GVal x strict (k ++ w ++ (':' :: w') ++ s) (.keyed (.value v) true t)
  | type1 {k u w w' s t} : GTy1 x strict k u → WS w → WS w' → GTy x strict s t →
      GVal x strict (k ++ w ++ ('=' :: '>' :: w') ++ s) (.keyed (.type1 u) false t)
  | cut {k u w v w' s t} : GTy1 x strict k u → WS w → WS v → WS w' → GTy x strict s t →
      GVal x strict (k ++ w ++ ('^' :: v) ++ ('=' :: '>' :: w') ++ s) (.keyed (.type1 u) true t)
  | member {s t w} : GTy x strict s t → WS w → (strict = true → w = []) → GVal x strict (s ++ w) (.member t)
  | groupname {s} : Ident s → strict = false → GVal x strict s (.groupname (String.ofList s))
  | parens {w s g w'} : WS w → GGroup x strict s g → WS w' → (strict = true → ¬ TypeLike g) →
      GVal x strict ('(' :: (w ++ s ++ w') ++ [')']) (.parens g)
  | comma {w s t v v' w'} : WS w → GTy x strict s t → WS v → WS v' → WS w' →
      GVal x strict ('(' :: (w ++ (s ++ (v ++ ',' :: v')) ++ w') ++ [')']) (.parens [[.mk none (.member t)]])
end

/-- `id S *("," S id S)` -/
inductive GParams : List Char → List String → Prop
  | one {s w} : Ident s → WS w → GParams (s ++ w) [String.ofList s]
  | cons {s w w' a as} : Ident s → WS w → WS w' → GParams a as →
      GParams (s ++ w ++ (',' :: w') ++ a) (String.ofList s :: as)

/-- `["<" S id S *("," S id S) ">"]` -/
inductive GOptParams : List Char → List String → Prop
  | none : GOptParams [] []
  | some {w a as} : WS w → GParams a as → GOptParams ('<' :: w ++ (a ++ ['>'])) as

/-- The right-hand side of a rule.  In a layout, a group entry is one the parser cannot take for a type: it begins
with `?`, `*`, `+` or is a group in parentheses. -/
inductive GRuleVal (x : ParseExt) (strict : Bool) : List Char → RuleVal → Prop
  | type {s t} : GTy x strict s t → GRuleVal x strict s (.assignType t)
  | group {s e} : GEntry x strict s e →
      (strict = true → (∃ c s', s = c :: s' ∧ (c = '?' ∨ c = '*' ∨ c = '+')) ∨ ∃ g, e = .mk none (.parens g)) →
      GRuleVal x strict s (.assignGroup e)

/-- What may follow the text of a rule. -/
def AfterRuleVal (v : RuleVal) (r : List Char) : Prop :=
  match v with
  | .assignType t => AfterTy t r
  | .assignGroup (.mk _ v) => AfterVal v r

/-- `rule` -/
inductive GRule (x : ParseExt) (strict : Bool) : List Char → Ast.Rule → Prop
  | mk {n ps w w' s names v} : Ident n → GOptParams ps names → WS w → WS w' → GRuleVal x strict s v →
      GRule x strict (n ++ ps ++ w ++ ('=' :: w') ++ s) ⟨String.ofList n, names, v⟩

/-- `1*(rule S)` -/
inductive GRules (x : ParseExt) (strict : Bool) : List Char → Ast.Cddl → Prop
  | one {s r w} : GRule x strict s r → WS w → (strict = true → AfterRuleVal r.val w) → GRules x strict (s ++ w) [r]
  | cons {s r w s' rs} : GRule x strict s r → WS w → GRules x strict s' rs →
      (strict = true → AfterRuleVal r.val (w ++ s')) → GRules x strict (s ++ w ++ s') (r :: rs)

/-- `cddl = S 1*(rule S)` -/
inductive GCddl (x : ParseExt) (strict : Bool) : List Char → Ast.Cddl → Prop
  | mk {w s rs} : WS w → GRules x strict s rs → GCddl x strict (w ++ s) rs

end Cddl
