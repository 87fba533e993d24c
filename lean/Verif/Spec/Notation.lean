import Verif.Spec.Syntax

/-!
# Notations for the same thing

Pairs of syntax trees that say the same in different notation: parentheses around a type, the names of the prelude that have the
same meaning, the three ways to write a literal key, and, if `κ = true`, occurrences with the same limits and keys of array
entries.
-/

namespace Cddl

open Ast (Ty1 Ty2 MemberKeyVal GrpEntVal GrpEnt RuleVal)

/-- The same name, or two names of the prelude for the same type. -/
def SameName (s s' : String) : Prop := s = s' ∨ ∃ n, (s, n) ∈ preludeTable ∧ (s', n) ∈ preludeTable

/-- The literal that a key is: `a:`, `"a":` and `"a" =>` or `"a" ^=>`. -/
inductive KeyIs : MemberKeyVal → Ast.Value → Prop
  | bareword (s) : KeyIs (.bareword s) (.text s)
  | value (v) : KeyIs (.value v) v
  | type1 (v) : KeyIs (.type1 (.simple (.value v))) v

/-- Types that describe one data item by their form alone. -/
inductive ItemTy : List Ty1 → Prop
  | value (v) : ItemTy [.simple (.value v)]
  | prelude {s n} : (s, n) ∈ preludeTable → ItemTy [.simple (.typename s [])]
  | map (g) : ItemTy [.simple (.map g)]
  | array (g) : ItemTy [.simple (.array g)]
  | inline (g) : ItemTy [.simple (.choiceifyInline g)]
  | choiceify (s as) : ItemTy [.simple (.choiceify s as)]
  | range (a b i) : ItemTy [.range a b i]
  | control (t a op) : ItemTy [.control t a op]

mutual
/-- Different notations for a `type2`. -/
inductive Same2 (κ : Bool) : Ty2 → Ty2 → Prop
  | value (v) : Same2 κ (.value v) (.value v)
  | typename {s s' as as'} : SameName s s' → SameL κ as as' → Same2 κ (.typename s as) (.typename s' as')
  | parens {t t'} : SameT κ t t' → Same2 κ (.parens t) (.parens t')
  | openL {t t'} : Same2 κ t t' → Same2 κ (.parens [.simple t]) t'
  | openR {t t'} : Same2 κ t t' → Same2 κ t (.parens [.simple t'])
  | map {g g'} : SameG κ false g g' → Same2 κ (.map g) (.map g')
  | array {g g'} : SameG κ true g g' → Same2 κ (.array g) (.array g')
  | unwrap (s) {as as'} : SameL κ as as' → Same2 κ (.unwrap s as) (.unwrap s as')
  | inline {g g'} : SameG κ false g g' → Same2 κ (.choiceifyInline g) (.choiceifyInline g')
  | choiceify (s) {as as'} : SameL κ as as' → Same2 κ (.choiceify s as) (.choiceify s as')
/-- Different notations for a `type1`. -/
inductive Same1 (κ : Bool) : Ty1 → Ty1 → Prop
  | simple {t t'} : Same2 κ t t' → Same1 κ (.simple t) (.simple t')
  | openL {t t'} : Same1 κ t t' → Same1 κ (.simple (.parens [t])) t'
  | openR {t t'} : Same1 κ t t' → Same1 κ t (.simple (.parens [t']))
  | range {a a' b b'} (i) : SameP κ a a' → SameP κ b b' → Same1 κ (.range a b i) (.range a' b' i)
  | control {a a' b b'} (op) : Same2 κ a a' → Same2 κ b b' → Same1 κ (.control a b op) (.control a' b' op)
/-- Different notations for the end of a range: no parentheses here. -/
inductive SameP (κ : Bool) : Ty2 → Ty2 → Prop
  | value (v) : SameP κ (.value v) (.value v)
  | typename (s) {as as'} : SameL κ as as' → SameP κ (.typename s as) (.typename s as')
/-- The parts of lists of types. -/
inductive SameL (κ : Bool) : List Ty1 → List Ty1 → Prop
  | nil : SameL κ [] []
  | cons {t t' ts ts'} : Same1 κ t t' → SameL κ ts ts' → SameL κ (t :: ts) (t' :: ts')
/-- Different notations for a type. -/
inductive SameT (κ : Bool) : List Ty1 → List Ty1 → Prop
  | options {t t'} : SameL κ t t' → SameT κ t t'
  | openL {t t'} : SameT κ t t' → SameT κ [.simple (.parens t)] t'
  | openR {t t'} : SameT κ t t' → SameT κ t [.simple (.parens t')]
/-- Groups; `a` says if they are in an array. -/
inductive SameG (κ : Bool) : Bool → List (List GrpEnt) → List (List GrpEnt) → Prop
  | nil (a) : SameG κ a [] []
  | cons {a e e' g g'} : SameEs κ a e e' → SameG κ a g g' → SameG κ a (e :: g) (e' :: g')
/-- Entries. -/
inductive SameEs (κ : Bool) : Bool → List GrpEnt → List GrpEnt → Prop
  | nil (a) : SameEs κ a [] []
  | cons {a e e' es es'} : SameE κ a e e' → SameEs κ a es es' → SameEs κ a (e :: es) (e' :: es')
/-- An entry with its occurrence. -/
inductive SameE (κ : Bool) : Bool → GrpEnt → GrpEnt → Prop
  | same {a v v'} (o) : SameV κ a v v' → SameE κ a (.mk o v) (.mk o v')
  | limits {a v v'} (o o') : κ = true → o.limits = o'.limits → SameV κ a v v' → SameE κ a (.mk (some o) v) (.mk (some o') v')
/-- An entry without it. -/
inductive SameV (κ : Bool) : Bool → GrpEntVal → GrpEntVal → Prop
  | member (a) {t t'} : SameT κ t t' → SameV κ a (.member t) (.member t')
  | keyed (a) {k k' t t'} (c) : SameK κ k k' → SameT κ t t' → SameV κ a (.keyed k c t) (.keyed k' c t')
  | name (a s) : SameV κ a (.groupname s) (.groupname s)
  | nameL (a s) : SameV κ a (.groupname s) (.member [.simple (.typename s [])])
  | nameR (a s) : SameV κ a (.member [.simple (.typename s [])]) (.groupname s)
  | parens {a g g'} : SameG κ a g g' → SameV κ a (.parens g) (.parens g')
  /-- another literal as key of an array entry -/
  | newKey {k k' v v' l l' t t'} (c c') : κ = true → KeyIs k v → ValueIs v l → KeyIs k' v' → ValueIs v' l' → SameT κ t t' →
      SameV κ true (.keyed k c t) (.keyed k' c' t')
  /-- no key -/
  | noKey {k v l t t'} (c) : κ = true → KeyIs k v → ValueIs v l → SameT κ t t' → ItemTy t' →
      SameV κ true (.keyed k c t) (.member t')
/-- Different notations for a key. -/
inductive SameK (κ : Bool) : MemberKeyVal → MemberKeyVal → Prop
  | literal {k k' v} : KeyIs k v → KeyIs k' v → SameK κ k k'
  | type1 {t t'} : Same1 κ t t' → SameK κ (.type1 t) (.type1 t')
end

/-- Different notations for a rule. -/
inductive SameRule (κ : Bool) : Ast.Rule → Ast.Rule → Prop
  | type (s ps) {t t'} : SameT κ t t' → SameRule κ ⟨s, ps, .assignType t⟩ ⟨s, ps, .assignType t'⟩
  | group (s ps) {e e'} : SameE κ false e e' → SameRule κ ⟨s, ps, .assignGroup e⟩ ⟨s, ps, .assignGroup e'⟩

/-- Different notations for a schema. -/
def SameSchema (κ : Bool) (c c' : Ast.Cddl) : Prop := All2 (SameRule κ) c c'

end Cddl
