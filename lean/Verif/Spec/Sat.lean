import Verif.Props.C04
import Verif.Props.C08
import Verif.Props.C10
import Verif.Props.C11
import Verif.Spec.Convert
import Verif.Spec.Cong

/-! # What a schema describes

A declarative reading of the validation tree after RFC 8610, with no notion of matching order, backtracking or
recursion limit.  Entries of arrays describe slices of elements, entries of maps describe collections of
key/value pairs.  Of the cuts of RFC 8610 (section 3.5.4) those of literal keys are taken into account: once an entry
`? k: t` has been passed, no later entry takes the key `k`. -/

namespace Cddl

/-- Where a name is used: at the top, or in the body of a rule with parameters bound to arguments that are
read in an outer scope. -/
inductive Scope
  | root
  | frame (args : List (String × Node)) (outer : Scope)

/-- The argument bound to a parameter (the last one, if a parameter is listed twice). -/
def BoundTo (g : List (String × Node)) (s : String) (n : Node) : Prop :=
  ∃ pre post, g = pre ++ (s, n) :: post ∧ ∀ p ∈ post, p.1 ≠ s

/-- What a name (with generic arguments) stands for, and the scope in which that is to be read. -/
inductive Resolves (env : Env) : Scope → String → List Node → Node → Scope → Prop
  | arg {g outer s n} (as) : BoundTo g s n → Resolves env (.frame g outer) s as n outer
  | atTop {s as d} : env.lookup s = .ok d → d.params.length = as.length →
      Resolves env .root s as d.node (.frame (d.params.zip as) .root)
  | inRule {g outer s as d} : (∀ n, ¬ BoundTo g s n) → env.lookup s = .ok d → d.params.length = as.length →
      Resolves env (.frame g outer) s as d.node (.frame (d.params.zip as) (.frame g outer))

/-- Following names until something else is found. -/
inductive Reaches (env : Env) : Scope → Node → Node → Prop
  | here {c n} : (∀ s as, n ≠ .rule s as) → Reaches env c n n
  | rule {c s as n c' n'} : Resolves env c s as n c' → Reaches env c' n n' → Reaches env c (.rule s as) n'

/-- The values in a range of literals.  A lower end that is not a number, which no schema text can contain, bounds
nothing. -/
inductive InRange : Literal → Literal → Bool → Value → Prop
  | int {a b i x} : InIntRange a b i x → InRange (.int a) (.int b) i (.integer x)
  | float {a b i x} : InFloatRange a b i x → InRange (.float a) (.float b) i (.float x)
  | floatNan {a b i x} : a.nan = true → (x.nan = false ∧ b.nan = false ∧ if i then x.num ≤ b.num else x.num < b.num) →
      InRange (.float a) (.float b) i (.float x)

/-- The values of a target type that `.size` allows.  For unsigned integers a plain size (also written as a range
with equal ends) is the number of bytes that suffice; no integer of the code needs more than 16 bytes. -/
inductive InSize : PreludeType → SizeArg → Value → Prop
  | tstr {z s} : z.Allows s.utf8ByteSize → InSize .tstr z (.text s)
  | bstr {z b} : z.Allows b.length → InSize .bstr z (.bytes b)
  | uint {n x : Nat} : (n < 16 → x < 256 ^ n) → InSize .uint (.exactly n) (.integer x)
  | uintSame {n x : Nat} : (n < 16 → x < 256 ^ n) → InSize .uint (.closed n n) (.integer x)
  | uintRange {z} {x k : Nat} : MinBytes x k → z.Allows k → (∀ n, z ≠ .exactly n) → InSize .uint z (.integer x)

/-- The numbers of repetitions an occurrence indicator allows.  `*` and `+` have no upper limit; as no collection of the
code has 2^64 elements, larger numbers are left out (as they are for `n*`, which the code reads as `n*18446744073709551615`). -/
inductive Count : OccurLimit → Nat → Prop
  | optional {k} : k ≤ 1 → Count .optional k
  | zeroOrMore {k} : k ≤ 18446744073709551615 → Count .zeroOrMore k
  | oneOrMore {k} : 1 ≤ k → k ≤ 18446744073709551615 → Count .oneOrMore k
  | numbered {n m k} : n ≤ k → k ≤ m → Count (.numbered n m) k

/-- What happens to a map on the way through its entries: an entry takes a pair, or a cut keeps a key from later
entries. -/
inductive Mark
  | pair (x v : Value)
  | cut (k : Literal)

/-- The key it is about. -/
def Mark.key : Mark → Value
  | .pair x _ => x
  | .cut k => k.toValue

/-- The pairs taken. -/
def taken : List Mark → List (Value × Value)
  | [] => []
  | .pair x v :: l => (x, v) :: taken l
  | .cut _ :: l => taken l

/-- No key is taken after it was cut. -/
def CutsKept : List Mark → Prop
  | [] => True
  | .pair _ _ :: l => CutsKept l
  | .cut k :: l => (∀ p ∈ taken l, p.1 ≠ k.toValue) ∧ CutsKept l

/-- The cuts of an entry under an occurrence indicator. -/
def Node.cuts : Node → List Mark
  | .keyValue (.literal l) _ true => [.cut l]
  | _ => []

mutual
/-- `v` is described by the type `n`. -/
inductive Sat (env : Env) : Scope → Node → Value → Prop
  | literal (c l) : Sat env c (.literal l) l.toValue
  | prelude (c) {p v} : InPrelude p v → Sat env c (.prelude p) v
  | choice {c l n v} : n ∈ l → Sat env c n v → Sat env c (.choice l) v
  | map {c ms l m} : MSeq env c ms l → CutsKept l → (taken l).Perm m → Sat env c (.map ms) (.map m)
  | array {c ms xs} : Seq env c ms xs → Sat env c (.array ms) (.array xs)
  | rule {c s as n c' v} : Resolves env c s as n c' → Sat env c' n v → Sat env c (.rule s as) v
  | group {c m v} : Sat env c m v → Sat env c (.group [m]) v
  | range {c a b i la lb v} : Reaches env c a (.literal la) → Reaches env c b (.literal lb) → InRange la lb i v →
      Sat env c (.range a b i) v
  | compare {c op t a p k x} : Reaches env c t (.prelude p) → Reaches env c a (.literal (.int k)) → InIntType p x →
      Compares op x k → Sat env c (.ctl op t a) (.integer x)
  | size {c t a p} {z : SizeArg} {v} : Reaches env c t (.prelude p) → Reaches env c a z.node → InSize p z v →
      Sat env c (.ctl .size t a) v
  | regexp (c) {p t} : env.regexMatch p t = true → Sat env c (.ctlRegexp p) (.text t)
  | cbor {c n b d v} : env.cborDecode b = .ok d → CborIs d v → Sat env c n v → Sat env c (.ctlCbor n) (.bytes b)
  | choiceify {c s as v} : OneOf env c s as v → Sat env c (.choiceify s as) v
  | choiceifyInline {c ms m v} : m ∈ ms → Alt env c m v → Sat env c (.choiceifyInline ms) v
/-- `v` is described by the alternative that the group member `m` becomes under `&`. -/
inductive Alt (env : Env) : Scope → Node → Value → Prop
  | keyValue {c t v} (k cut) : Sat env c t v → Alt env c (.keyValue k t cut) v
  | rule {c s as v} : OneOf env c s as v → Alt env c (.rule s as) v
  | other {c m v} : (∀ k t cut, m ≠ .keyValue k t cut) → (∀ s as, m ≠ .rule s as) → Sat env c m v → Alt env c m v
/-- `v` is described by one of the members of the group named `s`. -/
inductive OneOf (env : Env) : Scope → String → List Node → Value → Prop
  | group {c s as ms c' m v} : Resolves env c s as (.group ms) c' → m ∈ ms → Alt env c' m v → OneOf env c s as v
  | rule {c s as s' as' c' v} : Resolves env c s as (.rule s' as') c' → OneOf env c' s' as' v → OneOf env c s as v
/-- The array entry `n` describes the slice `xs`. -/
inductive Item (env : Env) : Scope → Node → List Value → Prop
  | value {c n v} : n.isItem = true → Sat env c n v → Item env c n [v]
  | keyValue {c t v} (k cut) : Sat env c t v → Item env c (.keyValue k t cut) [v]
  | rule {c s as n c' xs} : Resolves env c s as n c' → Item env c' n xs → Item env c (.rule s as) xs
  | unwrap {c s as ms c' xs} : Resolves env c s as (.array ms) c' → Seq env c' ms xs → Item env c (.unwrap s as) xs
  | choice {c l n xs} : n ∈ l → Item env c n xs → Item env c (.choice l) xs
  | group {c ms xs} : Seq env c ms xs → Item env c (.group ms) xs
  | occur {c o n k xs} : Count o k → Rep env c n k xs → Item env c (.occur o n) xs
/-- The entries describe consecutive slices. -/
inductive Seq (env : Env) : Scope → List Node → List Value → Prop
  | nil (c) : Seq env c [] []
  | cons {c n ns xs ys} : Item env c n xs → Seq env c ns ys → Seq env c (n :: ns) (xs ++ ys)
/-- `k` consecutive slices, each described by `n`. -/
inductive Rep (env : Env) : Scope → Node → Nat → List Value → Prop
  | zero (c n) : Rep env c n 0 []
  | succ {c n k xs ys} : Item env c n xs → Rep env c n k ys → Rep env c n (k + 1) (xs ++ ys)
/-- The map entry `n` describes the pairs in `l`. -/
inductive MItem (env : Env) : Scope → Node → List Mark → Prop
  | keyValue {c k t x v} (cut) : Sat env c k x → Sat env c t v → MItem env c (.keyValue k t cut) [.pair x v]
  | rule {c s as n c' l} : Resolves env c s as n c' → MItem env c' n l → MItem env c (.rule s as) l
  | unwrap {c s as ms c' l} : Resolves env c s as (.map ms) c' → MSeq env c' ms l → MItem env c (.unwrap s as) l
  | choice {c os n l} : n ∈ os → MItem env c n l → MItem env c (.choice os) l
  | group {c ms l} : MSeq env c ms l → MItem env c (.group ms) l
  | occur {c o n k l} : Count o k → MRep env c n k l → MItem env c (.occur o n) (l ++ n.cuts)
/-- The entries describe disjoint collections of pairs. -/
inductive MSeq (env : Env) : Scope → List Node → List Mark → Prop
  | nil (c) : MSeq env c [] []
  | cons {c n ns l l'} : MItem env c n l → MSeq env c ns l' → MSeq env c (n :: ns) (l ++ l')
/-- `k` disjoint collections of pairs, each described by `n`. -/
inductive MRep (env : Env) : Scope → Node → Nat → List Mark → Prop
  | zero (c n) : MRep env c n 0 []
  | succ {c n k l l'} : MItem env c n l → MRep env c n k l' → MRep env c n (k + 1) (l ++ l')
end

end Cddl
