import Verif.Model.Validate

/-! # Schemas that can be matched without second thoughts

The validator matches the entries of arrays and maps from left to right, takes as much as it can, and does not go
back once an entry has matched.  The following conditions on a schema are read off its rules.  They say that the next
element of an array, or the keys of a map, always tell which entry describes it (as in predictive parsing).  A rule
name is judged by what a given assignment (`Forecast`) says of it; the assignment has to agree with the rules. -/

namespace Cddl

/-- Sorts of data. -/
inductive DataSort
  | null | bool | uint | nint | float | bytes | text | array | map
  deriving DecidableEq, Repr

/-- The sort of a value. -/
def Value.sort : Value → DataSort
  | .null => .null
  | .bool _ => .bool
  | .integer i => if 0 ≤ i then .uint else .nint
  | .float _ => .float
  | .bytes _ => .bytes
  | .text _ => .text
  | .array _ => .array
  | .map _ => .map

/-- All data of a sort, or a single literal. -/
inductive Atom
  | sort (s : DataSort)
  | lit (l : Literal)
  deriving DecidableEq

namespace Atom

/-- Membership. -/
def Has : Atom → Value → Prop
  | .sort s, v => v.sort = s
  | .lit l, v => v = l.toValue

/-- Nothing in common. -/
def apart : Atom → Atom → Bool
  | .sort s, .sort s' => s != s'
  | .sort s, .lit l => l.toValue.sort != s
  | .lit l, .sort s => l.toValue.sort != s
  | .lit l, .lit l' => l != l'

/-- Inclusion. -/
def within : Atom → Atom → Bool
  | .lit l, .sort s => l.toValue.sort == s
  | a, b => a == b

end Atom

/-- A set of data that can be told at a glance: everything (`none`), or a list of alternatives. -/
abbrev Look := Option (List Atom)

namespace Look

/-- Membership. -/
def Has (A : Look) (v : Value) : Prop :=
  match A with
  | none => True
  | some l => ∃ a ∈ l, a.Has v

/-- Nothing. -/
def never : Look := some []

/-- Union. -/
def or (A B : Look) : Look :=
  match A, B with
  | some a, some b => some (a ++ b.filter fun x => !a.contains x)
  | _, _ => none

/-- The set if a condition is met, else nothing. -/
def when (c : Bool) (A : Look) : Look := if c then A else never

/-- Nothing in common. -/
def apart (A B : Look) : Bool :=
  match A, B with
  | some a, some b => a.all fun x => b.all fun y => x.apart y
  | some [], none => true
  | none, some [] => true
  | _, _ => false

/-- Inclusion. -/
def within (A B : Look) : Bool :=
  match A, B with
  | _, none => true
  | none, some _ => false
  | some a, some b => a.all fun x => b.any fun y => x.within y

/-- Just one literal. -/
def single : Look → Bool
  | some [.lit _] => true
  | _ => false

end Look

/-- What is known of an entry of an array.  `ok`: inside it the next element always decides, provided it is not
followed by an element in `clash`.  `first`: the elements it may begin with.  `empty`: it may describe no elements at
all.  `one`: it describes single elements only. -/
structure ItemFacts where
  ok : Bool
  first : Look
  empty : Bool
  clash : Look
  one : Bool
  deriving DecidableEq

namespace ItemFacts

/-- Entries in a row. -/
def seq : List ItemFacts → ItemFacts
  | [] => ⟨true, .never, true, .never, false⟩
  | e :: es =>
    let r := seq es
    ⟨e.ok && r.ok && e.clash.apart r.first, e.first.or (r.first.when e.empty), e.empty && r.empty,
      r.clash.or (e.clash.when r.empty), e.one && es.isEmpty⟩

/-- A choice of entries: of single elements, or such that the next element decides; then only the last may be empty. -/
def choice : List ItemFacts → ItemFacts
  | [] => ⟨true, .never, false, .never, true⟩
  | [e] => e
  | e :: es =>
    let r := choice es
    ⟨e.ok && r.ok && !e.empty && ((e.one && r.one) || e.first.apart r.first), e.first.or r.first, r.empty,
      (e.clash.or r.clash).or (e.first.when r.empty), e.one && r.one⟩

/-- Repetitions of an entry, which must not be empty. -/
def occur (o : OccurLimit) (e : ItemFacts) : ItemFacts :=
  ⟨e.ok && !e.empty && (decide (o.limits.2 ≤ 1) || e.clash.apart e.first), e.first, o.limits.1 == 0,
    e.clash.or (e.first.when !(o.limits.1 == o.limits.2 && decide (1 ≤ o.limits.2))), false⟩

/-- `e` is as good as promised by `p`. -/
def le (e p : ItemFacts) : Bool :=
  e.ok && e.first.within p.first && (!e.empty || p.empty) && e.clash.within p.clash && (e.one || !p.one)

end ItemFacts

/-- What is known of an entry of a map.  `ok`: inside it the keys always decide.  `keys`: the keys it may take.
`empty`: it may describe no pairs at all.  `leaf`: a single key with its value.  `copes`: it finds its pairs even if
later entries allow the same keys: its keys are literals that are required, cut, or optional; `grab`: the keys of those
that are just optional, whose pairs it may take although a later entry describes them.  `held`: the keys of the pairs
that it cannot do without; others may be taken away and the rest is still described. -/
structure MemberFacts where
  ok : Bool
  keys : Look
  empty : Bool
  leaf : Bool
  copes : Bool
  grab : Look
  held : Look
  deriving DecidableEq

namespace MemberFacts

/-- Entries in a row: the keys tell them apart, or what the first grabs the others can do without. -/
def seq : List MemberFacts → MemberFacts
  | [] => ⟨true, .never, true, false, true, .never, .never⟩
  | e :: es =>
    let r := seq es
    ⟨e.ok && r.ok && ((e.copes && e.grab.apart r.held) || e.keys.apart r.keys), e.keys.or r.keys, e.empty && r.empty, false,
      e.copes && r.copes, e.grab.or r.grab, e.held.or r.held⟩

/-- A choice of entries; only the last may be empty. -/
def choice : List MemberFacts → MemberFacts
  | [] => ⟨true, .never, false, false, false, .never, .never⟩
  | [e] => { e with leaf := false, held := e.keys }
  | e :: es =>
    let r := choice es
    ⟨e.ok && r.ok && !e.empty && e.keys.apart r.keys, e.keys.or r.keys, r.empty, false, false, .never, e.keys.or r.keys⟩

/-- Repetitions of an entry: of a single pair, or at most one.  `cut`: the key is literal, with a cut; `loose`: it is a
literal, without a cut. -/
def occur (o : OccurLimit) (cut loose : Bool) (e : MemberFacts) : MemberFacts :=
  ⟨e.ok && (e.leaf || decide (o.limits.2 ≤ 1)), e.keys, o.limits.1 == 0 || e.empty, false,
    cut || (loose && o.limits.1 == 0), e.keys.when (!cut), e.keys.when !(e.leaf && o.limits.1 == 0)⟩

/-- `e` is as good as promised by `p`. -/
def le (e p : MemberFacts) : Bool :=
  e.ok && e.keys.within p.keys && (!e.empty || p.empty) && !p.leaf && (e.copes || !p.copes) && e.grab.within p.grab &&
    e.held.within p.held

end MemberFacts

/-- What is assumed of a rule name: as a type, after `&`, as an entry of an array or of a map, after `~`. -/
structure Facts where
  type : Bool
  look : Look
  alt : Bool
  entry : ItemFacts
  unwrapEntry : ItemFacts
  member : MemberFacts
  unwrapMember : MemberFacts
  deriving DecidableEq

/-- What is assumed of all names. -/
abbrev Forecast := String → Facts

/-- A literal key with a cut. -/
def Node.cutKey : Node → Bool
  | .keyValue (.literal _) _ true => true
  | _ => false

/-- A key without a cut. -/
def Node.uncut : Node → Bool
  | .keyValue _ _ false => true
  | _ => false

/-- What data of a predefined type looks like. -/
def PreludeType.look : PreludeType → Look
  | .any => none
  | .nil => some [.sort .null]
  | .bool => some [.sort .bool]
  | .int => some [.sort .uint, .sort .nint]
  | .uint => some [.sort .uint]
  | .nint => some [.sort .nint]
  | .float => some [.sort .float]
  | .tstr => some [.sort .text]
  | .bstr => some [.sort .bytes]

mutual
/-- What data of a type looks like. -/
def Node.look (J : Forecast) : Node → Look
  | .literal l => some [.lit l]
  | .prelude p => p.look
  | .choice l | .group l => Node.looks J l
  | .map _ => some [.sort .map]
  | .array _ => some [.sort .array]
  | .rule s _ => (J s).look
  | .range (.literal (.int _)) _ _ => some [.sort .uint, .sort .nint]
  | .range (.literal (.float _)) _ _ => some [.sort .float]
  | .range .. => some [.sort .uint, .sort .nint, .sort .float]
  | .ctl _ (.prelude p) _ => p.look
  | .ctl .. => some [.sort .uint, .sort .nint, .sort .text, .sort .bytes]
  | .ctlRegexp _ => some [.sort .text]
  | .ctlCbor _ => some [.sort .bytes]
  | .keyValue .. | .occur .. | .unwrap .. => .never
  | .choiceify .. | .choiceifyInline _ => none
/-- What data of one of the types looks like. -/
def Node.looks (J : Forecast) : List Node → Look
  | [] => .never
  | n :: ns => (n.look J).or (Node.looks J ns)
end

mutual
/-- Inside the type the data always decides. -/
def Node.clear (J : Forecast) : Node → Bool
  | .literal _ | .prelude _ | .ctlRegexp _ | .range .. | .ctl .. | .keyValue .. | .occur .. | .unwrap .. => true
  | .choice l | .group l => Node.clears J l
  | .map l => (MemberFacts.seq (Node.members J l)).ok
  | .array l => (ItemFacts.seq (Node.entries J l)).ok
  | .rule s as => (J s).type && Node.clearArgs J as
  | .ctlCbor n => n.clear J
  | .choiceify s as => (J s).alt && Node.clearArgs J as
  | .choiceifyInline l => Node.clearAlts J l
/-- Of all types. -/
def Node.clears (J : Forecast) : List Node → Bool
  | [] => true
  | n :: ns => n.clear J && Node.clears J ns
/-- Of the alternative made of a group member. -/
def Node.clearAlt (J : Forecast) : Node → Bool
  | .literal _ | .prelude _ | .ctlRegexp _ | .range .. | .ctl .. | .occur .. | .unwrap .. => true
  | .keyValue _ t _ => t.clear J
  | .choice l | .group l => Node.clears J l
  | .map l => (MemberFacts.seq (Node.members J l)).ok
  | .array l => (ItemFacts.seq (Node.entries J l)).ok
  | .rule s as => (J s).alt && Node.clearArgs J as
  | .ctlCbor n => n.clear J
  | .choiceify s as => (J s).alt && Node.clearArgs J as
  | .choiceifyInline l => Node.clearAlts J l
/-- Of all alternatives. -/
def Node.clearAlts (J : Forecast) : List Node → Bool
  | [] => true
  | n :: ns => n.clearAlt J && Node.clearAlts J ns
/-- Generic arguments can be used anywhere. -/
def Node.clearArgs (J : Forecast) : List Node → Bool
  | [] => true
  | n :: ns => n.clear J && (n.entry J).ok && !(n.entry J).empty && (n.entry J).clash == .never &&
      (n.entry J).one && Node.clearArgs J ns
/-- What is known of an entry of an array. -/
def Node.entry (J : Forecast) : Node → ItemFacts
  | .literal l => ⟨true, some [.lit l], false, .never, true⟩
  | .prelude p => ⟨true, p.look, false, .never, true⟩
  | .ctlRegexp _ => ⟨true, some [.sort .text], false, .never, true⟩
  | .range a b i => ⟨true, Node.look J (.range a b i), false, .never, true⟩
  | .ctl o t a => ⟨true, Node.look J (.ctl o t a), false, .never, true⟩
  | .map l => ⟨(MemberFacts.seq (Node.members J l)).ok, some [.sort .map], false, .never, true⟩
  | .array l => ⟨(ItemFacts.seq (Node.entries J l)).ok, some [.sort .array], false, .never, true⟩
  | .ctlCbor n => ⟨n.clear J, some [.sort .bytes], false, .never, true⟩
  | .choiceify s as => ⟨(J s).alt && Node.clearArgs J as, none, false, .never, true⟩
  | .choiceifyInline l => ⟨Node.clearAlts J l, none, false, .never, true⟩
  | .keyValue _ t _ => ⟨t.clear J, t.look J, false, .never, true⟩
  | .rule s as => { (J s).entry with ok := (J s).entry.ok && Node.clearArgs J as }
  | .unwrap s as => { (J s).unwrapEntry with ok := (J s).unwrapEntry.ok && Node.clearArgs J as }
  | .choice l => .choice (Node.entries J l)
  | .group l => .seq (Node.entries J l)
  | .occur o n => .occur o (n.entry J)
/-- Of each entry of an array. -/
def Node.entries (J : Forecast) : List Node → List ItemFacts
  | [] => []
  | n :: ns => n.entry J :: Node.entries J ns
/-- What is known of an entry of a map. -/
def Node.member (J : Forecast) : Node → MemberFacts
  | .keyValue k t _ =>
    ⟨k.clear J && t.clear J, k.look J, false, true, (k.look J).single, .never, k.look J⟩
  | .rule s as =>
    { (J s).member with ok := (J s).member.ok && Node.clearArgs J as, leaf := false }
  | .unwrap s as =>
    { (J s).unwrapMember with ok := (J s).unwrapMember.ok && Node.clearArgs J as, leaf := false }
  | .choice l => .choice (Node.members J l)
  | .group l => .seq (Node.members J l)
  | .occur o n => .occur o n.cutKey (n.uncut && (n.member J).leaf && (n.member J).keys.single) (n.member J)
  | _ => ⟨false, none, true, false, false, none, none⟩
/-- Of each entry of a map. -/
def Node.members (J : Forecast) : List Node → List MemberFacts
  | [] => []
  | n :: ns => n.member J :: Node.members J ns
end

/-- The body of a rule is as good as assumed of its name. -/
structure Forecast.AgreesAt (J : Forecast) (s : String) (d : RuleDef) : Prop where
  type : (J s).type = true → d.node.clear J = true ∧ (d.node.look J).within (J s).look = true
  alt : (J s).alt = true → match d.node with
    | .group ms => Node.clearAlts J ms = true
    | .rule s' as => ((J s').alt && Node.clearArgs J as) = true
    | _ => True
  entry : (J s).entry.ok = true → (d.node.entry J).le (J s).entry = true
  unwrapEntry : (J s).unwrapEntry.ok = true → ∀ ms, d.node = .array ms →
    (ItemFacts.seq (Node.entries J ms)).le (J s).unwrapEntry = true
  member : (J s).member.ok = true → (d.node.member J).le (J s).member = true
  unwrapMember : (J s).unwrapMember.ok = true → ∀ ms, d.node = .map ms →
    (MemberFacts.seq (Node.members J ms)).le (J s).unwrapMember = true
  /-- a parameter may stand for anything, is no group, and `&T` and `~T` are not used -/
  params : ∀ q ∈ d.params, (J q).look = none ∧ (J q).entry.first = none ∧ (J q).alt = false ∧
    (J q).unwrapEntry.ok = false ∧ (J q).member.ok = false ∧ (J q).unwrapMember.ok = false

/-- The assumptions agree with all rules. -/
def Forecast.Agrees (J : Forecast) (env : Env) : Prop := ∀ s d, env.lookup s = .ok d → J.AgreesAt s d

end Cddl
