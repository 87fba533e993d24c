import Verif.Spec.Takes
import Verif.Spec.Size

/-! # Schemas without repetitions that take nothing

`* n` is tried again as long as `n` matches, up to `usize::MAX` times (/repo/src/validate.rs:612-638 and 886-914).  The test here reads
the rules and makes sure that whatever is repeated takes an element, or a pair, whenever it matches. -/

namespace Cddl

mutual
/-- If this entry matches, it takes an element or a pair; `K` says this of names. -/
def Node.takes (K : String → Bool) : Node → Bool
  | .rule s _ => K s
  | .choice l => Node.takesAll K l
  | .choiceifyInline l => Node.takesAll K l
  | .group l => Node.takesOne K l
  | .occur o n => decide (0 < o.limits.1) && n.takes K
  | .unwrap .. | .choiceify .. => false
  | _ => true
/-- All of these do. -/
def Node.takesAll (K : String → Bool) : List Node → Bool
  | [] => true
  | n :: ns => n.takes K && Node.takesAll K ns
/-- One of these does. -/
def Node.takesOne (K : String → Bool) : List Node → Bool
  | [] => false
  | n :: ns => n.takes K || Node.takesOne K ns
end

mutual
/-- What is repeated takes something, and so do the arguments of generic rules; there is no `.cbor`. -/
def Node.lively (K : String → Bool) : Node → Bool
  | .occur o n => (decide (o.limits.2 ≤ 1) || n.takes K) && n.lively K
  | .rule _ as => Node.takesAll K as && Node.livelyL K as
  | .unwrap _ as => Node.takesAll K as && Node.livelyL K as
  | .choiceify _ as => Node.takesAll K as && Node.livelyL K as
  | .choice l => Node.livelyL K l
  | .map l => Node.livelyL K l
  | .array l => Node.livelyL K l
  | .group l => Node.livelyL K l
  | .choiceifyInline l => Node.livelyL K l
  | .keyValue k t _ => k.lively K && t.lively K
  | .range a b _ => a.lively K && b.lively K
  | .ctl _ a b => a.lively K && b.lively K
  | .ctlCbor _ => false
  | .literal _ | .prelude _ | .ctlRegexp _ => true
/-- All of them. -/
def Node.livelyL (K : String → Bool) : List Node → Bool
  | [] => true
  | n :: ns => n.lively K && Node.livelyL K ns
end

/-- The names known inside a rule: its parameters, and `K`. -/
def RuleDef.knows (d : RuleDef) (K : String → Bool) (s : String) : Bool := d.params.contains s || K s

/-- The rules pass the test, with `known` for the names of rules that take something. -/
def RuleTable.lively (t : RuleTable) (known : List String) : Bool :=
  t.all fun r => (!known.contains r.1 || r.2.node.takes (r.2.knows known.contains)) &&
    r.2.node.lively (r.2.knows known.contains)

mutual
/-- The largest number of elements of an array, or pairs of a map, anywhere in the data. -/
def Value.breadth : Value → Nat
  | .array xs => max xs.length (Value.breadths xs)
  | .map m => max m.length (Value.pairBreadths m)
  | _ => 0
/-- The largest for the elements. -/
def Value.breadths : List Value → Nat
  | [] => 0
  | x :: xs => max x.breadth (Value.breadths xs)
/-- The largest for keys and values. -/
def Value.pairBreadths : List (Value × Value) → Nat
  | [] => 0
  | (k, v) :: t => max (max k.breadth v.breadth) (Value.pairBreadths t)
end

end Cddl
