import Verif.Model.Cost
import Verif.Spec.Size

/-! # Schemas under which every value is looked into once

A type that is an array or a map has to look into the value, and so do types that are names of, or choices with, such
types.  If a value that has been looked into in vain is looked into again by the next option, and so on at every level,
the work grows exponentially with the depth of the data.  The test here makes sure that it is not: where several options
look into arrays, the first element tells them apart, and where several look into maps, the first member. -/

namespace Cddl

/-- The arrays, or maps, a type looks into: all of them, or those whose first element is a given literal, or in which a
given key has a given literal as its value. -/
inductive Shape
  | arr (first : Option Literal)
  | map (tag : Option (Literal × Literal))
  deriving DecidableEq, Repr

/-- A value of this shape. -/
def Shape.fits : Shape → Value → Bool
  | .arr none, .array _ => true
  | .arr (some l), .array (x :: _) => x.beq l.toValue
  | .map none, .map _ => true
  | .map (some (k, l)), .map m => match VMap.get m k.toValue with
    | some x => x.beq l.toValue
    | none => false
  | _, _ => false

/-- No value has both shapes. -/
def Shape.apart : Shape → Shape → Bool
  | .arr _, .map _ | .map _, .arr _ => true
  | .arr (some a), .arr (some b) => !a.toValue.beq b.toValue
  | .map (some (k, a)), .map (some (k', b)) => k.toValue.beq k'.toValue && !a.toValue.beq b.toValue
  | _, _ => false

/-- No value has a shape of both lists. -/
def apartAll (l l' : List Shape) : Bool := l.all fun a => l'.all fun b => a.apart b

/-- The literal an entry of an array asks for. -/
def Node.firstLit : Node → Option Literal
  | .literal l | .keyValue _ (.literal l) _ => some l
  | _ => none

/-- The literal key a member of a map asks for, with a literal as its value. -/
def Node.tagLit : Node → Option (Literal × Literal)
  | .keyValue (.literal k) (.literal l) _ => some (k, l)
  | _ => none

mutual
/-- The values a type, or the type of an entry, looks into; `O` says this of names. -/
def Node.shapes (O : String → List Shape) : Node → List Shape
  | .array [] => [.arr none]
  | .array (m :: _) => [.arr m.firstLit]
  | .map [] => [.map none]
  | .map (m :: _) => [.map m.tagLit]
  | .choice l => Node.shapesL O l
  | .rule s _ => O s
  | .keyValue _ t _ => t.shapes O
  | .occur _ n => n.shapes O
  | _ => []
/-- Those one of the types looks into. -/
def Node.shapesL (O : String → List Shape) : List Node → List Shape
  | [] => []
  | n :: ns => n.shapes O ++ Node.shapesL O ns
end

mutual
/-- How many calls a type takes that does not look into the value; `F` says this of names. -/
def Node.flat (F : String → Nat) : Node → Nat
  | .choice l => 2 + Node.flats F l
  | .rule s _ => 2 + F s
  | .keyValue k t _ => 1 + k.flat F + t.flat F
  | .occur _ n => 1 + n.flat F
  | _ => 4
/-- All together. -/
def Node.flats (F : String → Nat) : List Node → Nat
  | [] => 0
  | n :: ns => n.flat F + Node.flats F ns
end

/-- Where a part of a schema stands: as a type, as what an entry of an array repeats, as an entry of an array, as what a
member of a map repeats, as a member of a map. -/
inductive Standing
  | type
  | item
  | entry
  | pair
  | member
  deriving DecidableEq, Repr

/-- Not a name. -/
def Node.unnamed : Node → Bool
  | .rule .. => false
  | _ => true

/-- If the value of this entry or member fails, those behind it are tried all the same: it may be left out, and is no
member of a map with a cut. -/
def Node.soft : Standing → Node → Bool
  | .member, .occur _ (.keyValue _ _ cut) => !cut
  | _, .occur _ _ => true
  | _, _ => false

mutual
/-- Every value is looked into once: the options of a choice look into different values, an entry that may be left out and
those behind it look into different values, keys are not looked into.  The entries of an array and the members of a map
take at most `W` calls as long as they do not look into their values.  There are no groups, no operators `~`, `&` and
`.cbor`, and no generic names. -/
def Node.frugal (O : String → List Shape) (F : String → Nat) (W : Nat) : Standing → Node → Bool
  | .entry, .occur _ n => n.frugal O F W .item
  | .entry, .keyValue _ t _ => t.frugal O F W .type
  | .item, .keyValue _ t _ => t.frugal O F W .type
  | .member, .occur _ n => n.frugal O F W .pair
  | .member, .keyValue k t _ => k.frugal O F W .type && (k.shapes O).isEmpty && t.frugal O F W .type
  | .pair, .keyValue k t _ => k.frugal O F W .type && (k.shapes O).isEmpty && t.frugal O F W .type
  | .pair, _ => false
  | .member, _ => false
  | _, .literal _ | _, .prelude _ | _, .ctlRegexp _ => true
  | _, .range a b _ => a.unnamed && b.unnamed
  | _, .ctl _ t a => t.unnamed && a.unnamed
  | _, .choice l => Node.frugalOptions O F W l
  | _, .rule _ as => as.isEmpty
  | _, .array ms => Node.frugalAll O F W .entry ms && decide (Node.flats F ms ≤ W)
  | _, .map ms => Node.frugalAll O F W .member ms && decide (Node.flats F ms ≤ W)
  | _, _ => false
/-- The same of the options of a choice. -/
def Node.frugalOptions (O : String → List Shape) (F : String → Nat) (W : Nat) : List Node → Bool
  | [] => true
  | n :: ns => n.frugal O F W .type && apartAll (n.shapes O) (Node.shapesL O ns) && Node.frugalOptions O F W ns
/-- The same of the entries of an array or the members of a map. -/
def Node.frugalAll (O : String → List Shape) (F : String → Nat) (W : Nat) (p : Standing) : List Node → Bool
  | [] => true
  | n :: ns => n.frugal O F W p && (!n.soft p || apartAll (n.shapes O) (Node.shapesL O ns)) && Node.frugalAll O F W p ns
end

mutual
/-- How many values a value is made of, keys included. -/
def Value.size : Value → Nat
  | .array xs => 1 + Value.sizes xs
  | .map m => 1 + Value.pairSizes m
  | _ => 1
/-- All elements together. -/
def Value.sizes : List Value → Nat
  | [] => 0
  | x :: xs => x.size + Value.sizes xs
/-- All keys and values together. -/
def Value.pairSizes : List (Value × Value) → Nat
  | [] => 0
  | (k, v) :: t => k.size + v.size + Value.pairSizes t
end

/-! ## The test on a table -/

mutual
/-- The largest number of calls the entries of an array, or the members of a map, within a type take without looking into
their values. -/
def Node.widest (F : String → Nat) : Node → Nat
  | .array ms | .map ms => Nat.max (Node.flats F ms) (Node.widestL F ms)
  | .choice l => Node.widestL F l
  | .keyValue k t _ => Nat.max (k.widest F) (t.widest F)
  | .occur _ n => n.widest F
  | _ => 0
/-- The largest of them. -/
def Node.widestL (F : String → Nat) : List Node → Nat
  | [] => 0
  | n :: ns => Nat.max (n.widest F) (Node.widestL F ns)
end

/-- What is assumed of a name: the values it looks into, and the number of calls it takes otherwise. -/
abbrev Tally := List (String × List Shape × Nat)

/-- The values a name looks into. -/
def Tally.shapes : Tally → String → List Shape
  | [], _ => []
  | (n, l, _) :: rest, s => if n = s then l else Tally.shapes rest s

/-- The number of calls a name takes otherwise. -/
def Tally.flat : Tally → String → Nat
  | [], _ => 0
  | (n, _, k) :: rest, s => if n = s then k else Tally.flat rest s

/-- One round. -/
def RuleTable.tallyRound (t : RuleTable) (l : Tally) : Tally :=
  t.map fun p => (p.1, (p.2.node.shapes l.shapes).eraseDups, p.2.node.flat l.flat)

/-- As many rounds as asked for. -/
def RuleTable.tallyRounds (t : RuleTable) : Nat → Tally
  | 0 => []
  | k + 1 => t.tallyRound (t.tallyRounds k)

/-- What is assumed of the names of a table. -/
def RuleTable.tally (t : RuleTable) : Tally := t.tallyRounds (t.length + 1)

/-- The largest number of calls the entries of an array, or the members of a map, of the table take without looking into
their values. -/
def RuleTable.width (t : RuleTable) : Nat := Node.widestL t.tally.flat (t.map fun p => p.2.node)

/-- Under the rules of the table every value is looked into once. -/
def RuleTable.frugal (t : RuleTable) : Bool :=
  t.all fun p => p.2.node.frugal t.tally.shapes t.tally.flat t.width .type &&
    decide (p.2.node.flat t.tally.flat ≤ t.tally.flat p.1) &&
    (p.2.node.shapes t.tally.shapes).all fun h => decide (h ∈ t.tally.shapes p.1)

mutual
/-- There are no maps in the value. -/
def Value.mapless : Value → Bool
  | .array xs => Value.maplessL xs
  | .map _ => false
  | _ => true
/-- Nor in any of these. -/
def Value.maplessL : List Value → Bool
  | [] => true
  | x :: xs => x.mapless && Value.maplessL xs
end

end Cddl
