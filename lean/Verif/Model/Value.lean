import Verif.Model.Basic

/-!
# Data values

Models /repo/src/value.rs, the derived `Ord`, and the `BTreeMap<Value, Value>` operations the
validator uses.
-/

namespace Cddl

/-- An `f64`, given by its bit pattern. -/
structure F64 where
  bits : UInt64
  deriving DecidableEq, Repr

namespace F64

/-- Sign bit of an `f64`. -/
def neg (x : F64) : Bool := decide (2 ^ 63 ≤ x.bits.toNat)

/-- Exponent and mantissa bits of an `f64` as a number (monotone in the absolute value). -/
def mag (x : F64) : Nat := if x.neg then x.bits.toNat - 2 ^ 63 else x.bits.toNat

/-- IEEE 754 NaN: exponent all ones and a non-zero mantissa. -/
def isNaN (x : F64) : Bool := decide (0x7FF0000000000000 < x.mag)

/-- Signed magnitude; for non-NaN patterns this is strictly monotone in the IEEE value
(both zeros map to 0). -/
def key (x : F64) : Int := if x.neg then - (x.mag : Int) else (x.mag : Int)

/-- IEEE `<` on `f64` (`PartialOrd` used by `check_range`, /repo/src/validate.rs:987-996). -/
def lt (a b : F64) : Bool := !a.isNaN && !b.isNaN && decide (a.key < b.key)

/-- IEEE `<=` on `f64`. -/
def le (a b : F64) : Bool := !a.isNaN && !b.isNaN && decide (a.key ≤ b.key)

/-- The monotone recoding used by `float_ord::FloatOrd` (/repo/src/value.rs:6,21): flip the
sign bit of non-negative patterns, all bits of negative ones. -/
def ordKey (x : F64) : Nat :=
  if x.neg then 2 ^ 64 - 1 - x.bits.toNat else x.bits.toNat + 2 ^ 63

end F64

/-- `Value`, /repo/src/value.rs:15-26.  `Integer(i128)` is an unbounded `Int` (the conversions only
produce -2^64..2^64-1); `Map(BTreeMap)` is an association list, strictly sorted by `Value.cmp`
(predicate `Value.WF`); `Bytes` is a list of bytes. -/
inductive Value
  | null
  | bool (b : Bool)
  | integer (i : Int)
  | float (f : F64)
  | bytes (b : List UInt8)
  | text (s : String)
  | array (xs : List Value)
  | map (m : List (Value × Value))
  deriving Repr, Inhabited

/-- Lexicographic comparison of lists (`Ord` of `Vec`). -/
def cmpList {α : Type} (c : α → α → Ordering) : List α → List α → Ordering
  | [], [] => .eq
  | [], _ :: _ => .lt
  | _ :: _, [] => .gt
  | a :: as, b :: bs => (c a b).then (cmpList c as bs)

/-- `Ord` of `String`.  Rust compares UTF-8 bytes; that order is the order of code points. -/
def cmpString (a b : String) : Ordering :=
  cmpList (fun (x y : Char) => compare x.toNat y.toNat) a.toList b.toList

/-- Position of a variant in the enum declaration, /repo/src/value.rs:17-26 (derived `Ord` compares
the variants in declaration order). -/
def Value.tag : Value → Nat
  | .null => 0
  | .bool _ => 1
  | .integer _ => 2
  | .float _ => 3
  | .bytes _ => 4
  | .text _ => 5
  | .array _ => 6
  | .map _ => 7

mutual
/-- The derived `Ord` of `Value`, /repo/src/value.rs:15. -/
def Value.cmp (a b : Value) : Ordering :=
  match a, b with
  | .bool x, .bool y => compare x.toNat y.toNat
  | .integer x, .integer y => compare x y
  | .float x, .float y => compare x.ordKey y.ordKey
  | .bytes x, .bytes y => cmpList (fun (p q : UInt8) => compare p.toNat q.toNat) x y
  | .text x, .text y => cmpString x y
  | .array x, .array y => Value.cmpArr x y
  | .map x, .map y => Value.cmpMap x y
  | a, b => compare a.tag b.tag
/-- `Ord` of `Vec<Value>`. -/
def Value.cmpArr (a b : List Value) : Ordering :=
  match a, b with
  | [], [] => .eq
  | [], _ :: _ => .lt
  | _ :: _, [] => .gt
  | x :: xs, y :: ys => (Value.cmp x y).then (Value.cmpArr xs ys)
/-- `Ord` of `BTreeMap<Value, Value>` (lexicographic on the pairs in key order). -/
def Value.cmpMap (a b : List (Value × Value)) : Ordering :=
  match a, b with
  | [], [] => .eq
  | [], _ :: _ => .lt
  | _ :: _, [] => .gt
  | (k, v) :: xs, (k', v') :: ys =>
    ((Value.cmp k k').then (Value.cmp v v')).then (Value.cmpMap xs ys)
end

/-- `*value == other` (derived `PartialEq`, /repo/src/value.rs:15). -/
def Value.beq (a b : Value) : Bool := Value.cmp a b == .eq

/-- Contents of a `BTreeMap<Value, Value>`, in key order. -/
abbrev VMap := List (Value × Value)

namespace VMap

/-- `BTreeMap::get` (ordered search). -/
def get (m : VMap) (k : Value) : Option Value :=
  match m with
  | [] => none
  | (k', v) :: t =>
    match Value.cmp k k' with
    | .lt => none
    | .eq => some v
    | .gt => get t k

/-- `BTreeMap::insert` (replaces the value of an equal key). -/
def insert (m : VMap) (k v : Value) : VMap :=
  match m with
  | [] => [(k, v)]
  | (k', v') :: t =>
    match Value.cmp k k' with
    | .lt => (k, v) :: (k', v') :: t
    | .eq => (k', v) :: t
    | .gt => (k', v') :: insert t k v

/-- `BTreeMap::remove`: the removed value (if any) and the remaining map. -/
def remove (m : VMap) (k : Value) : Option (Value × VMap) :=
  match m with
  | [] => none
  | (k', v) :: t =>
    match Value.cmp k k' with
    | .lt => none
    | .eq => some (v, t)
    | .gt =>
      match remove t k with
      | none => none
      | some (w, t') => some (w, (k', v) :: t')

/-- `BTreeMap::extend` / collecting an iterator into a `BTreeMap`. -/
def extend (m : VMap) (l : List (Value × Value)) : VMap :=
  l.foldl (fun acc p => insert acc p.1 p.2) m

/-- Keys strictly increasing. -/
def Sorted : VMap → Prop
  | [] => True
  | [_] => True
  | (k, _) :: (k', v') :: t => Value.cmp k k' = .lt ∧ Sorted ((k', v') :: t)

end VMap

mutual
/-- Every map inside the value is strictly sorted by key, i.e. is the contents of a `BTreeMap`. -/
def Value.WF : Value → Prop
  | .array xs => Value.WFArr xs
  | .map m => VMap.Sorted m ∧ Value.WFMap m
  | _ => True
/-- All elements are well formed. -/
def Value.WFArr : List Value → Prop
  | [] => True
  | x :: xs => Value.WF x ∧ Value.WFArr xs
/-- All keys and values are well formed. -/
def Value.WFMap : List (Value × Value) → Prop
  | [] => True
  | (k, v) :: xs => Value.WF k ∧ Value.WF v ∧ Value.WFMap xs
end

end Cddl
