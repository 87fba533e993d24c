import Verif.Spec.Float

/-! # The order of data

The keys of maps are kept in this order, so it decides which of several pairs is tried first. -/

namespace Cddl

/-- The sign of a float, also of those that are not numbers. -/
def F64.negative (x : F64) : Bool := x.bits.toNat / 2 ^ 63 == 1

/-- Numbers by size, the negative zero before the other, and outside of them what is not a number, by sign and then from
the numbers outward by fraction. -/
inductive F64.Before : F64 → F64 → Prop
  | number {f g : F64} : f.nan = false → g.nan = false → f.num < g.num → F64.Before f g
  | zero {f g : F64} : f.nan = false → g.nan = false → f.num = 0 → g.num = 0 → f.negative = true → g.negative = false →
      F64.Before f g
  | first {f g : F64} : f.nan = true → f.negative = true → (g.nan = false ∨ g.negative = false) → F64.Before f g
  | last {f g : F64} : g.nan = true → g.negative = false → (f.nan = false ∨ f.negative = true) → F64.Before f g
  | outer {f g : F64} : f.nan = true → g.nan = true → f.negative = true → g.negative = true → g.fraction < f.fraction →
      F64.Before f g
  | inner {f g : F64} : f.nan = true → g.nan = true → f.negative = false → g.negative = false → f.fraction < g.fraction →
      F64.Before f g

/-- Kinds of data in order: null, bool, integer, float, bytes, text, array, map. -/
def Value.rank : Value → Nat
  | .null => 1
  | .bool _ => 2
  | .integer _ => 3
  | .float _ => 4
  | .bytes _ => 5
  | .text _ => 6
  | .array _ => 7
  | .map _ => 8

mutual
/-- Kinds come one after the other; false before true; lists (bytes, the UTF-8 bytes of texts, elements, pairs) in
lexicographic order. -/
inductive Value.Before : Value → Value → Prop
  | kind {a b : Value} : a.rank < b.rank → Value.Before a b
  | bool : Value.Before (.bool false) (.bool true)
  | integer {i j : Int} : i < j → Value.Before (.integer i) (.integer j)
  | float {f g : F64} : F64.Before f g → Value.Before (.float f) (.float g)
  | bytes {a b : List UInt8} : List.Lex (· < ·) a b → Value.Before (.bytes a) (.bytes b)
  | text {a b : String} : List.Lex (· < ·) a.toUTF8.data.toList b.toUTF8.data.toList → Value.Before (.text a) (.text b)
  | array {a b : List Value} : List.Lex Value.Before a b → Value.Before (.array a) (.array b)
  | map {a b : List (Value × Value)} : List.Lex PairBefore a b → Value.Before (.map a) (.map b)
/-- Pairs by key, then by value. -/
inductive PairBefore : Value × Value → Value × Value → Prop
  | key {k k' v v'} : Value.Before k k' → PairBefore (k, v) (k', v')
  | value {k v v'} : Value.Before v v' → PairBefore (k, v) (k, v')
end

end Cddl
