import Verif.Model.Convert
import Verif.Spec.All2

/-! # What the conversion of decoded data should give -/

namespace Cddl

/-- `(k, v)` is the last pair with key `k` in the list. -/
def LastPair {α : Type} (ps : List (α × α)) (k v : α) : Prop :=
  ∃ pre post, ps = pre ++ (k, v) :: post ∧ ∀ p ∈ post, p.1 ≠ k

mutual
/-- The value that a CBOR item without tags stands for.  In a map with repeated keys the last pair counts. -/
inductive CborIs : Cbor → Value → Prop
  | null : CborIs .null .null
  | bool (b) : CborIs (.bool b) (.bool b)
  | integer (i) : CborIs (.integer i) (.integer i)
  | float (f) : CborIs (.float f) (.float f)
  | bytes (b) : CborIs (.bytes b) (.bytes b)
  | text (s) : CborIs (.text s) (.text s)
  | array {xs vs} : CborsAre xs vs → CborIs (.array xs) (.array vs)
  | map {m ps vm} : CborPairsAre m ps → VMap.Sorted vm → (∀ k v, (k, v) ∈ vm ↔ LastPair ps k v) →
      CborIs (.map m) (.map vm)
/-- Element by element. -/
inductive CborsAre : List Cbor → List Value → Prop
  | nil : CborsAre [] []
  | cons {x v xs vs} : CborIs x v → CborsAre xs vs → CborsAre (x :: xs) (v :: vs)
/-- Pair by pair. -/
inductive CborPairsAre : List (Cbor × Cbor) → List (Value × Value) → Prop
  | nil : CborPairsAre [] []
  | cons {k k' x v xs vs} : CborIs k k' → CborIs x v → CborPairsAre xs vs →
      CborPairsAre ((k, x) :: xs) ((k', v) :: vs)
end

mutual
/-- There is a tag somewhere in the item. -/
def Cbor.hasTag : Cbor → Bool
  | .tag _ _ => true
  | .array xs => Cbor.hasTags xs
  | .map m => Cbor.hasTagPairs m
  | _ => false
def Cbor.hasTags : List Cbor → Bool
  | [] => false
  | x :: xs => x.hasTag || Cbor.hasTags xs
def Cbor.hasTagPairs : List (Cbor × Cbor) → Bool
  | [] => false
  | (k, v) :: xs => k.hasTag || v.hasTag || Cbor.hasTagPairs xs
end

mutual
/-- The value that a JSON value stands for. -/
inductive JsonIs : Json → Value → Prop
  | null : JsonIs .null .null
  | bool (b) : JsonIs (.bool b) (.bool b)
  | nat (n : Nat) : JsonIs (.number (.posInt n)) (.integer n)
  | negative (i : Int) : JsonIs (.number (.negInt i)) (.integer i)
  | float (f) : JsonIs (.number (.float f)) (.float f)
  | string (s) : JsonIs (.string s) (.text s)
  | array {xs vs} : JsonsAre xs vs → JsonIs (.array xs) (.array vs)
  | object {m ps vm} : JsonPairsAre m ps → VMap.Sorted vm → (∀ k v, (k, v) ∈ vm ↔ LastPair ps k v) →
      JsonIs (.object m) (.map vm)
/-- Element by element. -/
inductive JsonsAre : List Json → List Value → Prop
  | nil : JsonsAre [] []
  | cons {x v xs vs} : JsonIs x v → JsonsAre xs vs → JsonsAre (x :: xs) (v :: vs)
/-- Member by member. -/
inductive JsonPairsAre : List (String × Json) → List (Value × Value) → Prop
  | nil : JsonPairsAre [] []
  | cons {k x v xs vs} : JsonIs x v → JsonPairsAre xs vs →
      JsonPairsAre ((k, x) :: xs) ((.text k, v) :: vs)
end

mutual
/-- The natural CBOR counterpart of a JSON value. -/
def Json.toCbor : Json → Cbor
  | .null => .null
  | .bool b => .bool b
  | .number (.posInt n) => .integer n
  | .number (.negInt i) => .integer i
  | .number (.float f) => .float f
  | .string s => .text s
  | .array xs => .array (Json.toCbors xs)
  | .object m => .map (Json.toCborPairs m)
def Json.toCbors : List Json → List Cbor
  | [] => []
  | x :: xs => x.toCbor :: Json.toCbors xs
def Json.toCborPairs : List (String × Json) → List (Cbor × Cbor)
  | [] => []
  | (k, v) :: xs => (.text k, v.toCbor) :: Json.toCborPairs xs
end

/-- `a` occurs somewhere inside `b` (or is `b`). -/
inductive Value.Inside (a : Value) : Value → Prop
  | refl : Value.Inside a a
  | elem {x xs} : x ∈ xs → Value.Inside a x → Value.Inside a (.array xs)
  | key {k v m} : (k, v) ∈ m → Value.Inside a k → Value.Inside a (.map m)
  | val {k v m} : (k, v) ∈ m → Value.Inside a v → Value.Inside a (.map m)

end Cddl
