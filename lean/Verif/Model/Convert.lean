import Verif.Model.Ivt

/-!
# Conversion of decoded CBOR and JSON data to `Value`

Models the `TryFrom` impls of /repo/src/cbor.rs and /repo/src/json.rs.
-/

namespace Cddl

/-- `ciborium::Value`, as matched in /repo/src/cbor.rs:79-109.  `Tag` is the only public variant that
falls into the catch-all of l.102. -/
inductive Cbor
  | null
  | bool (b : Bool)
  | integer (i : Int)
  | float (f : F64)
  | bytes (b : List UInt8)
  | text (s : String)
  | array (xs : List Cbor)
  | map (m : List (Cbor × Cbor))
  | tag (t : Nat) (c : Cbor)
  deriving Repr, Inhabited

mutual
/-- `TryFrom<&CBOR_Value> for Value`, /repo/src/cbor.rs:75-112. -/
def Cbor.toValue : Cbor → Except Err Value
  | .null => .ok .null
  | .bool b => .ok (.bool b)
  | .integer i => .ok (.integer i)
  | .float f => .ok (.float f)
  | .bytes b => .ok (.bytes b)
  | .text s => .ok (.text s)
  | .array xs => (Cbor.toValues xs).bind fun vs => .ok (.array vs)
  | .map m => (Cbor.toPairs m).bind fun ps => .ok (.map (VMap.extend [] ps))
  | .tag _ _ => .error (.valueError "can't handle hidden cbor Value")
/-- `a.iter().map(Value::try_from).collect()`, /repo/src/cbor.rs:87 (stops at the first error). -/
def Cbor.toValues : List Cbor → Except Err (List Value)
  | [] => .ok []
  | x :: xs => (Cbor.toValue x).bind fun v => (Cbor.toValues xs).bind fun vs => .ok (v :: vs)
/-- The iterator of /repo/src/cbor.rs:92-99 (key first, then value; stops at the first error). -/
def Cbor.toPairs : List (Cbor × Cbor) → Except Err (List (Value × Value))
  | [] => .ok []
  | (k, v) :: xs =>
    (Cbor.toValue k).bind fun k' => (Cbor.toValue v).bind fun v' =>
      (Cbor.toPairs xs).bind fun ps => .ok ((k', v') :: ps)
end

/-- `serde_json::Number` (without the `arbitrary_precision` feature, which the crate does not
enable): a non-negative integer in u64, a negative integer in i64, or a finite float. -/
inductive JsonNumber
  | posInt (n : Nat)
  | negInt (i : Int)
  | float (f : F64)
  deriving DecidableEq, Repr

namespace JsonNumber

/-- `Number::as_u64` (serde_json). -/
def asU64 : JsonNumber → Option Nat
  | .posInt n => some n
  | _ => none

/-- `Number::as_i64` (serde_json). -/
def asI64 : JsonNumber → Option Int
  | .posInt n => if n < 2 ^ 63 then some n else none
  | .negInt i => some i
  | .float _ => none

/-- `Number::as_f64` (serde_json); only called on floats here, where it returns the float.  The
rounding of integers is not modelled because that branch is unreachable. -/
def asF64 : JsonNumber → Option F64
  | .float f => some f
  | _ => none

end JsonNumber

/-- `serde_json::Value`.  `Object` is the list of members in iteration order. -/
inductive Json
  | null
  | bool (b : Bool)
  | number (n : JsonNumber)
  | string (s : String)
  | array (xs : List Json)
  | object (m : List (String × Json))
  deriving Repr, Inhabited

/-- The `Number` arm of `TryFrom<&JSON_Value>`, /repo/src/json.rs:37-49. -/
def JsonNumber.toValue (num : JsonNumber) : Except Err Value :=
  match num.asU64 with
  | some u => .ok (.integer u)
  | none =>
    match num.asI64 with
    | some i => .ok (.integer i)
    | none =>
      match num.asF64 with
      | some f => .ok (.float f)
      | none => .error (.valueError "JSON Value::Number conversion failure")

mutual
/-- `TryFrom<&JSON_Value> for Value`, /repo/src/json.rs:30-70. -/
def Json.toValue : Json → Except Err Value
  | .null => .ok .null
  | .bool b => .ok (.bool b)
  | .number num => num.toValue
  | .string t => .ok (.text t)
  | .array xs => (Json.toValues xs).bind fun vs => .ok (.array vs)
  | .object m => (Json.toPairs m).bind fun ps => .ok (.map (VMap.extend [] ps))
/-- /repo/src/json.rs:52. -/
def Json.toValues : List Json → Except Err (List Value)
  | [] => .ok []
  | x :: xs => (Json.toValue x).bind fun v => (Json.toValues xs).bind fun vs => .ok (v :: vs)
/-- /repo/src/json.rs:57-64. -/
def Json.toPairs : List (String × Json) → Except Err (List (Value × Value))
  | [] => .ok []
  | (k, v) :: xs =>
    (Json.toValue v).bind fun v' =>
      (Json.toPairs xs).bind fun ps => .ok ((Value.text k, v') :: ps)
end

end Cddl
