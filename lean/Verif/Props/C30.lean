import Verif.Spec.Entry
import Verif.Spec.Convert

/-! # C30  JSON and CBOR agree -/

namespace Cddl

mutual
theorem toCbor_ok : ∀ j : Json, j.toCbor.toValue = j.toValue
  | .null | .bool _ | .number (.posInt _) | .number (.negInt _) | .number (.float _) | .string _ => rfl
  | .array xs => by rw [Json.toCbor, Cbor.toValue, Json.toValue, toCbors_ok xs]
  | .object m => by rw [Json.toCbor, Cbor.toValue, Json.toValue, toCborPairs_ok m]
theorem toCbors_ok : ∀ j : List Json, Cbor.toValues (Json.toCbors j) = Json.toValues j
  | [] => rfl
  | x :: xs => by rw [Json.toCbors, Cbor.toValues, Json.toValues, toCbor_ok x, toCbors_ok xs]
theorem toCborPairs_ok : ∀ j : List (String × Json), Cbor.toPairs (Json.toCborPairs j) = Json.toPairs j
  | [] => rfl
  | (k, x) :: xs => by
    rw [Json.toCborPairs, Cbor.toPairs, Json.toPairs, toCbor_ok x, toCborPairs_ok xs]
    rfl
end

/-- A JSON value and its natural CBOR counterpart get the same result under every schema. -/
theorem C30_agree (env : Env) (rd : RuleDef) (j : Json) :
    validateJson env rd j = validateCbor env rd j.toCbor := by
  unfold validateJson validateCbor
  rw [toCbor_ok]

/-! Example: `{"a": [1, -2]}` under `{* tstr => [* int]}`. -/

example : (Json.object [("a", .array [.number (.posInt 1), .number (.negInt (-2))])]).toCbor =
    .map [(.text "a", .array [.integer 1, .integer (-2)])] := rfl

example : validateCbor (demoEnv [])
    ⟨[], .map [.occur .zeroOrMore (.keyValue (.prelude .tstr) (.array [.occur .zeroOrMore (.prelude .int)]) false)]⟩
    (.map [(.text "a", .array [.integer 1, .integer (-2)])]) = .ok () := by
  refine (C30_agree (demoEnv []) _ (.object [("a", .array [.number (.posInt 1), .number (.negInt (-2))])])).symm.trans ?_
  have : (Json.object [("a", .array [.number (.posInt 1), .number (.negInt (-2))])]).toValue =
    .ok (.map [(.text "a", .array [.integer 1, .integer (-2)])]) := rfl
  unfold validateJson
  rw [this]
  exact doValidate_of_fuel (k := 60) (by decide) (by decide)

end Cddl
