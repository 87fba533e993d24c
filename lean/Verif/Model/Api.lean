import Verif.Model.Validate
import Verif.Model.Flatten
import Verif.Model.Parse

/-!
# The entry points

Models `flatten_from_str`, `slice_flatten_from_str`, `validate_cbor`, `validate_json`, `validate_cbor_bytes` and
`validate_json_str`.
-/

namespace Cddl

/-- `validate_cbor`, /repo/src/cbor.rs:124-131, with a step budget. -/
def validateCborF (env : Env) (n : Nat) (rd : RuleDef) (c : Cbor) : Res Unit :=
  (Res.ofExcept c.toValue).bind fun v => doValidateF env n v rd

/-- `validate_json`, /repo/src/json.rs:82-89, with a step budget. -/
def validateJsonF (env : Env) (n : Nat) (rd : RuleDef) (j : Json) : Res Unit :=
  (Res.ofExcept j.toValue).bind fun v => doValidateF env n v rd

/-- The library functions that the entry points taking text and bytes depend on. -/
structure Libs where
  /-- what the parser uses -/
  parse : ParseExt
  /-- `RegexBuilder::build` succeeds, /repo/src/flatten.rs:262-266 -/
  regexOk : String → Bool
  /-- `Regex::is_match`, /repo/src/validate.rs:1218 -/
  regexMatch : String → String → Bool
  /-- `ciborium::from_reader`, /repo/src/cbor.rs:147; the text of the error on failure -/
  cborDecode : List UInt8 → Except String Cbor
  /-- `serde_json::from_str`, /repo/src/json.rs:105; the text of the error on failure -/
  jsonDecode : String → Except String Json
  /-- `Display` of `f64` in messages -/
  fmtF64 : F64 → String

/-- `flatten_from_str`, /repo/src/flatten.rs:23-26. -/
def flattenFromStr (l : Libs) (cddl : String) : Res RuleTable :=
  (parseCddl l.parse cddl).bind fun tree => flatten l.regexOk tree

/-- `slice_flatten_from_str`, /repo/src/flatten.rs:32-35. -/
def sliceFlattenFromStr (l : Libs) (cddl : String) : Res (List (String × RuleDef × String)) :=
  (sliceParseCddl l.parse cddl).bind fun tree => sliceFlatten l.regexOk tree

/-- `BasicContext::new`, /repo/src/context.rs:34-36, with the libraries the validator calls. -/
def Libs.env (l : Libs) (rules : RuleTable) : Env := ⟨rules.lookup, l.regexMatch, l.cborDecode, l.fmtF64⟩

/-- The part `validate_cbor_bytes` and `validate_json_str` share, /repo/src/cbor.rs:136-143 and
/repo/src/json.rs:94-101: the context and the rule definition that was asked for. -/
def findRule (l : Libs) (name cddl : String) : Res (RuleTable × RuleDef) :=
  (flattenFromStr l cddl).bind fun flat =>
    match flat.find name with
    | some rd => .ok (flat, rd)
    | none => .err (.missingRule name)

/-- `validate_cbor_bytes`, /repo/src/cbor.rs:134-152, with a step budget for the validation. -/
def validateCborBytesF (l : Libs) (n : Nat) (name cddl : String) (cbor : List UInt8) : Res Unit :=
  (findRule l name cddl).bind fun p =>
    match l.cborDecode cbor with
    | .error msg => .err (.valueError msg)
    | .ok c => (Res.ofExcept c.toValue).bind fun v => doValidateF (l.env p.1) n v p.2

/-- `validate_json_str`, /repo/src/json.rs:92-110, with a step budget for the validation. -/
def validateJsonStrF (l : Libs) (n : Nat) (name cddl json : String) : Res Unit :=
  (findRule l name cddl).bind fun p =>
    match l.jsonDecode json with
    | .error msg => .err (.valueError msg)
    | .ok j => (Res.ofExcept j.toValue).bind fun v => doValidateF (l.env p.1) n v p.2

end Cddl
