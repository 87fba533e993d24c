/-!
# Results and errors

Models /repo/src/util.rs.
-/

namespace Cddl

/-- `parser::ErrorKind`, /repo/src/parser/parse_err.rs:10-25. -/
inductive ParseErrorKind
  | malformedInteger
  | malformedFloat
  | malformedHex
  | malformedText
  | malformedBase64
  | unparseable
  deriving DecidableEq, Repr

/-- `parser::ParseError`, /repo/src/parser/parse_err.rs:27-36. -/
structure ParseError where
  kind : ParseErrorKind
  ctx : String
  deriving DecidableEq, Repr

/-- `ValidateError`, /repo/src/util.rs:10-42.  `Mismatch { expected }` (l.70-73) is inlined as its string. -/
inductive Err
  | parseError (e : ParseError)
  | structural (msg : String)
  | mismatch (expected : String)
  | mapCut (expected : String)
  | missingRule (name : String)
  | unsupported (msg : String)
  | valueError (msg : String)
  | genericError
  deriving DecidableEq, Repr

namespace Err

/-- `ValidateError::is_fatal`, /repo/src/util.rs:49-51. -/
def isFatal : Err → Bool
  | .mismatch _ => false
  | .mapCut _ => false
  | _ => true

/-- `ValidateError::erase_mapcut`, /repo/src/util.rs:54-59. -/
def eraseMapcut : Err → Err
  | .mapCut m => .mismatch m
  | e => e

/-- `ValidateError::is_mismatch`, /repo/src/util.rs:61-63. -/
def isMismatch : Err → Bool
  | .mismatch _ => true
  | _ => false

end Err

/-- Outcome of a modelled function.  `ok`/`err` are Rust's `Ok`/`Err`; `panic` is a Rust panic
(an `unwrap()` of `None`); `fuel` means that the step budget of the model ran out and is not an
outcome of the code. -/
inductive Res (α : Type)
  | ok (a : α)
  | err (e : Err)
  | panic
  | fuel
  deriving DecidableEq, Repr

namespace Res

/-- Rust's `?` operator. -/
@[simp] def bind {α β : Type} : Res α → (α → Res β) → Res β
  | .ok a, f => f a
  | .err e, _ => .err e
  | .panic, _ => .panic
  | .fuel, _ => .fuel

/-- A function that can only return `Ok` or `Err`. -/
@[simp] def ofExcept {α : Type} : Except Err α → Res α
  | .ok a => .ok a
  | .error e => .err e

end Res

end Cddl
