import Verif.Model.Basic

/-! # The text of errors -/

namespace Cddl

/-- `Debug` of `parser::ErrorKind` (derived), /repo/src/parser/parse_err.rs:11. -/
def ParseErrorKind.debug : ParseErrorKind → String
  | .malformedInteger => "MalformedInteger"
  | .malformedFloat => "MalformedFloat"
  | .malformedHex => "MalformedHex"
  | .malformedText => "MalformedText"
  | .malformedBase64 => "MalformedBase64"
  | .unparseable => "Unparseable"

/-- `Display` of `parser::ParseError`, /repo/src/parser/parse_err.rs:30. -/
def ParseError.display (e : ParseError) : String := e.kind.debug ++ "(" ++ e.ctx ++ ")"

/-- `Display` of `ValidateError`, /repo/src/util.rs:10-43. -/
def Err.display : Err → String
  | .parseError e => e.display
  | .structural m => "Structural(" ++ m ++ ")"
  | .mismatch m => "Mismatch(expected " ++ m ++ ")"
  | .mapCut m => "Mismatch(expected " ++ m ++ ")"
  | .missingRule n => "MissingRule(" ++ n ++ ")"
  | .unsupported m => "Unsupported " ++ m
  | .valueError m => "ValueError(" ++ m ++ ")"
  | .genericError => "GenericError"

end Cddl
