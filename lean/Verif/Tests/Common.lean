import Verif.Model.Api
import Verif.Model.Display

/-! # Running the integration tests of the crate in the model -/

namespace Cddl.Tests

/-- First pair with that key. -/
def table {α β : Type} [DecidableEq α] (t : List (α × β)) (a : α) : Option β := (t.find? fun p => p.1 = a).map Prod.snd

/-- The libraries on the arguments that occur in the tests. -/
def testLibs : Libs :=
  { parse :=
      { parseF64 := table [("0.0", ⟨0⟩), ("0.9", ⟨0x3feccccccccccccd⟩), ("1.0", ⟨0x3ff0000000000000⟩), ("1.2", ⟨0x3ff3333333333333⟩), ("5.3", ⟨0x4015333333333333⟩)]
        unescape := fun s =>
          if s.toList.contains '\\' then
            table [("[A-Za-z0-9]+@[A-Za-z0-9]+(\\\\.[A-Za-z0-9]+)+", "[A-Za-z0-9]+@[A-Za-z0-9]+(\\.[A-Za-z0-9]+)+")] s
          else some s
        base64 := fun _ => none }
    regexOk := fun _ => true
    regexMatch := fun re s => (table [
      ("^(0|[1-9][0-9]*)$", ["0", "1", "20", "23", "123"]),
      ("^A", ["A", "ABC", "AAA"]),
      ("BB", ["BB", "ABCBBA"]),
      ("[A-Za-z0-9]+@[A-Za-z0-9]+(\\.[A-Za-z0-9]+)+", ["N1@CH57HF.4Znqe0.dYJRN.igjf"])] re).any fun l => l.contains s
    cborDecode := fun _ => .error "unexpected end of file"
    jsonDecode := fun _ => .error "expected value at line 1 column 1"
    fmtF64 := fun f => ((table [(⟨0⟩, "0"), (⟨0x3feccccccccccccd⟩, "0.9"), (⟨0x3ff3333333333333⟩, "1.2")] f).getD "?") }

/-- What a test asks of an answer: the checks of `ErrorMatch` (/repo/src/util.rs:90-140), `unwrap`, `unwrap_err`, and
comparing the text of the error. -/
inductive Expect
  | ok | err | mismatch | missingRule | generic | parse | structural
  | text (s : String)

def Expect.holds : Expect → Res Unit → Bool
  | .ok, .ok () => true
  | .err, .err _ => true
  | .mismatch, .err (.mismatch _) => true
  | .missingRule, .err (.missingRule _) => true
  | .generic, .err .genericError => true
  | .parse, .err (.parseError _) => true
  | .structural, .err (.structural _) => true
  | .text s, .err e => e.display == s
  | _, _ => false

end Cddl.Tests
