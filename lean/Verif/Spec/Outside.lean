import Verif.Spec.Grammar

/-! # Places in a schema text outside of literals and comments -/

namespace Cddl

/-- Where a place in a text is. -/
inductive Spot
  /-- outside of literals and comments -/
  | code
  /-- in a text literal -/
  | text
  /-- in a text literal, behind a backslash -/
  | textEsc
  /-- in a byte string literal -/
  | bytes
  /-- in a byte string literal, behind a backslash -/
  | bytesEsc
  /-- in a comment -/
  | comment
  deriving DecidableEq

/-- Where one is behind one more character: `"` and `'` begin and end literals, a backslash in a literal hides the next
character, and a comment extends from `;` to the end of the line. -/
def Spot.next : Spot → Char → Spot
  | .code, c => if c = '"' then .text else if c = '\'' then .bytes else if c = ';' then .comment else .code
  | .text, c => if c = '"' then .code else if c = '\\' then .textEsc else .text
  | .textEsc, _ => .text
  | .bytes, c => if c = '\'' then .code else if c = '\\' then .bytesEsc else .bytes
  | .bytesEsc, _ => .bytes
  | .comment, c => if c = '\n' then .code else .comment

/-- The end of the text `a` is outside of literals and comments. -/
def Outside (a : List Char) : Prop := a.foldl Spot.next .code = .code

instance (a : List Char) : Decidable (Outside a) := inferInstanceAs (Decidable (_ = _))

/-- The text is empty or begins with a blank or a comment. -/
def Apart (u : List Char) : Prop := ∀ c t, u = c :: t → Blank c ∨ c = ';'

/-- Characters that stand alone or end a token: brackets, quotes and most of the punctuation. -/
def Punct (c : Char) : Prop := c ∈ ['(', ')', '[', ']', '{', '}', '<', '>', '"', '\'', ',', ':', '?', '^', '&', '~']

instance (c : Char) : Decidable (Punct c) := inferInstanceAs (Decidable (_ ∈ _))

end Cddl
