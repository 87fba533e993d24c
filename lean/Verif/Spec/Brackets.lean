import Verif.Spec.Outside

/-! # Brackets and the literals they stand around -/

namespace Cddl

/-- Reads one character, keeping the brackets that are still to be closed, the next one first: outside of literals and
comments an opening bracket asks for one of its kind, and a closing bracket must be the one that is asked for next. -/
def Spot.nest : Spot × List Char → Char → Option (Spot × List Char)
  | (.code, open_), c =>
    if c = '(' then some (.code, ')' :: open_)
    else if c = '[' then some (.code, ']' :: open_)
    else if c = '{' then some (.code, '}' :: open_)
    else if c = ')' ∨ c = ']' ∨ c = '}' then
      match open_ with
      | [] => none
      | d :: rest => if c = d then some (.code, rest) else none
    else some (Spot.next .code c, open_)
  | (p, open_), c => some (p.next c, open_)

/-- What is open at the end of the text: whether a literal or comment is, and which brackets are.  Nothing if a bracket is
closed that is not open. -/
def openAt (s : List Char) : Option (Spot × List Char) := s.foldlM Spot.nest (.code, [])

/-- All brackets are closed, in good order, and the text does not end in a literal. -/
def Complete (s : List Char) : Prop := openAt s = some (.code, []) ∨ openAt s = some (.comment, [])

instance (s : List Char) : Decidable (Complete s) := by unfold Complete; infer_instance

end Cddl
