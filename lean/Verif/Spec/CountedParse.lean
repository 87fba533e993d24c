import Verif.Model.Calls

/-! # Which calls of the parser are counted

Prices for calls that tell one thing about them. -/

namespace Cddl

open Classical in
/-- The answers of `a`; a call costs 1 if `b` answers it differently, else nothing. -/
noncomputable def PCRec.differ (a b : PRec) : PCRec where
  type2 i := (a.type2 i, if a.type2 i = b.type2 i then 0 else 1)
  group i := (a.group i, if a.group i = b.group i then 0 else 1)

open Classical in
/-- The answers of `a`; a call costs 1 if it panics, else nothing. -/
noncomputable def PCRec.panics (a : PRec) : PCRec where
  type2 i := (a.type2 i, if a.type2 i = .panic then 1 else 0)
  group i := (a.group i, if a.group i = .panic then 1 else 0)

end Cddl
