import Verif.Model.Cost

/-! # Which calls are counted

Prices for calls that tell one thing about them. -/

namespace Cddl

open Classical in
/-- A call costs 1 if `a` and `b` answer it differently, else nothing. -/
noncomputable def Costs.differ (a b : Rec) : Costs where
  val v n c := if a.val v n c = b.val v n c then 0 else 1
  chf s as v c := if a.chf s as v c = b.chf s as v c then 0 else 1
  arr n w c := if a.arr n w c = b.arr n w c then 0 else 1
  map n w c := if a.map n w c = b.map n w c then 0 else 1
  mchf s as w c := if a.mchf s as w c = b.mchf s as w c then 0 else 1
  deref n c := if a.deref n c = b.deref n c then 0 else 1
  chase n c := if a.chase n c = b.chase n c then 0 else 1

open Classical in
/-- A call costs 1 if it panics, else nothing. -/
noncomputable def Costs.panics (a : Rec) : Costs where
  val v n c := if a.val v n c = .panic then 1 else 0
  chf s as v c := if a.chf s as v c = .panic then 1 else 0
  arr n w c := if a.arr n w c = .panic then 1 else 0
  map n w c := if a.map n w c = .panic then 1 else 0
  mchf s as w c := if a.mchf s as w c = .panic then 1 else 0
  deref n c := if a.deref n c = .panic then 1 else 0
  chase n c := if a.chase n c = .panic then 1 else 0

end Cddl
