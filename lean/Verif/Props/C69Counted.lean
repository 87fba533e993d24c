import Verif.Proofs.Counted

/-! # C69: what is counted

The count of C69 is that of the calls the validator makes.  `step env a` is one call of each function of the validator
whose own calls are answered by `a`, and `stepN env a x` is 1 and the price of those own calls, where `x` gives the prices.

* If no call counted has another answer in `b`, then `b` leads to the same result: no call that matters is left out.
* If a call counted panics, then so does the result: nothing is counted that is not called. -/

namespace Cddl

/-- C69.  Every call that has a bearing on the result is counted. -/
theorem C69_none_left_out (env : Env) (a b : Rec) :
    (∀ v n c, (stepN env a (.differ a b)).val v n c = 1 → (step env a).val v n c = (step env b).val v n c) ∧
    (∀ s as v c, (stepN env a (.differ a b)).chf s as v c = 1 → (step env a).chf s as v c = (step env b).chf s as v c) ∧
    (∀ n w c, (stepN env a (.differ a b)).arr n w c = 1 → (step env a).arr n w c = (step env b).arr n w c) ∧
    (∀ n w c, (stepN env a (.differ a b)).map n w c = 1 → (step env a).map n w c = (step env b).map n w c) ∧
    (∀ s as w c, (stepN env a (.differ a b)).mchf s as w c = 1 → (step env a).mchf s as w c = (step env b).mchf s as w c) ∧
    (∀ n c, (stepN env a (.differ a b)).deref n c = 1 → (step env a).deref n c = (step env b).deref n c) ∧
    (∀ n c, (stepN env a (.differ a b)).chase n c = 1 → (step env a).chase n c = (step env b).chase n c) :=
  stepN_all env (differ_free a b)

/-- C69.  Every call that is counted is made: if it panics, so does the caller. -/
theorem C69_none_invented (env : Env) (a : Rec) :
    (∀ v n c, 1 < (stepN env a (.panics a)).val v n c → (step env a).val v n c = .panic) ∧
    (∀ s as v c, 1 < (stepN env a (.panics a)).chf s as v c → (step env a).chf s as v c = .panic) ∧
    (∀ n w c, 1 < (stepN env a (.panics a)).arr n w c → (step env a).arr n w c = .panic) ∧
    (∀ n w c, 1 < (stepN env a (.panics a)).map n w c → (step env a).map n w c = .panic) ∧
    (∀ s as w c, 1 < (stepN env a (.panics a)).mchf s as w c → (step env a).mchf s as w c = .panic) ∧
    (∀ n c, 1 < (stepN env a (.panics a)).deref n c → (step env a).deref n c = .panic) ∧
    (∀ n c, 1 < (stepN env a (.panics a)).chase n c → (step env a).chase n c = .panic) :=
  stepN_made env (panics_dear a)

/-! ## Examples -/

/-- Answers that accept only `true`, and panic for groups read as choices. -/
def onlyTrue : Rec where
  val v _ _ := match v with
    | .bool true => .ok ()
    | _ => .err (.mismatch "true")
  chf _ _ _ _ := .panic
  arr _ w _ := .err (.mismatch "") w
  map _ w _ := .err (.mismatch "") w
  mchf _ _ w _ := .err (.mismatch "") w
  deref _ _ := .panic
  chase n _ := .ok n

/-- The same, but everything is accepted as `int`. -/
def onlyTrue' : Rec where
  val v n c := match n with
    | .prelude .int => .ok ()
    | n => onlyTrue.val v n c
  chf := onlyTrue.chf
  arr := onlyTrue.arr
  map := onlyTrue.map
  mchf := onlyTrue.mchf
  deref := onlyTrue.deref
  chase := onlyTrue.chase

/-- The second option is not tried for `true`, so that its answer does not matter. -/
example (env : Env) (c : Ctx) :
    (stepN env onlyTrue (.differ onlyTrue onlyTrue')).val (.bool true) (.choice [.prelude .tstr, .prelude .int]) c = 1 := by
  simp [stepN, valN, choiceLoopN, Costs.differ, onlyTrue, onlyTrue']

/-- It is for `false`, and there it matters. -/
example (env : Env) (c : Ctx) :
    (stepN env onlyTrue (.differ onlyTrue onlyTrue')).val (.bool false) (.choice [.prelude .tstr, .prelude .int]) c = 2 := by
  simp [stepN, valN, choiceLoopN, Costs.differ, onlyTrue, onlyTrue', Err.isFatal]

/-- A group read as a choice panics with these answers, and its call is counted; so are the ends of a range. -/
example (env : Env) (c : Ctx) :
    1 < (stepN env onlyTrue (.panics onlyTrue)).val (.bool true) (.choiceify "g" []) c ∧
    1 < (stepN env onlyTrue (.panics onlyTrue)).val (.bool true) (.range (.prelude .int) (.prelude .int) true) c := by
  constructor <;> simp [stepN, valN, validateRangeN, Costs.panics, onlyTrue]

end Cddl
