import Verif.Proofs.CountedParse
import Verif.Props.C44

/-! # C66 and C68: what is counted

`type2` and `group` are the parsers that call themselves through others; here their own calls of each other are answered
by `a`.  A call of `type2` counts 1 and what its own calls cost, a call of `group` what its own calls cost; so do the
two parsers the rules of a text are read with, `ty` and `grpent`.

* If no call counted has another answer in `b`, then `b` leads to the same result: no call that matters is left out.
* If a call counted panics, then so does the result: nothing is counted that is not called. -/

namespace Cddl

/-- C66.  Every call that has a bearing on the result is counted. -/
theorem C66_none_left_out (x : ParseExt) (a b : PRec) (i : List Char) :
    ((type2C x (.differ a b) i).2 = 1 → type2 x a i = type2 x b i) ∧
    ((groupC (.differ a b) i).2 = 0 → group a i = group b i) ∧
    ((tyC (.differ a b) i).2 = 0 → ty a i = ty b i) ∧
    ((grpentC (.differ a b) i).2 = 0 → grpent a i = grpent b i) := by
  have hw := differ_watch a b
  have hs := differ_same a b
  refine ⟨fun h => ?_, fun h => ?_, fun h => ?_, fun h => ?_⟩
  · exact (same_type2 hs i).symm.trans (watch_type2 hw i (Nat.succ.inj h))
  · exact (same_group hs i).symm.trans (watch_group hw i h)
  · exact (same_ty hs i).symm.trans (watch_ty hw i h)
  · exact (same_grpent hs i).symm.trans (watch_grpent hw i h)

/-- C66.  Every call that is counted is made: if it panics, so does the caller. -/
theorem C66_none_invented (x : ParseExt) (a : PRec) (i : List Char) :
    (1 < (type2C x (.panics a) i).2 → type2 x a i = .panic) ∧
    (0 < (groupC (.panics a) i).2 → group a i = .panic) ∧
    (0 < (tyC (.panics a) i).2 → ty a i = .panic) ∧
    (0 < (grpentC (.panics a) i).2 → grpent a i = .panic) := by
  have hw := panics_alarm a
  have hs := panics_same a
  refine ⟨fun h => ?_, fun h => ?_, fun h => ?_, fun h => ?_⟩
  · exact (same_type2 hs i).symm.trans (alarm_type2 hw i (Nat.lt_of_succ_lt_succ h))
  · exact (same_group hs i).symm.trans (alarm_group hw i h)
  · exact (same_ty hs i).symm.trans (alarm_ty hw i h)
  · exact (same_grpent hs i).symm.trans (alarm_grpent hw i h)

/-! ## Examples -/

/-- Answers: a type is one letter `a`, a group is nothing. -/
def oneLetter : PRec where
  type2 := pmap (fun _ => .typename "a" []) (chr 'a')
  group i := .ok i []

/-- The same, but another type for `a]`. -/
def oneLetter' : PRec where
  type2 i := if i = ['a', ']'] then .panic else oneLetter.type2 i
  group := oneLetter.group

/-- Answers that panic for groups. -/
def noGroup : PRec where
  type2 := oneLetter.type2
  group _ := .panic

theorem differ_oneLetter : PCRec.differ oneLetter oneLetter' =
    ⟨fun i => (oneLetter.type2 i, if i = ['a', ']'] then 1 else 0), fun i => (.ok i [], 0)⟩ := by
  unfold PCRec.differ
  congr 1
  · funext i
    by_cases h : i = ['a', ']']
    · subst h
      have h : ¬ oneLetter.type2 ['a', ']'] = oneLetter'.type2 ['a', ']'] :=
        fun h => nomatch (show PR.ok [']'] (Ast.Ty2.typename "a" []) = PR.panic from h)
      rw [if_neg h, if_pos rfl]
    · simp only [oneLetter', if_neg h, if_true]
  · funext i
    exact congrArg _ (if_pos rfl)

theorem panics_noGroup : PCRec.panics noGroup = ⟨fun i => (oneLetter.type2 i, 0), fun _ => (.panic, 1)⟩ := by
  unfold PCRec.panics
  congr 1
  · funext i
    refine congrArg _ (if_neg ?_)
    simp only [noGroup, oneLetter, pmap, chr]
    cases i with
    | nil => simp [PR.bind, satisfy]
    | cons c i => by_cases h : c = 'a' <;> simp [PR.bind, satisfy, h]

/-- For `a/b`, `a]` is not looked at. -/
example : (tyC (.differ oneLetter oneLetter') ['a', '/', 'b']).2 = 0 := by
  rw [differ_oneLetter]; decide

/-- For `a/a]` it is. -/
example : (tyC (.differ oneLetter oneLetter') ['a', '/', 'a', ']']).2 = 1 ∧
    ty oneLetter ['a', '/', 'a', ']'] = .ok [']'] [.simple (.typename "a" []), .simple (.typename "a" [])] ∧
    ty oneLetter' ['a', '/', 'a', ']'] = .panic := by
  rw [differ_oneLetter]; exact ⟨by decide, rfl, rfl⟩

/-- A map calls for a group, and this call is counted. -/
example : 1 < (type2C demoLibs.parse (.panics noGroup) ['{', '}']).2 := by
  rw [panics_noGroup]; decide

/-- Whole texts.  The group of the first is read as a type up to `:` (2 calls), as a member up to `:` (2 calls), and as a
group in parentheses (`b`, `int`, and the end: 3 calls). -/
example : (parseCddlC demoLibs.parse "a = (b: int)").2 = 7 ∧
    (parseCddlC demoLibs.parse "a = (b: int) c = 1").2 = 8 ∧
    (parseCddlC demoLibs.parse "a = ? (b: int)").2 = 6 ∧
    (parseCddlC demoLibs.parse "a<t> = [* t] c = a<int> / a<tstr>").2 = 7 ∧
    (parseCddlC demoLibs.parse "a = int )").2 = 1 := by
  decide +kernel

end Cddl
