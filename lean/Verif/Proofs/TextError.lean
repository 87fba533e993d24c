import Verif.Spec.SyntaxError
import Verif.Spec.Grammar

/-! # Which errors the trees of texts can have -/

namespace Cddl

open Ast (Ty Ty1 Ty2 MemberKeyVal GrpEntVal GrpEnt Group GrpChoice RuleVal)

variable {x : ParseExt} {st : Bool} {re : String → Bool}

theorem ValueText.not_bad {s : List Char} {v : Ast.Value} {e : Err} (h : ValueText x st s v) : ¬ BadValue v e := by
  have h127 : (2 : Int) ^ 127 = 170141183460469231731687303715884105728 := by decide
  intro hb
  cases hb with
  | uint n hn =>
    cases h with
    | uint _ h =>
      have h : n < 18446744073709551616 := h
      omega
  | nint i hi =>
    cases h with
    | @nint s n _ h =>
      have h : n < 9223372036854775808 := h
      omega

theorem BadName.text {s : String} {e : Err} : BadName s e → TextError e
  | .mk h => .name h

mutual
theorem GTy2.err' {s : List Char} {t : Ty2} :
    GTy2 x st s t → ∀ e, (Bad2 re t e → TextError e) ∧ (BadPoint re t e → TextError e)
  | .value h => fun e => by
      constructor <;> intro hb
      · cases hb with | value hb => exact absurd hb h.not_bad
      · cases hb with
        | value hb => exact absurd hb h.not_bad
        | other h _ => exact absurd rfl (h _)
  | .name h => fun e => by
      have ih := GName.err' h e
      constructor <;> intro hb
      · cases hb with
        | name h => exact h.text
        | preludeArgs _ _ => exact .generic
        | args _ hb => exact ih hb
      · cases hb with
        | name h => exact h.text
        | preludeArgs _ _ => exact .generic
        | args _ hb => exact ih hb
        | prelude _ => exact .range
        | other _ h => exact absurd rfl (h _ _)
  | .parens _ h _ => fun e => by
      have ih := GTy.err' h e
      constructor <;> intro hb
      · cases hb with
        | parens hb => exact ih hb
        | empty => exact absurd h nofun
      · cases hb; exact .range
  | .map _ h _ => fun e => by
      have ih := GGroup.err' h e
      constructor <;> intro hb
      · cases hb with | map hb => exact ih hb
      · cases hb; exact .range
  | .array _ h _ => fun e => by
      have ih := GGroup.err' h e
      constructor <;> intro hb
      · cases hb with | array hb => exact ih hb
      · cases hb; exact .range
  | .inline _ _ h _ => fun e => by
      have ih := GGroup.err' h e
      constructor <;> intro hb
      · cases hb with | inline hb => exact ih hb
      · cases hb; exact .range
  | .unwrap _ _ => fun e => by
      constructor <;> intro hb
      · cases hb <;> exact .generic
      · cases hb; exact .range
  | .choiceify _ _ => fun e => by
      constructor <;> intro hb
      · cases hb <;> exact .generic
      · cases hb; exact .range
theorem GName.err' {s : List Char} {n : String} {as : List Ty1} :
    GName x st s n as → ∀ e, Bad1s re as e → TextError e
  | .plain _ => fun e hb => by cases hb
  | .generic _ _ h => fun e hb => GArgs.err' h e hb
theorem GArgs.err' {s : List Char} {as : List Ty1} : GArgs x st s as → ∀ e, Bad1s re as e → TextError e
  | .one h _ => fun e hb => by
      have ih := GTy1.err' h e
      cases hb with
      | head hb => exact ih hb
      | tail _ hb => cases hb
  | .cons h _ _ h' => fun e hb => by
      have ih := GTy1.err' h e
      have ih' := GArgs.err' h' e
      cases hb with
      | head hb => exact ih hb
      | tail _ hb => exact ih' hb
theorem GTy1.err' {s : List Char} {t : Ty1} : GTy1 x st s t → ∀ e, Bad1 re t e → TextError e
  | .simple h => fun e hb => by
      have ih := GTy2.err' h e
      cases hb with | simple hb => exact ih.1 hb
  | .range h _ _ h' _ => fun e hb => by
      have ih := GTy2.err' h e
      have ih' := GTy2.err' h' e
      cases hb with
      | start hb => exact ih.2 hb
      | stop _ hb => exact ih'.2 hb
  | .rangeExcl h _ _ h' _ => fun e hb => by
      have ih := GTy2.err' h e
      have ih' := GTy2.err' h' e
      cases hb with
      | start hb => exact ih.2 hb
      | stop _ hb => exact ih'.2 hb
  | .control (op := op) h _ _ _ h' _ => fun e hb => by
      have ih := GTy2.err' h e
      have ih' := GTy2.err' h' e
      generalize String.ofList op = o at hb
      cases hb with
      | operator _ => exact .operator
      | target _ hb => exact ih.1 hb
      | arg _ _ hb => exact ih'.1 hb
      | limit op _ _ _ => exact .limit op
      | regexpTarget _ _ _ => exact .regexpTarget
      | regexpArg _ _ _ => exact .regexpArg
      | regexp _ _ _ => exact .regexp
      | cborTarget _ _ _ => exact .cborTarget
theorem GTy.err' {s : List Char} {t : Ty} : GTy x st s t → ∀ e, Bad1s re t e → TextError e
  | .one h => fun e hb => by
      have ih := GTy1.err' h e
      cases hb with
      | head hb => exact ih hb
      | tail _ hb => cases hb
  | .cons h _ _ h' => fun e hb => by
      have ih := GTy1.err' h e
      have ih' := GTy.err' h' e
      cases hb with
      | head hb => exact ih hb
      | tail _ hb => exact ih' hb
theorem GGroup.err' {s : List Char} {g : Group} : GGroup x st s g → ∀ e, BadGroup re g e → TextError e
  | .one h => fun e hb => by
      have ih := GChoice.err' h e
      cases hb with
      | head hb => exact ih hb
      | tail _ hb => cases hb
  | .cons h _ _ h' => fun e hb => by
      have ih := GChoice.err' h e
      have ih' := GGroup.err' h' e
      cases hb with
      | head hb => exact ih hb
      | tail _ hb => exact ih' hb
theorem GChoice.err' {s : List Char} {g : GrpChoice} : GChoice x st s g → ∀ e, BadEntries re g e → TextError e
  | .nil => fun e hb => by cases hb
  | .cons h _ h' _ => fun e hb => by
      have ih := GEntry.err' h e _ _ rfl
      have ih' := GChoice.err' h' e
      cases hb with
      | head hb => exact ih hb
      | tail _ hb => exact ih' hb
theorem GEntry.err' {s : List Char} {g : GrpEnt} : GEntry x st s g → ∀ e o v, g = .mk o v →
    BadEntryVal re v e → TextError e
  | .plain h => fun e o v hg hb => by
      have ih := GVal.err' h e
      cases hg; exact ih hb
  | .occur _ _ h _ => fun e o v hg hb => by
      have ih := GVal.err' h e
      cases hg; exact ih hb
theorem GVal.err' {s : List Char} {v : GrpEntVal} : GVal x st s v → ∀ e, BadEntryVal re v e → TextError e
  | .bareword _ _ _ h => fun e hb => by
      have ih := GTy.err' h e
      cases hb with
      | key hb => cases hb
      | keyed _ hb => exact ih hb
      | keyedEmpty _ => exact absurd h nofun
  | .value hv _ _ h => fun e hb => by
      have ih := GTy.err' h e
      cases hb with
      | key hb => cases hb with | value hb => exact absurd hb hv.not_bad
      | keyed _ hb => exact ih hb
      | keyedEmpty _ => exact absurd h nofun
  | .type1 hk _ _ h => fun e hb => by
      have ihk := GTy1.err' hk e
      have ih := GTy.err' h e
      cases hb with
      | key hb => cases hb with | type1 hb => exact ihk hb
      | keyed _ hb => exact ih hb
      | keyedEmpty _ => exact absurd h nofun
  | .cut hk _ _ _ h => fun e hb => by
      have ihk := GTy1.err' hk e
      have ih := GTy.err' h e
      cases hb with
      | key hb => cases hb with | type1 hb => exact ihk hb
      | keyed _ hb => exact ih hb
      | keyedEmpty _ => exact absurd h nofun
  | .member h _ _ => fun e hb => by
      have ih := GTy.err' h e
      cases hb with
      | member hb => exact ih hb
      | memberEmpty => exact absurd h nofun
  | .groupname _ _ => fun e hb => by cases hb with | name hb => exact hb.text
  | .parens _ h _ _ => fun e hb => by
      have ih := GGroup.err' h e
      cases hb with | parens hb => exact ih hb
  | .comma _ h _ _ _ => fun e hb => by
      have ih := GTy.err' h e
      cases hb with
      | parens hb =>
        cases hb with
        | head hb =>
          cases hb with
          | head hb =>
            cases hb with
            | member hb => exact ih hb
            | memberEmpty => exact absurd h nofun
          | tail _ hb => cases hb
        | tail _ hb => cases hb
end

theorem GRule.err {s : List Char} {r : Ast.Rule} {e : Err} (h : GRule x st s r) (hb : BadRule re r e) : TextError e := by
  cases h with
  | @mk n ps w w' s names v _ _ _ _ h =>
    generalize String.ofList n = nm at hb
    cases hb with
    | type hb => cases h with | type h => exact h.err' _ hb
    | empty => cases h with | type h => exact absurd h nofun
    | group hb => cases h with | group h _ => exact h.err' _ _ _ rfl hb

theorem GCddl.err {s : List Char} {l : Ast.Cddl} {e : Err} (h : GCddl x st s l) {r : Ast.Rule} (hr : r ∈ l)
    (hb : BadRule re r e) : TextError e := by
  cases h with
  | mk _ h =>
    induction h with
    | one h _ _ =>
      simp only [List.mem_singleton] at hr
      subst hr
      exact h.err hb
    | cons h _ _ _ ih =>
      rcases List.mem_cons.mp hr with rfl | hr
      · exact h.err hb
      · exact ih hr

end Cddl
