import Verif.Proofs.Depth
import Verif.Props.C44

/-! # C50  How deep validation recurses is bounded by the schema

The budget of the model is spent on nesting only: every function hands the functions it calls a budget smaller by one,
and the loops over elements, members and options call each time with the same budget.  So a budget that suffices
bounds the depth of the call stack of the code (up to the fixed number of functions of the code between two of the
model). -/

namespace Cddl

theorem doValidate_nested {env : Env} {n : Nat} {rd : RuleDef}
    (h : rd.params = [] → ∀ v, (fns env n).val v rd.node (.root 0) ≠ .fuel) (v : Value) :
    doValidateF env n v rd = doValidate env v rd := by
  unfold doValidateF doValidate
  split
  · rfl
  · rename_i hp
    exact (lim_val_of_fns rfl (h (by simpa using hp) v)).symm

/-- C50.  If no rule is larger than `S`, calls nest at most `3 * (S + 1) ^ 51` deep, whatever the data. -/
theorem C50_generic {env : Env} {S : Nat} {rd : RuleDef} (hS : env.Within S) (hrd : rd.node.size ≤ S) :
    ∀ n, 3 * (S + 1) ^ 51 ≤ n → ∀ v, doValidateF env n v rd = doValidate env v rd := fun _ hn v =>
  doValidate_nested (fun _ v => returns_within (q := .val v rd.node (.root 0)) hS rfl hrd hn) v

/-- C50.  If moreover no rule has parameters, they nest at most `153 * (S + 1)` deep. -/
theorem C50_plain {env : Env} {S : Nat} {rd : RuleDef} (hS : env.Within S) (hrd : rd.node.size ≤ S)
    (hp : ∀ s rd, env.lookup s = .ok rd → rd.params = []) :
    ∀ n, 153 * (S + 1) ≤ n → ∀ v, doValidateF env n v rd = doValidate env v rd := fun _ hn v =>
  doValidate_nested (fun _ v => returns_within_plain (q := .val v rd.node (.root 0)) hS hp rfl hrd hn) v

theorem RuleTable.size_mem {t : RuleTable} {s : String} {rd : RuleDef} (h : (s, rd) ∈ t) : rd.node.size ≤ t.size := by
  induction t with
  | nil => cases h
  | cons x t ih =>
    have he : RuleTable.size (x :: t) = max x.2.node.size (RuleTable.size t) := rfl
    rw [he]
    rcases List.mem_cons.mp h with rfl | h
    · exact Nat.le_max_left ..
    · exact Nat.le_trans (ih h) (Nat.le_max_right ..)

theorem RuleTable.within (l : Libs) (t : RuleTable) : (l.env t).Within t.size :=
  fun _ _ h => RuleTable.size_mem (RuleTable.lookup_mem h)

/-- C50 for every table of rules: one depth does for all data. -/
theorem C50_table (l : Libs) (t : RuleTable) (rd : RuleDef) :
    ∃ N, ∀ n, N ≤ n → ∀ v, doValidateF (l.env t) n v rd = doValidate (l.env t) v rd :=
  ⟨_, C50_generic (S := max t.size rd.node.size)
    (fun s d h => Nat.le_trans (RuleTable.within l t s d h) (Nat.le_max_left ..)) (Nat.le_max_right ..)⟩

/-- C50 for the entry points: for every schema text and rule name one depth does for all JSON texts and all CBOR
bytes. -/
theorem C50_text (l : Libs) (name cddl : String) : ∃ N, ∀ n, N ≤ n →
    (∀ json, validateJsonStrF l n name cddl json = validateJsonStr l name cddl json) ∧
    ∀ cbor, validateCborBytesF l n name cddl cbor = validateCborBytes l name cddl cbor := by
  unfold validateJsonStr validateJsonStrF validateCborBytes validateCborBytesF
  cases findRule l name cddl with
  | ok p =>
    obtain ⟨N, h⟩ := C50_table l p.1 p.2
    refine ⟨N, fun n hn => ⟨fun json => ?_, fun cbor => ?_⟩⟩
    · simp only [Res.bind]
      cases l.jsonDecode json with
      | error m => rfl
      | ok c =>
        dsimp only
        cases c.toValue with
        | error e => rfl
        | ok v => exact h n hn v
    · simp only [Res.bind]
      cases l.cborDecode cbor with
      | error m => rfl
      | ok c =>
        dsimp only
        cases c.toValue with
        | error e => rfl
        | ok v => exact h n hn v
  | _ => exact ⟨0, fun _ _ => ⟨fun _ => rfl, fun _ => rfl⟩⟩

/-- `t = [* t]` has size 4: depth 765 does for every data, and 4 levels need more than depth 5. -/
example : (∀ v, doValidateF (demoEnv [("t", ⟨[], .array [.occur .zeroOrMore (.rule "t" [])]⟩)]) 765 v
      ⟨[], .rule "t" []⟩ = doValidate (demoEnv [("t", ⟨[], .array [.occur .zeroOrMore (.rule "t" [])]⟩)]) v
        ⟨[], .rule "t" []⟩) ∧
    doValidateF (demoEnv [("t", ⟨[], .array [.occur .zeroOrMore (.rule "t" [])]⟩)]) 5
      (.array [.array [.array [.array []]]]) ⟨[], .rule "t" []⟩ = .fuel := by
  refine ⟨C50_plain (S := 4) ?_ (by decide) ?_ 765 (by decide), by decide⟩ <;>
  · intro s rd h
    have h := RuleTable.lookup_mem h
    simp only [List.mem_singleton, Prod.mk.injEq] at h
    obtain ⟨rfl, rfl⟩ := h
    decide

end Cddl
