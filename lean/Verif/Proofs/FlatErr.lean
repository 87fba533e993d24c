import Verif.Model.Flatten

/-! # The errors of flattening -/

namespace Cddl

/-- An error about the schema: a construct that makes no sense, that is not supported, or a misused generic. -/
inductive SchemaErr : Err → Prop
  | structural (m) : SchemaErr (.structural m)
  | unsupported (m) : SchemaErr (.unsupported m)
  | generic : SchemaErr .genericError

/-- If `r` is an error it is one about the schema. -/
def SchemaRes {α : Type} : Res α → Prop
  | .err e => SchemaErr e
  | _ => True

theorem SchemaRes.bind {α β : Type} {r : Res α} {f : α → Res β} (h : SchemaRes r) (hf : ∀ a, SchemaRes (f a)) :
    SchemaRes (r.bind f) := by
  cases r with
  | ok a => exact hf a
  | err e => exact h
  | panic => trivial
  | fuel => trivial

theorem SchemaRes.ite {α : Type} {c : Prop} [Decidable c] {a b : Res α} (ha : SchemaRes a) (hb : SchemaRes b) :
    SchemaRes (if c then a else b) := by
  by_cases h : c
  · rw [if_pos h]; exact ha
  · rw [if_neg h]; exact hb

theorem schema_value (v : Ast.Value) : SchemaRes (flattenValue v) := by
  cases v <;> simp only [flattenValue] <;> try trivial
  all_goals
    refine SchemaRes.bind ?_ fun _ => trivial
    unfold numToI128
    split
    · trivial
    · exact .structural _

theorem schema_typename (s : String) : SchemaRes (flattenTypename s) := by
  unfold flattenTypename
  repeat' apply SchemaRes.ite
  all_goals first | trivial | exact SchemaErr.unsupported _

theorem schema_typeOfOptions (l : List Node) : SchemaRes (typeOfOptions l) := by
  unfold typeOfOptions
  split
  · exact .unsupported _
  · split
    · split <;> trivial
    · trivial

theorem schema_rangePoint (n : Node) : SchemaRes (rangePointCheck n) := by
  unfold rangePointCheck
  split <;> first | trivial | exact .structural _

theorem schema_nameGeneric (n : Node) {a : Res (List Node)} (ha : SchemaRes a) (b : Bool) :
    SchemaRes (nameGeneric n a b) := by
  unfold nameGeneric
  split
  · exact ha.bind fun _ => trivial
  · split
    · exact .generic
    · trivial

theorem schema_ruleGeneric (r : Res Node) : SchemaRes (ruleGeneric r) := by
  unfold ruleGeneric
  split <;> first | trivial | exact .generic

theorem schema_control (re : String → Bool) (op : String) (t a : Node) : SchemaRes (controlOf re op t a) := by
  unfold controlOf
  repeat' split
  all_goals first | trivial | exact .unsupported _ | exact .structural _

mutual
theorem schema_ty2 (re : String → Bool) : ∀ t : Ast.Ty2, SchemaRes (flattenTy2 re t)
  | .value v => by rw [flattenTy2]; exact schema_value v
  | .typename name args => by
    rw [flattenTy2]
    exact (schema_typename _).bind fun n => schema_nameGeneric n (schema_ty1s re args) _
  | .parens t => by rw [flattenTy2]; exact (schema_ty1s re t).bind schema_typeOfOptions
  | .map g => by rw [flattenTy2]; exact (schema_group re g).bind fun _ => trivial
  | .array g => by rw [flattenTy2]; exact (schema_group re g).bind fun _ => trivial
  | .unwrap name args => by rw [flattenTy2]; exact (schema_ruleGeneric _).bind fun _ => trivial
  | .choiceifyInline g => by rw [flattenTy2]; exact (schema_group re g).bind fun _ => trivial
  | .choiceify name args => by rw [flattenTy2]; exact (schema_ruleGeneric _).bind fun _ => trivial
theorem schema_ty1 (re : String → Bool) : ∀ t : Ast.Ty1, SchemaRes (flattenTy1 re t)
  | .simple t => by rw [flattenTy1]; exact schema_ty2 re t
  | .range a b i => by
    rw [flattenTy1]
    exact (schema_point re a).bind fun _ => (schema_point re b).bind fun _ => trivial
  | .control t a op => by
    rw [flattenTy1]
    split
    · exact (schema_ty2 re t).bind fun _ => (schema_ty2 re a).bind fun _ => schema_control re op _ _
    · exact .unsupported _
theorem schema_point (re : String → Bool) : ∀ t : Ast.Ty2, SchemaRes (flattenPoint re t)
  | .value v => by rw [flattenPoint]; exact (schema_value v).bind schema_rangePoint
  | .typename name args => by
    rw [flattenPoint]
    exact ((schema_typename _).bind fun n => schema_nameGeneric n (schema_ty1s re args) _).bind schema_rangePoint
  | .parens t => by simp only [flattenPoint]; exact .structural _
  | .map g => by simp only [flattenPoint]; exact .structural _
  | .array g => by simp only [flattenPoint]; exact .structural _
  | .unwrap name args => by simp only [flattenPoint]; exact .structural _
  | .choiceifyInline g => by simp only [flattenPoint]; exact .structural _
  | .choiceify name args => by simp only [flattenPoint]; exact .structural _
theorem schema_ty1s (re : String → Bool) : ∀ t : List Ast.Ty1, SchemaRes (flattenTy1s re t)
  | [] => by rw [flattenTy1s]; trivial
  | t :: ts => by rw [flattenTy1s]; exact (schema_ty1 re t).bind fun _ => (schema_ty1s re ts).bind fun _ => trivial
theorem schema_group (re : String → Bool) : ∀ g : List (List Ast.GrpEnt), SchemaRes (flattenGroup re g)
  | [] => by rw [flattenGroup]; trivial
  | gc :: gcs => by
    rw [flattenGroup]
    refine (schema_choice re gc).bind fun _ => (schema_options re gcs).bind fun _ => ?_
    split <;> trivial
theorem schema_options (re : String → Bool) : ∀ g : List (List Ast.GrpEnt), SchemaRes (flattenGroupOptions re g)
  | [] => by rw [flattenGroupOptions]; trivial
  | gc :: gcs => by
    rw [flattenGroupOptions]
    exact (schema_choice re gc).bind fun _ => (schema_options re gcs).bind fun _ => trivial
theorem schema_choice (re : String → Bool) : ∀ g : List Ast.GrpEnt, SchemaRes (flattenGroupchoice re g)
  | [] => by rw [flattenGroupchoice]; trivial
  | e :: es => by
    rw [flattenGroupchoice]
    exact (schema_entry re e).bind fun _ => (schema_choice re es).bind fun _ => trivial
theorem schema_entry (re : String → Bool) : ∀ e : Ast.GrpEnt, SchemaRes (flattenGroupentry re e)
  | .mk o v => by rw [flattenGroupentry]; exact (schema_val re v).bind fun _ => trivial
theorem schema_val (re : String → Bool) : ∀ v : Ast.GrpEntVal, SchemaRes (flattenGroupentryVal re v)
  | .member t => by rw [flattenGroupentryVal]; exact (schema_ty1s re t).bind schema_typeOfOptions
  | .keyed k c t => by
    rw [flattenGroupentryVal]
    exact (schema_key re k).bind fun _ => ((schema_ty1s re t).bind schema_typeOfOptions).bind fun _ => trivial
  | .groupname s => by rw [flattenGroupentryVal]; exact schema_typename s
  | .parens g => by rw [flattenGroupentryVal]; exact (schema_group re g).bind fun _ => trivial
theorem schema_key (re : String → Bool) : ∀ k : Ast.MemberKeyVal, SchemaRes (flattenMemberkey re k)
  | .bareword s => by rw [flattenMemberkey]; trivial
  | .type1 t => by rw [flattenMemberkey]; exact schema_ty1 re t
  | .value v => by rw [flattenMemberkey]; exact schema_value v
end

theorem schema_rule (re : String → Bool) (r : Ast.Rule) : SchemaRes (flattenRule re r) := by
  unfold flattenRule
  refine SchemaRes.bind ?_ fun _ => trivial
  split
  · exact (schema_ty1s re _).bind schema_typeOfOptions
  · exact schema_entry re _

theorem schema_flatten (re : String → Bool) (c : Ast.Cddl) : SchemaRes (flatten re c) := by
  unfold flatten
  induction c with
  | nil => trivial
  | cons r c ih => exact (schema_rule re r).bind fun _ => ih.bind fun _ => trivial

theorem flatten_err {re : String → Bool} {c : Ast.Cddl} {e : Err} (h : flatten re c = .err e) : SchemaErr e := by
  have := schema_flatten re c
  rw [h] at this
  exact this

end Cddl
