import Verif.Proofs.TextSize
import Verif.Props.C46
import Verif.Props.C47
import Verif.Props.C71

/-! # C72  The rules of a text are no larger than twice the text

Flattening copies nothing: every part of a type (Spec/Size.lean counts them, names for two) has its own characters in the
text.  So all the rules together are at most twice as large as the text is long, and how deep validation calls nest and how
many calls it takes (C50, C71) is bounded by the length of the text. -/

namespace Cddl

/-- The size of all rules together. -/
def RuleTable.total (t : RuleTable) : Nat := (t.map fun r => r.2.node.size).sum

theorem RuleTable.size_le_total (t : RuleTable) : t.size ≤ t.total := by
  unfold RuleTable.size RuleTable.total
  induction t with
  | nil => exact Nat.le_refl _
  | cons r t ih => simp only [List.map_cons, List.foldr_cons, List.sum_cons]; omega

theorem GRules.total_le {x : ParseExt} {st : Bool} {re : String → Bool} {s : List Char} {tree : Ast.Cddl} (h : GRules x st s tree) :
    ∀ t : RuleTable, All2 (FlatRule re) tree t → t.total + 4 * t.length ≤ 2 * s.length := by
  induction h with
  | one h _ _ =>
    intro t ht
    cases ht with
    | cons hr ht =>
      cases ht
      have := h.size_le hr
      simp only [RuleTable.total, List.map_cons, List.map_nil, List.sum_cons, List.sum_nil, List.length_cons, List.length_nil,
        List.length_append]
      omega
  | cons h _ _ _ ih =>
    intro t ht
    cases ht with
    | cons hr ht =>
      have := h.size_le hr
      have := ih _ ht
      simp only [RuleTable.total, List.map_cons, List.sum_cons, List.length_cons, List.length_append] at *
      omega

theorem GCddl.total_le {x : ParseExt} {st : Bool} {re : String → Bool} {s : List Char} {tree : Ast.Cddl} {t : RuleTable}
    (h : GCddl x st s tree) (ht : All2 (FlatRule re) tree t) : t.total + 4 * t.length ≤ 2 * s.length ∧ 1 ≤ t.length := by
  cases h with
  | mk _ h =>
    have h1 := h.total_le t ht
    refine ⟨by rw [List.length_append]; omega, ?_⟩
    cases h <;> cases ht <;> simp

/-- C72.  The rules of a text of `n` characters have together at most size `2 * n`, even less 2 for each rule. -/
theorem C72_total {l : Libs} {text : String} {t : RuleTable} (h : flattenFromStr l text = .ok t) :
    t.total + 2 * t.length ≤ 2 * text.length := by
  unfold flattenFromStr at h
  obtain ⟨tree, h1, h2⟩ := Res.bind_eq_ok.mp h
  have ht := (C46_flatten_iff _ _ _).mp h2
  rw [← String.length_toList]
  rcases C47_sound h1 with hg | hg
  · have := hg.total_le ht; omega
  · have := hg.total_le ht
    rw [List.length_append] at this
    simp only [List.length_cons, List.length_nil] at this
    omega

/-- C72.  No rule is larger than twice the text is long. -/
theorem C72_size {l : Libs} {text : String} {t : RuleTable} (h : flattenFromStr l text = .ok t) :
    t.size ≤ 2 * text.length :=
  Nat.le_trans t.size_le_total (by have := C72_total h; omega)

theorem findRule_found {l : Libs} {name cddl : String} {t : RuleTable} {rd : RuleDef} (h : findRule l name cddl = .ok (t, rd)) :
    flattenFromStr l cddl = .ok t ∧ LastRule t name rd := by
  unfold findRule at h
  obtain ⟨t', h1, h2⟩ := Res.bind_eq_ok.mp h
  cases hf : t'.find name with
  | none => rw [hf] at h2; cases h2
  | some d =>
    rw [hf] at h2
    cases h2
    exact ⟨h1, find_last.mp hf⟩

theorem text_nested {l : Libs} {name cddl : String} {n : Nat}
    (h : ∀ t rd, flattenFromStr l cddl = .ok t → LastRule t name rd → ∀ v, doValidateF (l.env t) n v rd = doValidate (l.env t) v rd) :
    (∀ json, validateJsonStrF l n name cddl json = validateJsonStr l name cddl json) ∧
    ∀ cbor, validateCborBytesF l n name cddl cbor = validateCborBytes l name cddl cbor := by
  unfold validateJsonStr validateJsonStrF validateCborBytes validateCborBytesF
  cases hf : findRule l name cddl with
  | ok p =>
    have hr := findRule_found (t := p.1) (rd := p.2) hf
    have h := h p.1 p.2 hr.1 hr.2
    refine ⟨fun json => ?_, fun cbor => ?_⟩
    · simp only [Res.bind]
      cases l.jsonDecode json with
      | error m => rfl
      | ok c =>
        dsimp only
        cases c.toValue with
        | error e => rfl
        | ok v => exact h v
    · simp only [Res.bind]
      cases l.cborDecode cbor with
      | error m => rfl
      | ok c =>
        dsimp only
        cases c.toValue with
        | error e => rfl
        | ok v => exact h v
  | _ => exact ⟨fun _ => rfl, fun _ => rfl⟩

theorem LastRule.mem {t : RuleTable} {name : String} {rd : RuleDef} (h : LastRule t name rd) : (name, rd) ∈ t := by
  obtain ⟨a, b, rfl, _⟩ := h
  simp

/-- C72.  With a schema of `n` characters, validation nests at most `3 * (2 * n + 1) ^ 51` calls deep, whatever the data. -/
theorem C72_depth (l : Libs) (name cddl : String) {k : Nat} (hk : 3 * (2 * cddl.length + 1) ^ 51 ≤ k) :
    (∀ json, validateJsonStrF l k name cddl json = validateJsonStr l name cddl json) ∧
    ∀ cbor, validateCborBytesF l k name cddl cbor = validateCborBytes l name cddl cbor :=
  text_nested fun _ _ ht hr => C50_generic (S := 2 * cddl.length)
    (fun s d h => Nat.le_trans (RuleTable.within l _ s d h) (C72_size ht))
    (Nat.le_trans (RuleTable.size_mem hr.mem) (C72_size ht)) k hk

/-- C72.  If no rule has parameters, at most `153 * (2 * n + 1)` deep. -/
theorem C72_depth_plain (l : Libs) (name cddl : String) {k : Nat} (hk : 153 * (2 * cddl.length + 1) ≤ k)
    (hp : ∀ t, flattenFromStr l cddl = .ok t → ∀ r ∈ t, r.2.params = []) :
    (∀ json, validateJsonStrF l k name cddl json = validateJsonStr l name cddl json) ∧
    ∀ cbor, validateCborBytesF l k name cddl cbor = validateCborBytes l name cddl cbor :=
  text_nested fun _ _ ht hr => C50_plain (S := 2 * cddl.length)
    (fun s d h => Nat.le_trans (RuleTable.within l _ s d h) (C72_size ht))
    (Nat.le_trans (RuleTable.size_mem hr.mem) (C72_size ht))
    (fun _ _ h => hp _ ht _ (RuleTable.lookup_mem h)) k hk

theorem pow_le {a b c d : Nat} (h1 : a ≤ b) (h2 : c ≤ d) (h3 : 0 < b) : a ^ c ≤ b ^ d :=
  Nat.le_trans (Nat.pow_le_pow_left h1 c) (Nat.pow_le_pow_right h3 h2)

section
variable {l : Libs} {text : String} {t : RuleTable} (h : flattenFromStr l text = .ok t) {known : List String}
  (ht : t.lively known = true) {name : String} {rd : RuleDef} (hr : LastRule t name rd) {v : Value} {m : Nat}
  (hm : CallsMade (l.env t) v rd.node top m)
include h ht hr hm

/-- C72.  If repetitions end with the data (Spec/Lively.lean), with a schema of `n` characters the number of calls is at
most `2 * n + b + 3` to the power `3 * (2 * n + 1) ^ 51`, where `b` is the largest number of elements or pairs in one place. -/
theorem C72_calls (hp : rd.params = []) : m ≤ (2 * text.length + v.breadth + 3) ^ (3 * (2 * text.length + 1) ^ 51) := by
  have hs := C72_size h
  refine Nat.le_trans (C71_generic l ht hr hm hp) (pow_le (by omega) (Nat.mul_le_mul_left 3 ?_) (by omega))
  exact Nat.pow_le_pow_left (by omega) _

/-- C72.  Without parameters, to the power `153 * (2 * n + 1)`. -/
theorem C72_calls_plain (hp : ∀ r ∈ t, r.2.params = []) :
    m ≤ (2 * text.length + v.breadth + 3) ^ (153 * (2 * text.length + 1)) := by
  have hs := C72_size h
  exact Nat.le_trans (C71_plain l ht hr hm hp) (pow_le (by omega) (by omega) (by omega))
end

/-- `t=[*t]` has 6 characters and one rule, of size 4. -/
example : ∃ t, flattenFromStr demoLibs "t=[*t]" = .ok t ∧ t.total = 4 ∧ t.length = 1 ∧ t.size ≤ 12 :=
  ⟨[("t", ⟨[], .array [.occur .zeroOrMore (.rule "t" [])]⟩)], flattenFromStr_same (by decide +kernel), by decide, rfl, by decide⟩

/-- So 1989 calls deep is enough for every JSON text. -/
example (json : String) : validateJsonStrF demoLibs 1989 "t" "t=[*t]" json = validateJsonStr demoLibs "t" "t=[*t]" json := by
  have hf : flattenFromStr demoLibs "t=[*t]" = .ok [("t", ⟨[], .array [.occur .zeroOrMore (.rule "t" [])]⟩)] :=
    flattenFromStr_same (by decide +kernel)
  refine (C72_depth_plain demoLibs "t" "t=[*t]" (by decide) fun t ht => ?_).1 json
  rw [hf] at ht
  cases ht
  simp

/-- And no more than `(15 + b) ^ 1989` calls. -/
example {t : RuleTable} (ht : t = [("t", ⟨[], .array [.occur .zeroOrMore (.rule "t" [])]⟩)]) {v : Value} {m : Nat}
    (hm : CallsMade (demoLibs.env t) v (.array [.occur .zeroOrMore (.rule "t" [])]) top m) :
    m ≤ (12 + v.breadth + 3) ^ 1989 := by
  subst ht
  exact C72_calls_plain (text := "t=[*t]") (known := ["t"]) (name := "t") (rd := ⟨[], _⟩)
    (flattenFromStr_same (by decide +kernel)) (by decide) ⟨[], [], rfl, by simp⟩ hm (by simp)

end Cddl
