import Verif.Proofs.Own

/-! # C75  Every datum has a schema of its own -/

namespace Cddl

/-- C75.  The type `v.own` accepts `v` and nothing else, in every environment and scope. -/
theorem C75_own (env : Env) {c : Ctx} (hc : CtxOK c) {v w : Value} (hv : v.WF) (hw : w.WF) : Accepts env c v.own w ↔ w = v :=
  own_only hc v hv w hw

/-- C75.  It can be written down: if the numbers and texts in `v` have a notation, then there is a schema text whose only
rule accepts `v` and nothing else. -/
theorem C75_text {l : Libs} {p : PrintExt} {name : String} {v : Value} (hn : Ident name.toList) (h : v.Spelled l.parse p)
    (hv : v.WF) : ∃ t rd, flattenFromStr l (printCddl p (v.ownSchema name)) = .ok t ∧ LastRule t name rd ∧
      ∀ w : Value, w.WF → (doValidate (l.env t) w rd = .ok () ↔ w = v) := by
  refine ⟨_, ⟨[], v.own⟩, own_text hn h, ⟨[], [], rfl, by simp⟩, fun w hw => ?_⟩
  rw [doValidate_plain]
  exact own_only (c := top) rfl v hv w hw

/-- C75.  The calls with that text: CBOR data is accepted exactly if it decodes to `v`. -/
theorem C75_cbor {l : Libs} {p : PrintExt} {name : String} {v : Value} (hn : Ident name.toList) (h : v.Spelled l.parse p)
    (hv : v.WF) (b : List UInt8) : validateCborBytes l name (printCddl p (v.ownSchema name)) b = .ok () ↔
      ∃ c, l.cborDecode b = .ok c ∧ c.toValue = .ok v := by
  unfold validateCborBytes findRule
  rw [own_text hn h]
  simp only [Res.bind, RuleTable.find, if_true]
  cases hd : l.cborDecode b with
  | error m => simp
  | ok c =>
    dsimp only
    cases hc : c.toValue with
    | error e => simp [Res.ofExcept, hc]
    | ok w =>
      simp only [Res.ofExcept, doValidate_plain]
      have := own_only (env := l.env [(name, ⟨[], v.own⟩)]) (c := top) rfl v hv w (Cbor.toValue_WF _ _ hc)
      refine Iff.trans this ?_
      simp [hc]

/-- C75.  And JSON data. -/
theorem C75_json {l : Libs} {p : PrintExt} {name : String} {v : Value} (hn : Ident name.toList) (h : v.Spelled l.parse p)
    (hv : v.WF) (s : String) : validateJsonStr l name (printCddl p (v.ownSchema name)) s = .ok () ↔
      ∃ j, l.jsonDecode s = .ok j ∧ j.toValue = .ok v := by
  unfold validateJsonStr findRule
  rw [own_text hn h]
  simp only [Res.bind, RuleTable.find, if_true]
  cases hd : l.jsonDecode s with
  | error m => simp
  | ok c =>
    dsimp only
    cases hc : c.toValue with
    | error e => simp [Res.ofExcept, hc]
    | ok w =>
      simp only [Res.ofExcept, doValidate_plain]
      have := own_only (env := l.env [(name, ⟨[], v.own⟩)]) (c := top) rfl v hv w (Json.toValue_WF _ _ hc)
      refine Iff.trans this ?_
      simp [hc]

/-- C75.  Any other datum is a mismatch, never an error of the schema. -/
theorem C75_mismatch {l : Libs} {t : RuleTable} {v w : Value} (hv : v.WF) (hw : w.WF) (h : w ≠ v) :
    ∃ m, validate (l.env t) w v.own top = .err (.mismatch m) := own_answer (fun s m => RuleTable.lookup_notCut t s m) hv hw h

/-- C75.  So every finite set of data has a schema: the choice of their types. -/
theorem C75_finite {l : Libs} {p : PrintExt} {name : String} {vs : List Value} (hn : Ident name.toList) (hne : vs ≠ [])
    (h : ∀ v ∈ vs, v.Spelled l.parse p) (hv : ∀ v ∈ vs, v.WF) :
    ∃ t rd, flattenFromStr l (printCddl p (Value.ownChoice name vs)) = .ok t ∧ LastRule t name rd ∧
      ∀ w : Value, w.WF → (doValidate (l.env t) w rd = .ok () ↔ w ∈ vs) := by
  cases vs with
  | nil => exact absurd rfl hne
  | cons v vs =>
    refine ⟨_, _, own_choice_text hn h, ⟨[], [], rfl, by simp⟩, fun w hw => ?_⟩
    rw [doValidate_plain]
    split
    · rename_i e
      subst e
      simp only [List.mem_singleton]
      exact own_only (c := top) rfl v (hv v (by simp)) w hw
    · exact own_choice (vs := v :: vs) (fun s m => RuleTable.lookup_notCut _ s m) hv hw

/-- The example: `{nil => h'01', [1, -2] => {}}`. -/
def ownDemo : Value := .map [(.null, .bytes [1]), (.array [.integer 1, .integer (-2)], .map [])]

example : ownDemo.own = .map [.keyValue (.prelude .nil) (.literal (.bytes [1])) false,
    .keyValue (.array [.literal (.int 1), .literal (.int (-2))]) (.map []) false] := by
  simp [ownDemo, Value.own, Value.ownM, Value.ownL]

set_option maxRecDepth 10000 in
example : printCddl demoPrint (ownDemo.ownSchema "x") = "x = {nil => h'01', [1, -2, ] => {}, }\n" := by
  simp [printCddl, ownDemo, Value.ownSchema, Value.ownTy, Value.ownTyM, Value.ownTyL, prRule, prParams, prTy, prTy1, prTy2, prGroup,
    prChoices, prChoice, prEntry, prVal, prAlts, prName, prValue, decText, hexText, Nat.digitChar]

theorem ownDemo_wf : ownDemo.WF := by
  simp [ownDemo, Value.WF, Value.WFMap, Value.WFArr, VMap.Sorted, Value.cmp]
  decide

theorem ownDemo_spelled : ownDemo.Spelled demoExt demoPrint := by
  simp [ownDemo, Value.Spelled, Value.SpelledM, Value.SpelledL]

/-- C75, the example: the text accepts the datum and nothing else. -/
theorem C75_example : ∃ t rd, flattenFromStr demoLibs (printCddl demoPrint (ownDemo.ownSchema "x")) = .ok t ∧ LastRule t "x" rd ∧
    doValidate (demoLibs.env t) ownDemo rd = .ok () ∧
    doValidate (demoLibs.env t) (.map [(.null, .bytes [1]), (.array [.integer (-2), .integer 1], .map [])]) rd ≠ .ok () := by
  obtain ⟨t, rd, h1, h2, h3⟩ := C75_text (l := demoLibs) (p := demoPrint) (name := "x")
    (ident_of (by unfold EAlpha; decide) (by simp)) ownDemo_spelled ownDemo_wf
  refine ⟨t, rd, h1, h2, (h3 _ ownDemo_wf).mpr rfl, ?_⟩
  rw [Ne, h3 _ (by simp [Value.WF, Value.WFMap, Value.WFArr, VMap.Sorted, Value.cmp]; decide)]
  simp [ownDemo]

end Cddl
