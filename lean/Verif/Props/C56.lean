import Verif.Props.C42
import Verif.Props.C46
import Verif.Props.C47
import Verif.Props.C52
import Verif.Props.C55

/-! # C56  From texts to verdicts

The parts put together.  A text that is a layout of a syntax tree (Spec/Grammar.lean), a table that the tree stands for
(Spec/Flat.lean), data that JSON or CBOR stands for (Spec/Convert.lean), and the meaning of the table (Spec/Sat.lean):
whether `validate_json_str` and `validate_cbor_bytes` say yes is decided by these alone, for tables that pass the tests. -/

namespace Cddl

/-- A layout of a tree is flattened to the table that the tree stands for. -/
theorem flattenFromStr_layout {l : Libs} {s : List Char} {tree : Ast.Cddl} {t : RuleTable} (hs : GCddl l.parse true s tree)
    (ht : All2 (FlatRule l.regexOk) tree t) : flattenFromStr l (String.ofList s) = .ok t := by
  unfold flattenFromStr
  rw [C42_layout hs]
  exact (C46_flatten_iff _ _ _).mpr ht

/-- C56.  `validate_json_str` on a layout of a tree: it says yes exactly if the data is described by the rule in the table
that the tree stands for, and otherwise it reports a mismatch. -/
theorem C56_json (l : Libs) {name json : String} {s : List Char} {tree : Ast.Cddl} {t : RuleTable} {j : Json} {v : Value}
    (hs : GCddl l.parse true s tree) (ht : All2 (FlatRule l.regexOk) tree t) (hj : l.jsonDecode json = .ok j)
    (hv : JsonIs j v) (hp : t.decisive name = true) (hb : t.undoable name = true)
    (hu : t.tidy false false name = true ∨ t.tidyAt name j.height = true) :
    ∃ rd, LastRule t name rd ∧
      (validateJsonStr l name (String.ofList s) json = .ok () ↔ Sat (l.env t) .root rd.node v) ∧
      ((∃ m, validateJsonStr l name (String.ofList s) json = .err (.mismatch m)) ↔ ¬ Sat (l.env t) .root rd.node v) := by
  have hf := flattenFromStr_layout hs ht
  rcases hu with hu | hu
  · obtain ⟨rd, w, h1, h2, h3⟩ := C54_exact_json l hf hu hp hb hj
    cases jsonIs_unique hv h2
    exact ⟨rd, h1, h3⟩
  · obtain ⟨rd, w, h1, h2, h3⟩ := C55_exact_json l hf hp hb hj hu
    cases jsonIs_unique hv h2
    exact ⟨rd, h1, h3⟩

/-- C56.  The same for `validate_cbor_bytes`. -/
theorem C56_cbor (l : Libs) {name : String} {cbor : List UInt8} {s : List Char} {tree : Ast.Cddl} {t : RuleTable} {c : Cbor}
    {v : Value} (hs : GCddl l.parse true s tree) (ht : All2 (FlatRule l.regexOk) tree t) (hc : l.cborDecode cbor = .ok c)
    (hv : CborIs c v) (hp : t.decisive name = true) (hb : t.undoable name = true)
    (hu : t.tidy false false name = true ∨ t.tidyAt name v.height = true) :
    ∃ rd, LastRule t name rd ∧
      (validateCborBytes l name (String.ofList s) cbor = .ok () ↔ Sat (l.env t) .root rd.node v) ∧
      ((∃ m, validateCborBytes l name (String.ofList s) cbor = .err (.mismatch m)) ↔
        ¬ Sat (l.env t) .root rd.node v) := by
  have hf := flattenFromStr_layout hs ht
  rcases hu with hu | hu
  · exact C54_exact_cbor l hf hu hp hb hc hv
  · exact C55_exact_cbor l hf hp hb hc hv hu

/-- C56.  In particular for the text that a tree is printed as. -/
theorem C56_printed_json (l : Libs) (p : PrintExt) {name json : String} {tree : Ast.Cddl} {t : RuleTable} {j : Json}
    {v : Value} (hs : OkCddl l.parse p tree) (ht : All2 (FlatRule l.regexOk) tree t) (hj : l.jsonDecode json = .ok j)
    (hv : JsonIs j v) (hp : t.decisive name = true) (hb : t.undoable name = true)
    (hu : t.tidy false false name = true ∨ t.tidyAt name j.height = true) :
    ∃ rd, LastRule t name rd ∧
      (validateJsonStr l name (printCddl p tree) json = .ok () ↔ Sat (l.env t) .root rd.node v) ∧
      ((∃ m, validateJsonStr l name (printCddl p tree) json = .err (.mismatch m)) ↔ ¬ Sat (l.env t) .root rd.node v) :=
  C56_json l (print_layout hs) ht hj hv hp hb hu

/-- C56.  Whatever the text: a yes means that the text (or the text with a line end behind it) is written by the grammar, the tree stands for a table, the JSON text
stands for data, the rule is there and takes no arguments, and - if the table passes the test of C15 - the data is described
by the rule. -/
theorem C56_accepted_json (l : Libs) {name cddl json : String} (h : validateJsonStr l name cddl json = .ok ()) :
    ∃ (tree : Ast.Cddl) (t : RuleTable) (rd : RuleDef) (j : Json) (v : Value),
      (GCddl l.parse false cddl.toList tree ∨ GCddl l.parse false (cddl.toList ++ ['\n']) tree) ∧
      All2 (FlatRule l.regexOk) tree t ∧ LastRule t name rd ∧
      rd.params = [] ∧ l.jsonDecode json = .ok j ∧ JsonIs j v ∧
      (t.undoable name = true → Sat (l.env t) .root rd.node v) := by
  have h' := h
  generalize hr : (Res.ok () : Res Unit) = r at h'
  cases (C44_json_str l name cddl json r).mp h' with
  | notCddl => cases hr
  | badSchema => cases hr
  | noRule => cases hr
  | @data tree t rd r hp hf hl hd =>
    have hft : flattenFromStr l cddl = .ok t := by
      unfold flattenFromStr
      rw [hp]
      exact hf
    cases hd with
    | notJson => cases hr
    | @validated j v hj hv =>
      have hps : rd.params = [] := by
        by_cases hps : rd.params = []
        · exact hps
        · unfold doValidate at hr
          split at hr <;> first | cases hr | contradiction
      refine ⟨tree, t, rd, j, v, C47_sound hp, (C46_flatten_iff _ _ _).mp hf, hl, hps, hj, hv, fun hu => ?_⟩
      obtain ⟨rd', j', v', h1, _, h3, h4, h5⟩ := C15_json_str_partial l hft hu h
      cases lastRule_unique h1 hl
      rw [hj] at h3
      cases h3
      cases jsonIs_unique hv h4
      exact h5

/-- C56.  A looser schema accepts everything the old one accepts: for new schemas that pass the tests, without the errors
left open in C51. -/
theorem C56_loosened_json (l : Libs) {name old new json : String} {t t' : RuleTable} (ht : flattenFromStr l old = .ok t)
    (ht' : flattenFromStr l new = .ok t') (hl : Loosened (l.env t) (l.env t') name) (ho : t.undoable name = true)
    (hn : t'.decisive name = true)
    (hu : t'.tidy false false name = true ∨ ∀ j, l.jsonDecode json = .ok j → t'.tidyAt name j.height = true)
    (h : validateJsonStr l name old json = .ok ()) : validateJsonStr l name new json = .ok () := by
  obtain ⟨rd, j, v, h1, h2, h3, h4, h5⟩ := C15_json_str_partial l ht ho h
  obtain ⟨rd', e1, e2, e3⟩ := hl.rule h1 h2
  rw [validateJsonStr_data ht' e1 h3 h4]
  rcases hu with hu | hu
  · exact Plan.serves_complete l RuleTable.plan_rules hu (.inl rfl) rfl rfl hn e1 h4.wf (e3 v h4.wf h5)
  · exact Plan.serves_complete l RuleTable.plan_rules (C55_lower (hu j h3) h4.height) (.inr (Nat.le_refl _)) rfl rfl hn e1 h4.wf
      (e3 v h4.wf h5)

/-- C56.  The same for `validate_cbor_bytes`. -/
theorem C56_loosened_cbor (l : Libs) {name old new : String} {cbor : List UInt8} {t t' : RuleTable}
    (ht : flattenFromStr l old = .ok t) (ht' : flattenFromStr l new = .ok t') (hl : Loosened (l.env t) (l.env t') name)
    (ho : t.undoable name = true) (hn : t'.decisive name = true)
    (hu : t'.tidy false false name = true ∨
      ∀ c v, l.cborDecode cbor = .ok c → CborIs c v → t'.tidyAt name v.height = true)
    (h : validateCborBytes l name old cbor = .ok ()) : validateCborBytes l name new cbor = .ok () := by
  obtain ⟨rd, c, v, h1, h2, h3, h4, h5⟩ := C15_cbor_bytes_partial l ht ho h
  obtain ⟨rd', e1, e2, e3⟩ := hl.rule h1 h2
  rw [validateCborBytes_data ht' e1 h3 h4]
  rcases hu with hu | hu
  · exact Plan.serves_complete l RuleTable.plan_rules hu (.inl rfl) rfl rfl hn e1 h4.wf (e3 v h4.wf h5)
  · exact Plan.serves_complete l RuleTable.plan_rules (hu c v h3 h4) (.inr (Nat.le_refl _)) rfl rfl hn e1 h4.wf
      (e3 v h4.wf h5)

/-! ## Concrete cases -/

/-- The libraries of C55, with a reading of literals that can be written. -/
def c56Libs : Libs := { c55Libs with parse := asciiExt }

/-- The schema of C55, parsed and printed again, gives the same verdicts. -/
example : ∃ tree rd v, flattenFromStr c56Libs (printCddl demoPrint tree) = .ok c55Table ∧ LastRule c55Table "forest" rd ∧
    JsonIs (c55Json (.array [.array [.string "a"]])) v ∧
    (validateJsonStr c56Libs "forest" (printCddl demoPrint tree)
        "[{\"v\": 1, \"l\": {\"v\": 2}, \"note\": [[\"a\"]]}, null]" = .ok () ↔
      Sat (c56Libs.env c55Table) .root rd.node v) := by
  obtain ⟨tree, h1, h2⟩ := flattenFromStr_stages (l := c56Libs) (cddl := c55Text) (t := c55Table)
    (flattenFromStr_same (by decide +kernel))
  have ho := parseCddl_ok writes_ascii h1
  have ha := (C46_flatten_iff _ _ _).mp h2
  obtain ⟨v, _, hv⟩ := json_ok (c55Json (.array [.array [.string "a"]]))
  obtain ⟨rd, hr, h, _⟩ := C56_printed_json c56Libs demoPrint (name := "forest")
    (json := "[{\"v\": 1, \"l\": {\"v\": 2}, \"note\": [[\"a\"]]}, null]") ho ha rfl hv c55_tests.2.2.2.1 c55_tests.2.2.2.2
    (.inr (C55_lower c55_tests.1 (by decide)))
  exact ⟨tree, rd, v, flattenFromStr_layout (print_layout ho) ha, hr, hv, h⟩

/-- The schemas of C51: what the old one accepts is accepted by the new one. -/
example (json : String) (h : validateJsonStr c51Libs "msg" c51Old json = .ok ()) :
    validateJsonStr c51Libs "msg" c51New json = .ok () :=
  C56_loosened_json c51Libs (t := c51OldTable) (t' := c51NewTable) (flattenFromStr_same (by decide +kernel))
    (flattenFromStr_same (by decide +kernel)) (c51_loosened _) (by decide +kernel) (by decide +kernel)
    (.inl (by decide +kernel)) h

end Cddl
