import Verif.Proofs.Wider
import Verif.Props.C49

/-! # C51  Loosening a schema keeps what was accepted

What counts as loosening is said in Spec/Wider.lean.  As matching is greedy and does not always undo what it tried,
the statement is false without conditions on the old and the new schema (`C51_refuted`). -/

namespace Cddl

/-- C51.  What a type describes is described by the loosened type. -/
theorem C51_meaning {env env' : Env} {D : String → Use → Prop} (hD : LoosenedRules env env' D) {n n' : Node}
    (hw : Wider env env' D [] .type n n') {v : Value} (hv : v.WF) (h : Sat env .root n v) : Sat env' .root n' v :=
  hw.lift_type (.free (fun _ => rfl) fun _ => rfl) fun hs hl => Sat.looser hD h hs hl hv

theorem Loosened.rule {l : Libs} {t t' : RuleTable} {name : String} (hl : Loosened (l.env t) (l.env t') name) {rd : RuleDef}
    (hr : LastRule t name rd) (hp : rd.params = []) : ∃ rd', LastRule t' name rd' ∧ rd'.params = [] ∧
      ∀ v : Value, v.WF → Sat (l.env t) .root rd.node v → Sat (l.env t') .root rd'.node v := by
  obtain ⟨D, hD, hn⟩ := hl
  have look : ∀ {t : RuleTable} {rd}, LastRule t name rd ↔ (l.env t).lookup name = .ok rd := by
    intro t rd
    rw [← find_last]
    show _ ↔ RuleTable.lookup t name = .ok rd
    unfold RuleTable.lookup
    cases t.find name with
    | none => simp
    | some x => simp
  obtain ⟨rd', h1, h2, h3⟩ := hD.rules name .type rd hn (look.mp hr)
  rw [hp] at h2 h3
  exact ⟨rd', look.mpr h1, h2, fun v hv hs => C51_meaning hD h3 hv hs⟩

/-- C51.  Data accepted under a rule of the old schema is accepted under the loosened one, or an error of the schema or
of the recursion limit is reported; provided that the old schema passes the test of C15 and the new one that of C49. -/
theorem C51_tables (l : Libs) {t t' : RuleTable} {name : String} (hl : Loosened (l.env t) (l.env t') name)
    (ho : t.undoable name = true) (hn : t'.predictive name = true) {rd : RuleDef} (hr : LastRule t name rd) {v : Value}
    (hv : v.WF) (h : doValidate (l.env t) v rd = .ok ()) : ∃ rd', LastRule t' name rd' ∧
      (doValidate (l.env t') v rd' = .ok () ∨ ∃ e, doValidate (l.env t') v rd' = .err e ∧ e.isFatal = true) := by
  obtain ⟨hp, hs⟩ := C15_checked_partial l ho hr hv h
  obtain ⟨rd', h1, h2, h3⟩ := hl.rule hr hp
  exact ⟨rd', h1, C49_checked l hn h1 h2 hv (h3 v hv hs)⟩

theorem flattenFromStr_stages {l : Libs} {cddl : String} {t : RuleTable} (h : flattenFromStr l cddl = .ok t) :
    ∃ tree, parseCddl l.parse cddl = .ok tree ∧ flatten l.regexOk tree = .ok t := by
  unfold flattenFromStr at h
  cases hp : parseCddl l.parse cddl with
  | ok tree =>
    rw [hp] at h
    exact ⟨tree, rfl, h⟩
  | _ => rw [hp] at h; cases h

theorem validateJsonStr_data {l : Libs} {name cddl json : String} {t : RuleTable} {rd : RuleDef} {j : Json} {v : Value}
    (ht : flattenFromStr l cddl = .ok t) (hr : LastRule t name rd) (hd : l.jsonDecode json = .ok j) (hj : JsonIs j v) :
    validateJsonStr l name cddl json = doValidate (l.env t) v rd := by
  obtain ⟨tree, h1, h2⟩ := flattenFromStr_stages ht
  exact (C44_json_str l name cddl json _).mpr (.data h1 h2 hr (.validated hd hj))

theorem validateCborBytes_data {l : Libs} {name cddl : String} {cbor : List UInt8} {t : RuleTable} {rd : RuleDef} {c : Cbor}
    {v : Value} (ht : flattenFromStr l cddl = .ok t) (hr : LastRule t name rd) (hd : l.cborDecode cbor = .ok c)
    (hc : CborIs c v) : validateCborBytes l name cddl cbor = doValidate (l.env t) v rd := by
  obtain ⟨tree, h1, h2⟩ := flattenFromStr_stages ht
  exact (C44_cbor_bytes l name cddl cbor _).mpr (.data h1 h2 hr (.validated hd hc))

theorem JsonIs.wf {j : Json} {v : Value} (h : JsonIs j v) : v.WF := by
  obtain ⟨w, hw, hjw⟩ := json_ok j
  cases jsonIs_unique h hjw
  exact Json.toValue_WF _ _ hw

theorem CborIs.wf {c : Cbor} {v : Value} (h : CborIs c v) : v.WF := Cbor.toValue_WF _ _ ((cbor_ok c v).mpr h)

/-- C51 for `validate_json_str`. -/
theorem C51_json_str (l : Libs) {name old new json : String} {t t' : RuleTable} (ht : flattenFromStr l old = .ok t)
    (ht' : flattenFromStr l new = .ok t') (hl : Loosened (l.env t) (l.env t') name) (ho : t.undoable name = true)
    (hn : t'.predictive name = true) (h : validateJsonStr l name old json = .ok ()) :
    validateJsonStr l name new json = .ok () ∨ ∃ e, validateJsonStr l name new json = .err e ∧ e.isFatal = true := by
  obtain ⟨rd, j, v, h1, h2, h3, h4, h5⟩ := C15_json_str_partial l ht ho h
  obtain ⟨rd', e1, e2, e3⟩ := hl.rule h1 h2
  rw [validateJsonStr_data ht' e1 h3 h4]
  exact C49_checked l hn e1 e2 h4.wf (e3 v h4.wf h5)

/-- C51 for `validate_cbor_bytes`. -/
theorem C51_cbor_bytes (l : Libs) {name old new : String} {cbor : List UInt8} {t t' : RuleTable}
    (ht : flattenFromStr l old = .ok t) (ht' : flattenFromStr l new = .ok t') (hl : Loosened (l.env t) (l.env t') name)
    (ho : t.undoable name = true) (hn : t'.predictive name = true) (h : validateCborBytes l name old cbor = .ok ()) :
    validateCborBytes l name new cbor = .ok () ∨ ∃ e, validateCborBytes l name new cbor = .err e ∧ e.isFatal = true := by
  obtain ⟨rd, c, v, h1, h2, h3, h4, h5⟩ := C15_cbor_bytes_partial l ht ho h
  obtain ⟨rd', e1, e2, e3⟩ := hl.rule h1 h2
  rw [validateCborBytes_data ht' e1 h3 h4]
  exact C49_checked l hn e1 e2 h4.wf (e3 v h4.wf h5)

/-! ## A concrete case -/

def c51Old : String := "msg = {id: uint, body: part, * tstr => int} part = [tstr, 2*3 num] num = 0..10"

/-- `id` may be missing and negative, other entries may be anything, there may be an entry `1`; parts may be longer or
shorter and end in a flag; numbers may be larger or floats. -/
def c51New : String :=
  "msg = {? id: int, body: part, * tstr => any, ? 1: bool} part = [tstr, + num, ? bool] num = 0..20 / float"

def c51OldTable : RuleTable := [
  ("msg", ⟨[], .map [.keyValue (.literal (.text "id")) (.prelude .uint) true,
    .keyValue (.literal (.text "body")) (.rule "part" []) true,
    .occur .zeroOrMore (.keyValue (.prelude .tstr) (.prelude .int) false)]⟩),
  ("part", ⟨[], .array [.prelude .tstr, .occur (.numbered 2 3) (.rule "num" [])]⟩),
  ("num", ⟨[], .range (.literal (.int 0)) (.literal (.int 10)) true⟩)]

def c51NewTable : RuleTable := [
  ("msg", ⟨[], .map [.occur .optional (.keyValue (.literal (.text "id")) (.prelude .int) true),
    .keyValue (.literal (.text "body")) (.rule "part" []) true,
    .occur .zeroOrMore (.keyValue (.prelude .tstr) (.prelude .any) false),
    .occur .optional (.keyValue (.literal (.int 1)) (.prelude .bool) true)]⟩),
  ("part", ⟨[], .array [.prelude .tstr, .occur .oneOrMore (.rule "num" []), .occur .optional (.prelude .bool)]⟩),
  ("num", ⟨[], .choice [.range (.literal (.int 0)) (.literal (.int 20)) true, .prelude .float]⟩)]

example : flattenFromStr demoLibs c51Old = .ok c51OldTable ∧ flattenFromStr demoLibs c51New = .ok c51NewTable :=
  ⟨flattenFromStr_same (by decide +kernel), flattenFromStr_same (by decide +kernel)⟩

example : c51OldTable.undoable "msg" = true ∧ c51NewTable.predictive "msg" = true := by decide +kernel

theorem c51_loosened (l : Libs) : Loosened (l.env c51OldTable) (l.env c51NewTable) "msg" := by
  refine ⟨fun s u => (s = "msg" ∧ u = .type) ∨ (s = "part" ∧ u = .type) ∨ (s = "num" ∧ u = .elem), ⟨?_, rfl, rfl⟩,
    .inl ⟨rfl, rfl⟩⟩
  rintro s u d (⟨rfl, rfl⟩ | ⟨rfl, rfl⟩ | ⟨rfl, rfl⟩) hd
  · cases hd
    refine ⟨_, rfl, rfl, .core (.map [.occur .optional (.keyValue (.literal (.int 1)) (.prelude .bool) true)]
      (.cons (.addOccur (.inr rfl) (.optional (by decide))
        (.core (.memberKey _ _ (.core (.literal _ _)) (.core (.prelude _ fun v h => ?_))))
        (.inr (.inr ⟨_, _, _, rfl, rfl⟩)))
      (.cons (.core (.memberKey _ _ (.core (.literal _ _)) (.core (.rule rfl (.inr (.inr (.inl ⟨rfl, rfl⟩))) (.nil _)))))
      (.cons (.core (.occur (.inr rfl) (fun _ h => h) (.core (.memberKey _ _ (.core (.prelude _ fun _ h => h)) (.toAny _ _)))
        (.inr (.inl rfl)))) (.nil _ _)))) fun e he => ?_)⟩
    · obtain ⟨i, rfl, _⟩ := h
      exact ⟨i, rfl⟩
    · rw [List.mem_singleton] at he
      exact ⟨_, _, he, .optional (by decide)⟩
  · cases hd
    refine ⟨_, rfl, rfl, .core (.array (.cons (.core (.item (.inl rfl) rfl rfl (.core (.prelude _ fun _ h => h))))
      (.cons (.core (.occur (.inl rfl) (fun k h => ?_) (.core (.rule rfl (.inr (.inr (.inr ⟨rfl, rfl⟩))) (.nil _))) (.inl rfl)))
      (.add (.optional (by decide)) (.inl rfl) (.nil _ _)))))⟩
    cases h with
    | numbered h1 h2 => exact .oneOrMore (by omega) (by omega)
  · cases hd
    refine ⟨_, rfl, rfl, .option rfl (.head _) (.core (.item (.inl rfl) rfl rfl (.core (.rangeWider _ fun v h => ?_))))⟩
    cases h with
    | int h => exact .int ⟨h.1, by have := h.2; simp only [if_true] at this ⊢; omega⟩

/-- `demoLibs` with a JSON text `{"id": 1, "body": ["a", 1, 2]}`. -/
def c51Libs : Libs :=
  { demoLibs with
    jsonDecode := fun s => if s = "{\"id\": 1, \"body\": [\"a\", 1, 2]}" then
        .ok (.object [("id", .number (.posInt 1)), ("body", .array [.string "a", .number (.posInt 1), .number (.posInt 2)])])
      else .error "bad json" }

/-- The data is accepted under the old schema, and under the new one. -/
example : validateJsonStr c51Libs "msg" c51Old "{\"id\": 1, \"body\": [\"a\", 1, 2]}" = .ok () ∧
    validateJsonStr c51Libs "msg" c51New "{\"id\": 1, \"body\": [\"a\", 1, 2]}" = .ok () :=
  ⟨validateJsonStr_of_fuel (k := 80) (by decide +kernel) (by simp),
    validateJsonStr_of_fuel (k := 80) (by decide +kernel) (by simp)⟩

/-! ## Without the tests the statement is false -/

/-- `[1, 2]` is accepted under `x = [int, int]` and turned down under `x = [* int, int]`. -/
theorem C51_refuted : ¬ ∀ (l : Libs) (name old new json : String) (t t' : RuleTable), flattenFromStr l old = .ok t →
    flattenFromStr l new = .ok t' → Loosened (l.env t) (l.env t') name → validateJsonStr l name old json = .ok () →
    validateJsonStr l name new json = .ok () ∨ ∃ e, validateJsonStr l name new json = .err e ∧ e.isFatal = true := by
  intro h
  have hn : validateJsonStr c15BadLibs "x" "x = [* int, int]" "[1, 2]" = .err (.mismatch "array element Int") :=
    validateJsonStr_of_fuel (k := 60) (by decide +kernel) (by simp)
  have := h c15BadLibs "x" "x = [int, int]" "x = [* int, int]" "[1, 2]" [("x", ⟨[], .array [.prelude .int, .prelude .int]⟩)]
    c49BadTable (flattenFromStr_same (by decide +kernel)) (flattenFromStr_same (by decide +kernel)) ?_
    (validateJsonStr_of_fuel (k := 60) (by decide +kernel) (by simp))
  · rw [hn] at this
    rcases this with h | ⟨e, h, hf⟩
    · cases h
    · cases h
      cases hf
  · refine ⟨fun s u => s = "x" ∧ u = .type, ⟨?_, rfl, rfl⟩, rfl, rfl⟩
    rintro s u d ⟨rfl, rfl⟩ hd
    cases hd
    have hi := Looser.item (env := c15BadLibs.env [("x", ⟨[], .array [.prelude .int, .prelude .int]⟩)])
      (env' := c15BadLibs.env c49BadTable) (D := fun s u => s = "x" ∧ u = .type) (ps := []) (u := .elem) (.inl rfl) rfl rfl
      (.core (.prelude (p := .int) (p' := .int) _ fun _ h => h))
    exact ⟨_, rfl, rfl, .core (.array (.cons (.addOccur (.inl rfl) (.zeroOrMore (by decide)) (.core hi) (.inl rfl))
      (.cons (.core hi) (.nil _ _))))⟩

end Cddl
