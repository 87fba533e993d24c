import Verif.Props.C15
import Verif.Props.C44
import Verif.Proofs.Undoable
import Verif.Proofs.Same

/-! # C15, C16  Soundness of the entry points taking text

The condition of C15 on a schema is decided by a test that reads only the rules (`RuleTable.undoable`,
Spec/Undoable.lean). -/

namespace Cddl

theorem env_fatal (l : Libs) (t : RuleTable) : ∀ s e, (l.env t).lookup s = .error e → e.isFatal = true :=
  demo_fatal t

theorem doValidate_accepts {env : Env} {v : Value} {rd : RuleDef} (h : doValidate env v rd = .ok ()) :
    rd.params = [] ∧ Accepts env top rd.node v := by
  unfold doValidate at h
  split at h
  · cases h
  · rename_i hp
    exact ⟨by simpa using hp, h⟩

/-- C15, C16.  Data accepted under a rule of a table that passes the test is described by the rule.  Partial: not all
tables pass the test; for some that do not the statement is false. -/
theorem C15_checked_partial (l : Libs) {t : RuleTable} {name : String} {rd : RuleDef} {v : Value}
    (hu : t.undoable name = true) (hr : LastRule t name rd) (hv : v.WF) (h : doValidate (l.env t) v rd = .ok ()) :
    rd.params = [] ∧ Sat (l.env t) .root rd.node v := by
  obtain ⟨hp, ha⟩ := doValidate_accepts h
  refine ⟨hp, C15_sound_partial _ _ (RuleTable.undoable_agrees hu rfl) (env_fatal l t) _ _ ?_ hv ha⟩
  simp only [RuleTable.undoable, Bool.and_eq_true] at hu
  have := hu.2
  rw [find_last.mpr hr] at this
  exact this

/-- C15, C16.  If `validate_json_str` says yes, and the rules of the schema pass the test, then the data is described
by the rule. -/
theorem C15_json_str_partial (l : Libs) {name cddl json : String} {t : RuleTable} (ht : flattenFromStr l cddl = .ok t)
    (hu : t.undoable name = true) (h : validateJsonStr l name cddl json = .ok ()) :
    ∃ rd j v, LastRule t name rd ∧ rd.params = [] ∧ l.jsonDecode json = .ok j ∧ JsonIs j v ∧
      Sat (l.env t) .root rd.node v := by
  generalize hr : (Res.ok () : Res Unit) = r at h
  cases (C44_json_str l name cddl json r).mp h with
  | notCddl => cases hr
  | badSchema => cases hr
  | noRule => cases hr
  | @data tree t' rd r hp hf hl hd =>
    have : t' = t := by
      unfold flattenFromStr at ht
      rw [hp] at ht
      simp only [Res.bind, hf] at ht
      exact Res.ok.inj ht
    subst this
    cases hd with
    | notJson => cases hr
    | @validated j v hd hj =>
      obtain ⟨w, hw, hjw⟩ := json_ok j
      cases jsonIs_unique hj hjw
      obtain ⟨h1, h2⟩ := C15_checked_partial l hu hl (Json.toValue_WF _ _ hw) hr.symm
      exact ⟨rd, j, v, hl, h1, hd, hj, h2⟩

/-- C15, C16.  The same for `validate_cbor_bytes`. -/
theorem C15_cbor_bytes_partial (l : Libs) {name cddl : String} {cbor : List UInt8} {t : RuleTable}
    (ht : flattenFromStr l cddl = .ok t) (hu : t.undoable name = true)
    (h : validateCborBytes l name cddl cbor = .ok ()) :
    ∃ rd c v, LastRule t name rd ∧ rd.params = [] ∧ l.cborDecode cbor = .ok c ∧ CborIs c v ∧
      Sat (l.env t) .root rd.node v := by
  generalize hr : (Res.ok () : Res Unit) = r at h
  cases (C44_cbor_bytes l name cddl cbor r).mp h with
  | notCddl => cases hr
  | badSchema => cases hr
  | noRule => cases hr
  | @data tree t' rd r hp hf hl hd =>
    have : t' = t := by
      unfold flattenFromStr at ht
      rw [hp] at ht
      simp only [Res.bind, hf] at ht
      exact Res.ok.inj ht
    subst this
    cases hd with
    | notCbor => cases hr
    | tagged => cases hr
    | @validated c v hd hj =>
      obtain ⟨h1, h2⟩ := C15_checked_partial l hu hl (Cbor.toValue_WF _ _ ((cbor_ok c v).mpr hj)) hr.symm
      exact ⟨rd, c, v, hl, h1, hd, hj, h2⟩

/-- A schema with a recursive rule, a group, generics, an unwrapped array and a map with an open end. -/
def c15Text : String :=
  "a = [* pair, ? tstr] pair = (int, b) b = bool / [+ a] / box<b> box<t> = {v: t, ? \"w\" => t, * tstr => any} u = [~a, int]"

/-- Its rules. -/
def c15Table : RuleTable := [
  ("a", ⟨[], .array [.occur .zeroOrMore (.rule "pair" []), .occur .optional (.prelude .tstr)]⟩),
  ("pair", ⟨[], .group [.prelude .int, .rule "b" []]⟩),
  ("b", ⟨[], .choice [.prelude .bool, .array [.occur .oneOrMore (.rule "a" [])], .rule "box" [.rule "b" []]]⟩),
  ("box", ⟨["t"], .map [.keyValue (.literal (.text "v")) (.rule "t" []) true,
    .occur .optional (.keyValue (.literal (.text "w")) (.rule "t" []) false),
    .occur .zeroOrMore (.keyValue (.prelude .tstr) (.prelude .any) false)]⟩),
  ("u", ⟨[], .array [.unwrap "a" [], .prelude .int]⟩)]

/-- `demoLibs` with a JSON text `[1, [[]], 2, true, "y"]` and its CBOR form. -/
def c15Libs : Libs :=
  { demoLibs with
    jsonDecode := fun s => if s = "[1, [[]], 2, true, \"y\"]" then
        .ok (.array [.number (.posInt 1), .array [.array []], .number (.posInt 2), .bool true, .string "y"])
      else .error "bad json"
    cborDecode := fun b => if b = [0x85, 1, 0x81, 0x80, 2, 0xf5, 0x61, 0x79] then
        .ok (.array [.integer 1, .array [.array []], .integer 2, .bool true, .text "y"])
      else .error "bad cbor" }

/-- It passes the test, and accepts the data. -/
example : flattenFromStr c15Libs c15Text = .ok c15Table ∧
    c15Table.undoable "a" = true ∧ c15Table.undoable "b" = true ∧ c15Table.undoable "u" = true ∧
    validateJsonStr c15Libs "a" c15Text "[1, [[]], 2, true, \"y\"]" = .ok () ∧
    validateCborBytes c15Libs "a" c15Text [0x85, 1, 0x81, 0x80, 2, 0xf5, 0x61, 0x79] = .ok () :=
  ⟨flattenFromStr_same (by decide +kernel), by decide +kernel, by decide +kernel, by decide +kernel,
    validateJsonStr_of_fuel (k := 80) (by decide +kernel) (by simp),
    validateCborBytes_of_fuel (k := 80) (by decide +kernel) (by simp)⟩

/-! ## Without the test the statement is false -/

/-- The text of `C15_nested_group_refuted`, and its rules.  They do not pass the test. -/
def c15BadText : String := "x = [(int,), tstr // int]"

def c15BadTable : RuleTable :=
  [("x", ⟨[], .array [.choice [.group [.group [.prelude .int], .prelude .tstr], .group [.prelude .int]]]⟩)]

example : c15BadTable.undoable "x" = false := by decide +kernel

/-- `demoLibs` with the JSON text `[1, 2]`. -/
def c15BadLibs : Libs :=
  { demoLibs with
    jsonDecode := fun s => if s = "[1, 2]" then .ok (.array [.number (.posInt 1), .number (.posInt 2)]) else .error "bad json" }

/-- `validate_json_str("x", "x = [(int,), tstr // int]", "[1, 2]")` says yes although the data is not described by the
schema. -/
theorem C15_json_str_refuted : ¬ ∀ (l : Libs) (name cddl json : String) (t : RuleTable) (rd : RuleDef) (j : Json) (v : Value),
    flattenFromStr l cddl = .ok t → LastRule t name rd → l.jsonDecode json = .ok j → JsonIs j v →
    validateJsonStr l name cddl json = .ok () → Sat (l.env t) .root rd.node v := by
  intro h
  refine nested_group_not_sat _ (h c15BadLibs "x" c15BadText "[1, 2]" c15BadTable _ _ (.array [.integer 1, .integer 2])
    (flattenFromStr_same (by decide +kernel)) ⟨[], [], rfl, nofun⟩ rfl
    (.array (.cons (.nat 1) (.cons (.nat 2) .nil))) (validateJsonStr_of_fuel (k := 60) (by decide +kernel) (by simp)))

end Cddl
