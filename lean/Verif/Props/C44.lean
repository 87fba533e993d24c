import Verif.Spec.Stages
import Verif.Proofs.FlatTable
import Verif.Proofs.FlatErr
import Verif.Props.C01
import Verif.Props.C02
import Verif.Props.C03
import Verif.Props.C28
import Verif.Props.C29
import Verif.Props.C30
import Verif.Props.C35
import Verif.Props.C38
import Verif.Props.C39
import Verif.Props.C42

/-! # C44  End-to-end agreement of entry points -/

namespace Cddl

theorem find_last {t : RuleTable} {s : String} {d : RuleDef} : RuleTable.find t s = some d ↔ LastRule t s d := by
  constructor
  · intro h
    induction t with
    | nil => simp [RuleTable.find] at h
    | cons p t ih =>
      simp only [RuleTable.find] at h
      cases hf : RuleTable.find t s with
      | some d' =>
        rw [hf] at h
        obtain ⟨a, b, rfl, hb⟩ := ih (hf.trans h)
        exact ⟨p :: a, b, rfl, hb⟩
      | none =>
        rw [hf] at h
        dsimp only at h
        split at h
        · rename_i hp
          simp only [Option.some.injEq] at h
          refine ⟨[], t, ?_, RuleTable.find_none.mp hf⟩
          rw [List.nil_append, ← hp, ← h]
        · simp at h
  · rintro ⟨a, b, rfl, hb⟩
    rw [RuleTable.find_append, RuleTable.find]
    rw [RuleTable.find_none.mpr hb]
    simp

theorem staged_iff {l : Libs} {name cddl : String} {D : RuleTable → RuleDef → Res Unit → Prop}
    {f : RuleTable × RuleDef → Res Unit} (hf : ∀ t rd r, f (t, rd) = r ↔ D t rd r) (r : Res Unit) :
    (findRule l name cddl).bind f = r ↔ Staged l name cddl D r := by
  unfold findRule flattenFromStr
  constructor
  · intro h
    rcases C39_returns l.parse cddl with ⟨c, hp⟩ | ⟨e, hp⟩
    · rcases C35_no_panic l.regexOk c with ⟨t, ht⟩ | ⟨e, ht⟩
      · rw [hp] at h
        simp only [Res.bind, ht] at h
        cases hfind : RuleTable.find t name with
        | none =>
          rw [hfind] at h
          simp only at h
          exact h ▸ .noRule hp ht (RuleTable.find_none.mp hfind)
        | some rd =>
          rw [hfind] at h
          exact .data hp ht (find_last.mp hfind) ((hf t rd r).mp h)
      · rw [hp] at h
        simp only [Res.bind, ht] at h
        exact h ▸ .badSchema hp ht
    · rw [hp] at h
      simp only [Res.bind] at h
      exact h ▸ .notCddl hp
  · intro h
    cases h with
    | notCddl hp => simp only [hp, Res.bind]
    | badSchema hp ht => simp only [hp, Res.bind, ht]
    | noRule hp ht hn => simp only [hp, Res.bind, ht, RuleTable.find_none.mpr hn]
    | data hp ht hl hd =>
      simp only [hp, Res.bind, ht, find_last.mpr hl]
      exact (hf _ _ _).mpr hd

/-- C44.  `validate_cbor_bytes` answers exactly what the stages give, and the errors come in this order: the
schema text, the schema, the rule name, the bytes, tags in the data, and only then the validation. -/
theorem C44_cbor_bytes (l : Libs) (name cddl : String) (cbor : List UInt8) (r : Res Unit) :
    validateCborBytes l name cddl cbor = r ↔ Staged l name cddl (CborAnswer l cbor) r := by
  unfold validateCborBytes
  refine staged_iff (fun t rd r => ?_) r
  dsimp only
  constructor
  · intro h
    cases hd : l.cborDecode cbor with
    | error m => rw [hd] at h; exact h ▸ .notCbor hd
    | ok c =>
      rw [hd] at h
      dsimp only at h
      by_cases ht : c.hasTag = true
      · rw [(cbor_err c).1 ht] at h
        exact h ▸ .tagged hd ht
      · obtain ⟨v, hv⟩ := (cbor_err c).2 (by simpa using ht)
        rw [hv] at h
        exact h ▸ .validated hd ((cbor_ok c v).mp hv)
  · intro h
    cases h with
    | notCbor hd => rw [hd]
    | tagged hd ht => rw [hd]; simp only [(cbor_err _).1 ht]; rfl
    | validated hd hv => rw [hd]; simp only [(cbor_ok _ _).mpr hv]; rfl

/-- C44.  `validate_json_str` answers exactly what the stages give. -/
theorem C44_json_str (l : Libs) (name cddl json : String) (r : Res Unit) :
    validateJsonStr l name cddl json = r ↔ Staged l name cddl (JsonAnswer l json) r := by
  unfold validateJsonStr
  refine staged_iff (fun t rd r => ?_) r
  dsimp only
  constructor
  · intro h
    cases hd : l.jsonDecode json with
    | error m => rw [hd] at h; exact h ▸ .notJson hd
    | ok c =>
      rw [hd] at h
      obtain ⟨v, hv, hj⟩ := json_ok c
      simp only [hv] at h
      exact h ▸ .validated hd hj
  · intro h
    cases h with
    | notJson hd => rw [hd]
    | @validated j v hd hv =>
      rw [hd]
      obtain ⟨w, hw, hj⟩ := json_ok j
      cases jsonIs_unique hv hj
      simp only [hw]
      rfl

/-- C44.  Parsing the schema once and validating decoded data against a rule of it, as the documentation of the
crate advises (/repo/src/cbor.rs:26-56), gives the same as `validate_cbor_bytes`. -/
theorem C44_reuse_cbor (l : Libs) {name cddl : String} {cbor : List UInt8} {t : RuleTable} {rd : RuleDef} {c : Cbor}
    (ht : flattenFromStr l cddl = .ok t) (hr : LastRule t name rd) (hc : l.cborDecode cbor = .ok c) :
    validateCborBytes l name cddl cbor = validateCbor (l.env t) rd c := by
  unfold validateCborBytes findRule validateCbor
  simp only [ht, Res.bind, find_last.mpr hr, hc]

theorem C44_reuse_json (l : Libs) {name cddl json : String} {t : RuleTable} {rd : RuleDef} {j : Json}
    (ht : flattenFromStr l cddl = .ok t) (hr : LastRule t name rd) (hj : l.jsonDecode json = .ok j) :
    validateJsonStr l name cddl json = validateJson (l.env t) rd j := by
  unfold validateJsonStr findRule validateJson
  simp only [ht, Res.bind, find_last.mpr hr, hj]

/-- C44.  The two entry points agree on data that means the same. -/
theorem C44_json_cbor (l : Libs) {name cddl json : String} {cbor : List UInt8} {j : Json}
    (hj : l.jsonDecode json = .ok j) (hc : l.cborDecode cbor = .ok j.toCbor) :
    validateJsonStr l name cddl json = validateCborBytes l name cddl cbor := by
  unfold validateJsonStr validateCborBytes
  rw [hj, hc]
  dsimp only
  rw [toCbor_ok]

/-- C44.  The whole way from text to answer never panics, and its errors are never the internal cut error. -/
theorem C44_answers (l : Libs) (name cddl : String) (cbor : List UInt8) (json : String) :
    (validateCborBytes l name cddl cbor = .ok () ∨
      ∃ e, validateCborBytes l name cddl cbor = .err e ∧ ∀ m, e ≠ .mapCut m) ∧
    (validateJsonStr l name cddl json = .ok () ∨
      ∃ e, validateJsonStr l name cddl json = .err e ∧ ∀ m, e ≠ .mapCut m) := by
  have pre : ∀ (D : RuleTable → RuleDef → Res Unit → Prop) (r : Res Unit),
      (∀ t rd r, D t rd r → r = .ok () ∨ ∃ e, r = .err e ∧ ∀ m, e ≠ .mapCut m) →
      Staged l name cddl D r → r = .ok () ∨ ∃ e, r = .err e ∧ ∀ m, e ≠ .mapCut m := by
    intro D r hD h
    cases h with
    | @notCddl e hp =>
      rcases C39_returns l.parse cddl with ⟨c, hp'⟩ | ⟨e', hp'⟩ <;> rw [hp] at hp'
      · cases hp'
      · cases hp'; exact .inr ⟨_, rfl, by simp⟩
    | badSchema hp ht => exact .inr ⟨_, rfl, fun m hm => by
        have := flatten_err ht
        rw [hm] at this
        cases this⟩
    | noRule => exact .inr ⟨_, rfl, by simp⟩
    | data hp ht hl hd => exact hD _ _ _ hd
  have fin : ∀ (t : RuleTable) (v : Value) (rd : RuleDef), v.WF →
      doValidate (l.env t) v rd = .ok () ∨ ∃ e, doValidate (l.env t) v rd = .err e ∧ ∀ m, e ≠ .mapCut m := by
    intro t v rd hv
    have h1 := C02_no_panic (l.env t) v rd hv
    have h2 := doValidate_returns (l.env t) v rd
    have h3 := C03_no_mapCut_table (l.env t) t rfl v rd hv
    cases h : doValidate (l.env t) v rd with
    | ok u => exact .inl rfl
    | err e => exact .inr ⟨e, rfl, fun m hm => h3 m (hm ▸ h)⟩
    | panic => exact absurd h h1
    | fuel => exact absurd h h2
  constructor
  · refine pre _ _ (fun t rd r h => ?_) ((C44_cbor_bytes l name cddl cbor _).mp rfl)
    cases h with
    | notCbor => exact .inr ⟨_, rfl, by simp⟩
    | tagged => exact .inr ⟨_, rfl, by simp⟩
    | validated hd hv => exact fin t _ rd (Cbor.toValue_WF _ _ ((cbor_ok _ _).mpr hv))
  · refine pre _ _ (fun t rd r h => ?_) ((C44_json_str l name cddl json _).mp rfl)
    cases h with
    | notJson => exact .inr ⟨_, rfl, by simp⟩
    | @validated j v hd hv =>
      obtain ⟨w, hw, hj⟩ := json_ok j
      cases jsonIs_unique hv hj
      exact fin t _ rd (Json.toValue_WF _ _ hw)

/-- C44.  The model of the entry points computes these answers: with every large enough number of steps the answer
is the same, and it is an answer. -/
theorem C44_returns (l : Libs) (name cddl : String) (cbor : List UInt8) (json : String) :
    (validateCborBytes l name cddl cbor ≠ .fuel ∧
      ∃ N, ∀ n, N ≤ n → validateCborBytesF l n name cddl cbor = validateCborBytes l name cddl cbor) ∧
    (validateJsonStr l name cddl json ≠ .fuel ∧
      ∃ N, ∀ n, N ≤ n → validateJsonStrF l n name cddl json = validateJsonStr l name cddl json) := by
  obtain ⟨h1, h2⟩ := C44_answers l name cddl cbor json
  refine ⟨⟨?_, ?_⟩, ?_, ?_⟩
  · rcases h1 with h | ⟨e, h, _⟩ <;> rw [h] <;> simp
  · unfold validateCborBytes validateCborBytesF
    cases findRule l name cddl with
    | ok p =>
      simp only [Res.bind]
      cases l.cborDecode cbor with
      | error m => exact ⟨0, fun _ _ => rfl⟩
      | ok c =>
        dsimp only
        cases c.toValue with
        | error e => exact ⟨0, fun _ _ => rfl⟩
        | ok v => exact (C01_validation_returns _ v p.2).2
    | _ => exact ⟨0, fun _ _ => rfl⟩
  · rcases h2 with h | ⟨e, h, _⟩ <;> rw [h] <;> simp
  · unfold validateJsonStr validateJsonStrF
    cases findRule l name cddl with
    | ok p =>
      simp only [Res.bind]
      cases l.jsonDecode json with
      | error m => exact ⟨0, fun _ _ => rfl⟩
      | ok c =>
        dsimp only
        cases c.toValue with
        | error e => exact ⟨0, fun _ _ => rfl⟩
        | ok v => exact (C01_validation_returns _ v p.2).2
    | _ => exact ⟨0, fun _ _ => rfl⟩

/-- C44.  How a schema is laid out does not change any answer: any two layouts of the same tree. -/
theorem C44_layout (l : Libs) {tree : Ast.Cddl} {s s' : List Char} (h : GCddl l.parse true s tree)
    (h' : GCddl l.parse true s' tree) (name json : String) (cbor : List UInt8) :
    validateCborBytes l name (String.ofList s) cbor = validateCborBytes l name (String.ofList s') cbor ∧
      validateJsonStr l name (String.ofList s) json = validateJsonStr l name (String.ofList s') json := by
  have : findRule l name (String.ofList s) = findRule l name (String.ofList s') := by
    unfold findRule flattenFromStr
    rw [parseCddl_run h, parseCddl_run h']
  exact ⟨by unfold validateCborBytes; rw [this], by unfold validateJsonStr; rw [this]⟩

/-- C44.  Nor does printing the tree of any schema that parses, and using the printed text instead. -/
theorem C44_reprint (l : Libs) {p : PrintExt} (hw : Writes l.parse p) {cddl : String} {tree : Ast.Cddl}
    (h : parseCddl l.parse cddl = .ok tree) (name json : String) (cbor : List UInt8) :
    validateCborBytes l name (printCddl p tree) cbor = validateCborBytes l name cddl cbor ∧
      validateJsonStr l name (printCddl p tree) json = validateJsonStr l name cddl json := by
  have : findRule l name (printCddl p tree) = findRule l name cddl := by
    unfold findRule flattenFromStr
    rw [C42_parsed hw h, h]
  exact ⟨by unfold validateCborBytes; rw [this], by unfold validateJsonStr; rw [this]⟩

/-- Libraries for the examples: no floats or escapes in schemas, `"7"` is the JSON number 7 and the byte 7 the CBOR
number 7; nothing else decodes. -/
def demoLibs : Libs :=
  { parse := demoExt, regexOk := fun _ => true, regexMatch := fun _ _ => false
    cborDecode := fun b => if b = [7] then .ok (.integer 7) else .error "bad cbor"
    jsonDecode := fun s => if s = "7" then .ok (.number (.posInt 7)) else .error "bad json"
    fmtF64 := fun _ => "f" }

/-- The order of the errors: text, schema, name, data, mismatch. -/
example :
    validateJsonStrF demoLibs 60 "z" "x = !" "?" = .err (.parseError ⟨.unparseable, "!"⟩) ∧
    validateJsonStrF demoLibs 60 "z" "x = time" "?" = .err (.unsupported "prelude type 'time'") ∧
    validateJsonStrF demoLibs 60 "z" "x = tstr" "?" = .err (.missingRule "z") ∧
    validateJsonStrF demoLibs 60 "x" "x = tstr" "?" = .err (.valueError "bad json") ∧
    validateJsonStrF demoLibs 60 "x" "x = tstr" "7" = .err (.mismatch "tstr") ∧
    validateJsonStrF demoLibs 60 "x" "x = 7 / tstr" "7" = .ok () ∧
    validateCborBytesF demoLibs 60 "x" "x = 7 / tstr" [7] = .ok () :=
  by decide +kernel

example : validateJsonStr demoLibs "x" "x = y x = 7 / tstr" "7" = .ok () ∧
    validateCborBytes demoLibs "x" "x = y x = 7 / tstr" [7] = .ok () :=
  ⟨validateJsonStr_of_fuel (k := 60) (by decide +kernel) (by simp), validateCborBytes_of_fuel (k := 60) (by decide +kernel) (by simp)⟩

end Cddl
