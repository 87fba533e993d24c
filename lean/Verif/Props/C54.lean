import Verif.Proofs.TidyGuard
import Verif.Spec.TidyCheck
import Verif.Props.C49

/-! # C54  Where everything is used as it should be, the only error is a mismatch

Whether a schema can give errors of its own - missing rules, wrong numbers of arguments, groups used as types, operators
on things they are not for, recursion without end - is decided by a test that reads only the rules
(`RuleTable.tidy`, Spec/TidyCheck.lean).  For schemas that pass, every answer is yes or a mismatch; and if they also pass
the tests of C15 and C49, the answer is yes exactly for the data described by the schema. -/

namespace Cddl

/-- C54.  By a plan that fits the rules, a type used as planned gives yes, a mismatch, the error of the recursion limit
if the plan allows it, or that of undecodable bytes if `.cbor` is allowed. -/
theorem C54_plan (env : Env) (hl : ∀ s m, env.lookup s ≠ .error (.mapCut m)) (J : Plan) (hJ : J.Fits env) (n : Node)
    (r : Nat) (hn : n.tidy J ⟨[], r, false⟩ .type = true) (v : Value) (hv : v.WF)
    (hr : J.limit = true ∨ r + J.slack * v.height ≤ 50) :
    validate env v n top = .ok () ∨ (∃ m, validate env v n top = .err (.mismatch m)) ∨
    (J.limit = true ∧ validate env v n top = .err (.structural "hit recursion limit")) ∨
    (J.cbor = true ∧ ∃ m, validate env v n top = .err (.valueError m)) := by
  have h := validate_tidy hJ (P := ⟨[], r, false⟩) (c := top) v (.root rfl (hr.imp id fun h => by
    show 0 + r + _ ≤ 50
    omega)) n hn
  have hd : doValidate env v ⟨[], n⟩ = (lim env).val v n top := rfl
  show (lim env).val v n top = _ ∨ (∃ m, (lim env).val v n top = _) ∨ (_ ∧ (lim env).val v n top = _) ∨
    (_ ∧ ∃ m, (lim env).val v n top = _)
  cases he : (lim env).val v n top with
  | ok => exact .inl rfl
  | err e =>
    rw [he] at h
    cases e with
    | mismatch m => exact .inr (.inl ⟨m, rfl⟩)
    | mapCut m => exact absurd (hd.trans he) (C03_no_mapCut _ _ _ hv hl m)
    | structural m => exact .inr (.inr (.inl ⟨h.1, by rw [h.2]⟩))
    | valueError m => exact .inr (.inr (.inr ⟨h, m, rfl⟩))
    | parseError e => exact h.elim
    | missingRule e => exact h.elim
    | unsupported e => exact h.elim
    | genericError => exact h.elim
  | panic => exact absurd (hd.trans he) (C02_no_panic _ _ _ hv)
  | fuel => exact absurd (hd.trans he) (doValidate_returns _ _ _)

theorem RuleTable.lookup_notCut (t : RuleTable) (s m : String) : t.lookup s ≠ .error (.mapCut m) := by
  unfold RuleTable.lookup
  split <;> simp

theorem Plan.fitsB_fits {J : Plan} {t : RuleTable} (hs : ∀ s, t.find s = none → J.rules s = []) (h : J.fitsB t = true)
    {env : Env} (he : env.lookup = t.lookup) : J.Fits env := by
  intro s u hu
  cases hf : t.find s with
  | none => rw [hs s hf] at hu; cases hu
  | some d =>
    simp only [Plan.fitsB, List.all_eq_true] at h
    have := h (s, d) (RuleTable.find_mem hf) u hu
    simp only [hf, Bool.and_eq_true, decide_eq_true_eq] at this
    refine ⟨d, ?_, this⟩
    rw [he]
    unfold RuleTable.lookup
    rw [hf]

theorem Plan.serves_answer (l : Libs) {t : RuleTable} {J : Plan} {name : String} {rd : RuleDef} {v : Value}
    (hs : ∀ s, t.find s = none → J.rules s = []) {h : Nat} (hu : J.serves t name h = true)
    (hh : J.slack = 0 ∨ v.height ≤ h) (hr : LastRule t name rd) (hv : v.WF) :
    doValidate (l.env t) v rd = .ok () ∨ (∃ m, doValidate (l.env t) v rd = .err (.mismatch m)) ∨
    (J.limit = true ∧ doValidate (l.env t) v rd = .err (.structural "hit recursion limit")) ∨
    (J.cbor = true ∧ ∃ m, doValidate (l.env t) v rd = .err (.valueError m)) := by
  have hf := find_last.mpr hr
  simp only [Plan.serves, hf, Bool.and_eq_true, List.contains_iff_mem, Bool.or_eq_true, decide_eq_true_eq,
    List.isEmpty_iff] at hu
  obtain ⟨⟨⟨hJ, ht⟩, hk⟩, hp⟩ := hu
  have hJ := Plan.fitsB_fits hs hJ (env := l.env t) rfl
  obtain ⟨d, hd, hlen, hn⟩ := hJ _ _ ht
  have : d = rd := by
    have h1 : t.lookup name = .ok d := hd
    unfold RuleTable.lookup at h1
    rw [hf] at h1
    exact (Except.ok.inj h1).symm
  subst this
  have hdo : doValidate (l.env t) v d = validate (l.env t) v d.node top := by
    unfold doValidate
    rw [hp]
    rfl
  rw [hdo]
  have hpl : J.place name d = ⟨[], J.rank name, false⟩ := by
    unfold Plan.place
    rw [hp]
    rfl
  rw [hpl] at hn
  refine C54_plan (l.env t) (t.lookup_notCut) _ hJ d.node _ hn v hv (hk.imp id fun hk => ?_)
  rcases hh with hh | hh
  · rw [hh] at hk ⊢
    omega
  · exact Nat.le_trans (Nat.add_le_add_left (Nat.mul_le_mul_left _ hh) _) hk

/-- A plan without recursion limit and `.cbor`: data described by a rule in which the next element or key always decides is
accepted. -/
theorem Plan.serves_complete (l : Libs) {t : RuleTable} {J : Plan} {name : String} {rd : RuleDef} {v : Value}
    (hs : ∀ s, t.find s = none → J.rules s = []) {h : Nat} (hu : J.serves t name h = true)
    (hh : J.slack = 0 ∨ v.height ≤ h) (hlim : J.limit = false) (hcb : J.cbor = false) (hd : t.decisive name = true)
    (hr : LastRule t name rd) (hv : v.WF) (hsat : Sat (l.env t) .root rd.node v) : doValidate (l.env t) v rd = .ok () := by
  have hans := Plan.serves_answer l hs hu hh hr hv
  have hf := find_last.mpr hr
  simp only [Plan.serves, hf, Bool.and_eq_true, List.contains_iff_mem, Bool.or_eq_true, decide_eq_true_eq,
    List.isEmpty_iff, hlim, Bool.false_eq_true, false_or] at hu
  obtain ⟨⟨⟨hJ, ht⟩, hk⟩, hp⟩ := hu
  have hJ := Plan.fitsB_fits hs hJ (env := l.env t) rfl
  obtain ⟨d, hd', hlen, hn⟩ := hJ _ _ ht
  have : d = rd := by
    have h1 : t.lookup name = .ok d := hd'
    unfold RuleTable.lookup at h1
    rw [hf] at h1
    exact (Except.ok.inj h1).symm
  subst this
  have hfine : ((lim (l.env t)).val v d.node top).Fine :=
    Sat.complete (env_fatal l t) (RuleTable.decisive_agrees hd rfl) (Plan.guard hJ hlim hcb) hsat top rfl trivial
      (RuleTable.decisive_clear hd hf) hv ⟨J.place name d, .root (by unfold Plan.place; rw [hp]; rfl) (.inr (by
        show 0 + J.rank name + J.slack * v.height ≤ 50
        rcases hh with hh | hh
        · rw [hh] at hk ⊢
          omega
        · have := Nat.mul_le_mul_left J.slack hh
          omega)), hn⟩ (Nat.le_refl _)
  have hdo : doValidate (l.env t) v d = (lim (l.env t)).val v d.node top := by
    unfold doValidate
    rw [hp]
    rfl
  rcases hans with h | ⟨m, h⟩ | ⟨h, _⟩ | ⟨h, _⟩
  · exact h
  · exact absurd (hfine _ (hdo ▸ h)) (by simp [Err.isFatal])
  · rw [hlim] at h; cases h
  · rw [hcb] at h; cases h

/-- The answer is yes exactly for the data described, and a mismatch for all other data. -/
theorem Plan.serves_exact (l : Libs) {t : RuleTable} {J : Plan} {name : String} {rd : RuleDef} {v : Value}
    (hs : ∀ s, t.find s = none → J.rules s = []) {h : Nat} (hu : J.serves t name h = true)
    (hh : J.slack = 0 ∨ v.height ≤ h) (hlim : J.limit = false) (hcb : J.cbor = false) (hd : t.decisive name = true)
    (hb : t.undoable name = true) (hr : LastRule t name rd) (hv : v.WF) :
    (doValidate (l.env t) v rd = .ok () ↔ Sat (l.env t) .root rd.node v) ∧
    ((∃ m, doValidate (l.env t) v rd = .err (.mismatch m)) ↔ ¬ Sat (l.env t) .root rd.node v) := by
  have h1 := Plan.serves_complete l hs hu hh hlim hcb hd hr hv
  have h2 := fun h => (C15_checked_partial l hb hr hv h).2
  refine ⟨⟨h2, h1⟩, fun ⟨m, hm⟩ hsat => ?_, fun hsat => ?_⟩
  · rw [h1 hsat] at hm; cases hm
  · rcases Plan.serves_answer l hs hu hh hr hv with h | h | ⟨h, _⟩ | ⟨h, _⟩
    · exact absurd (h2 h) hsat
    · exact h
    · rw [hlim] at h; cases h
    · rw [hcb] at h; cases h

theorem RuleTable.plan_rules {t : RuleTable} {levels limit cbor : Bool} {name : String} (s : String)
    (hs : t.find s = none) : (t.plan levels limit cbor name).rules s = [] := by
  show (if (t.find s).isSome then _ else _) = _
  rw [hs]
  rfl

/-- C54 for a table that passes the test. -/
theorem C54_checked (l : Libs) {t : RuleTable} {limit cbor : Bool} {name : String} {rd : RuleDef} {v : Value}
    (hu : t.tidy limit cbor name = true) (hr : LastRule t name rd) (hv : v.WF) :
    doValidate (l.env t) v rd = .ok () ∨ (∃ m, doValidate (l.env t) v rd = .err (.mismatch m)) ∨
    (limit = true ∧ doValidate (l.env t) v rd = .err (.structural "hit recursion limit")) ∨
    (cbor = true ∧ ∃ m, doValidate (l.env t) v rd = .err (.valueError m)) := by
  exact Plan.serves_answer l RuleTable.plan_rules hu (.inl rfl) hr hv

theorem Plan.serves_rule {t : RuleTable} {J : Plan} {name : String} {k : Nat} (h : J.serves t name k = true) :
    ∃ rd, LastRule t name rd ∧ rd.params = [] := by
  simp only [Plan.serves, Bool.and_eq_true] at h
  cases hf : t.find name with
  | none => rw [hf] at h; cases h.2
  | some d =>
    rw [hf] at h
    exact ⟨d, find_last.mp hf, by simpa using h.2⟩

/-- A table that passes the test has the rule, and it takes no arguments. -/
theorem RuleTable.tidy_rule {t : RuleTable} {limit cbor : Bool} {name : String} (h : t.tidy limit cbor name = true) :
    ∃ rd, LastRule t name rd ∧ rd.params = [] := Plan.serves_rule h

/-- C54.  `validate_json_str` on a schema that passes the test, without recursion and without `.cbor`: for JSON text, the
answer is yes or a mismatch. -/
theorem C54_json_str (l : Libs) {name cddl json : String} {t : RuleTable} (ht : flattenFromStr l cddl = .ok t)
    (hu : t.tidy false false name = true) {j : Json} (hj : l.jsonDecode json = .ok j) :
    validateJsonStr l name cddl json = .ok () ∨ ∃ m, validateJsonStr l name cddl json = .err (.mismatch m) := by
  obtain ⟨rd, hr, hp⟩ := RuleTable.tidy_rule hu
  obtain ⟨v, hv, _⟩ := json_ok j
  rw [C44_reuse_json l ht hr hj]
  unfold validateJson
  rw [hv]
  rcases C54_checked l hu hr (Json.toValue_WF _ _ hv) with h | h | ⟨h, _⟩ | ⟨h, _⟩
  · exact .inl h
  · exact .inr h
  · cases h
  · cases h

/-- C54.  The same for `validate_cbor_bytes` and CBOR without tags. -/
theorem C54_cbor_bytes (l : Libs) {name cddl : String} {cbor : List UInt8} {t : RuleTable}
    (ht : flattenFromStr l cddl = .ok t) (hu : t.tidy false false name = true) {c : Cbor} {v : Value}
    (hc : l.cborDecode cbor = .ok c) (hcv : CborIs c v) :
    validateCborBytes l name cddl cbor = .ok () ∨ ∃ m, validateCborBytes l name cddl cbor = .err (.mismatch m) := by
  obtain ⟨rd, hr, hp⟩ := RuleTable.tidy_rule hu
  have hv := (cbor_ok c v).mpr hcv
  rw [C44_reuse_cbor l ht hr hc]
  unfold validateCbor
  rw [hv]
  rcases C54_checked l hu hr (Cbor.toValue_WF _ _ hv) with h | h | ⟨h, _⟩ | ⟨h, _⟩
  · exact .inl h
  · exact .inr h
  · cases h
  · cases h

/-- C54.  On a schema that passes the three tests, the answer is yes exactly for the data described, and a mismatch for
all other data. -/
theorem C54_exact (l : Libs) {t : RuleTable} {name : String} {rd : RuleDef} {v : Value}
    (hu : t.tidy false false name = true) (hp : t.decisive name = true) (hb : t.undoable name = true)
    (hr : LastRule t name rd) (hv : v.WF) :
    (doValidate (l.env t) v rd = .ok () ↔ Sat (l.env t) .root rd.node v) ∧
    ((∃ m, doValidate (l.env t) v rd = .err (.mismatch m)) ↔ ¬ Sat (l.env t) .root rd.node v) := by
  exact Plan.serves_exact l RuleTable.plan_rules hu (.inl rfl) rfl rfl hp hb hr hv

/-- C54.  `validate_json_str` says yes exactly if the data is described by the rule, and otherwise reports a mismatch. -/
theorem C54_exact_json (l : Libs) {name cddl json : String} {t : RuleTable} (ht : flattenFromStr l cddl = .ok t)
    (hu : t.tidy false false name = true) (hp : t.decisive name = true) (hb : t.undoable name = true) {j : Json}
    (hj : l.jsonDecode json = .ok j) :
    ∃ rd v, LastRule t name rd ∧ JsonIs j v ∧
      (validateJsonStr l name cddl json = .ok () ↔ Sat (l.env t) .root rd.node v) ∧
      ((∃ m, validateJsonStr l name cddl json = .err (.mismatch m)) ↔ ¬ Sat (l.env t) .root rd.node v) := by
  obtain ⟨rd, hr, _⟩ := RuleTable.tidy_rule hu
  obtain ⟨v, hv, hjv⟩ := json_ok j
  refine ⟨rd, v, hr, hjv, ?_⟩
  rw [C44_reuse_json l ht hr hj]
  unfold validateJson
  rw [hv]
  exact C54_exact l hu hp hb hr (Json.toValue_WF _ _ hv)

/-- C54.  The same for `validate_cbor_bytes`. -/
theorem C54_exact_cbor (l : Libs) {name cddl : String} {cbor : List UInt8} {t : RuleTable}
    (ht : flattenFromStr l cddl = .ok t) (hu : t.tidy false false name = true) (hp : t.decisive name = true)
    (hb : t.undoable name = true) {c : Cbor} {v : Value} (hc : l.cborDecode cbor = .ok c) (hcv : CborIs c v) :
    ∃ rd, LastRule t name rd ∧
      (validateCborBytes l name cddl cbor = .ok () ↔ Sat (l.env t) .root rd.node v) ∧
      ((∃ m, validateCborBytes l name cddl cbor = .err (.mismatch m)) ↔ ¬ Sat (l.env t) .root rd.node v) := by
  obtain ⟨rd, hr, _⟩ := RuleTable.tidy_rule hu
  have hv := (cbor_ok c v).mpr hcv
  refine ⟨rd, hr, ?_⟩
  rw [C44_reuse_cbor l ht hr hc]
  unfold validateCbor
  rw [hv]
  exact C54_exact l hu hp hb hr (Cbor.toValue_WF _ _ hv)

/-! ## A concrete case -/

/-- A schema with groups, a range with a name in it, generics, control operators, `&`, `~` and maps. -/
def c54Text : String :=
  "a = [* pair, ? label<5>] pair = (lo .. 9, b) lo = 2 b = bool / box<b2> b2 = [2*4 nint .gt lim] lim = -7 " ++
  "label<n> = tstr .size n box<t> = {v: t, ? w: &flags, ~ more, * tstr => any} more = {? z: null} flags = (x: 1, y: 2)"

/-- Its rules. -/
def c54Table : RuleTable := [
  ("a", ⟨[], .array [.occur .zeroOrMore (.rule "pair" []), .occur .optional (.rule "label" [.literal (.int 5)])]⟩),
  ("pair", ⟨[], .group [.range (.rule "lo" []) (.literal (.int 9)) true, .rule "b" []]⟩),
  ("lo", ⟨[], .literal (.int 2)⟩),
  ("b", ⟨[], .choice [.prelude .bool, .rule "box" [.rule "b2" []]]⟩),
  ("b2", ⟨[], .array [.occur (.numbered 2 4) (.ctl .gt (.prelude .nint) (.rule "lim" []))]⟩),
  ("lim", ⟨[], .literal (.int (-7))⟩),
  ("label", ⟨["n"], .ctl .size (.prelude .tstr) (.rule "n" [])⟩),
  ("box", ⟨["t"], .map [.keyValue (.literal (.text "v")) (.rule "t" []) true,
    .occur .optional (.keyValue (.literal (.text "w")) (.choiceify "flags" []) true),
    .unwrap "more" [],
    .occur .zeroOrMore (.keyValue (.prelude .tstr) (.prelude .any) false)]⟩),
  ("more", ⟨[], .map [.occur .optional (.keyValue (.literal (.text "z")) (.prelude .nil) true)]⟩),
  ("flags", ⟨[], .group [.keyValue (.literal (.text "x")) (.literal (.int 1)) true,
    .keyValue (.literal (.text "y")) (.literal (.int 2)) true]⟩)]

/-- `[3, {"v": [-3, -4], "w": w}, "hello"]`. -/
def c54Json (w : Nat) : Json :=
  .array [.number (.posInt 3), .object [("v", .array [.number (.negInt (-3)), .number (.negInt (-4))]),
    ("w", .number (.posInt w))], .string "hello"]

/-- `demoLibs` with two JSON texts. -/
def c54Libs : Libs :=
  { demoLibs with
    jsonDecode := fun s => if s = "[3, {\"v\": [-3, -4], \"w\": 2}, \"hello\"]" then .ok (c54Json 2)
      else if s = "[3, {\"v\": [-3, -4], \"w\": 3}, \"hello\"]" then .ok (c54Json 3)
      else .error "bad json" }

theorem c54_flatten : flattenFromStr c54Libs c54Text = .ok c54Table := flattenFromStr_same (by decide +kernel)

/-- It passes the three tests. -/
theorem c54_tests : c54Table.tidy false false "a" = true ∧ c54Table.decisive "a" = true ∧
    c54Table.undoable "a" = true := by decide +kernel

/-- One is accepted and the other is not, so one is described by the schema and the other is not. -/
example : validateJsonStr c54Libs "a" c54Text "[3, {\"v\": [-3, -4], \"w\": 2}, \"hello\"]" = .ok () ∧
    validateJsonStr c54Libs "a" c54Text "[3, {\"v\": [-3, -4], \"w\": 3}, \"hello\"]" =
      .err (.mismatch "shorter array") :=
  ⟨validateJsonStr_of_fuel (k := 80) (by decide +kernel) (by simp),
    validateJsonStr_of_fuel (k := 80) (by decide +kernel) (by simp)⟩

example : ∃ rd v w, LastRule c54Table "a" rd ∧ JsonIs (c54Json 2) v ∧ JsonIs (c54Json 3) w ∧
    Sat (c54Libs.env c54Table) .root rd.node v ∧ ¬ Sat (c54Libs.env c54Table) .root rd.node w := by
  obtain ⟨rd, v, hr, hj, h, _⟩ := C54_exact_json c54Libs c54_flatten c54_tests.1 c54_tests.2.1 c54_tests.2.2
    (json := "[3, {\"v\": [-3, -4], \"w\": 2}, \"hello\"]") (j := c54Json 2) rfl
  obtain ⟨rd', w, hr', hj', _, h'⟩ := C54_exact_json c54Libs c54_flatten c54_tests.1 c54_tests.2.1 c54_tests.2.2
    (json := "[3, {\"v\": [-3, -4], \"w\": 3}, \"hello\"]") (j := c54Json 3) rfl
  have : rd' = rd := Option.some.inj ((find_last.mpr hr').symm.trans (find_last.mpr hr))
  subst this
  exact ⟨rd', v, w, hr, hj, hj', h.mp (validateJsonStr_of_fuel (k := 80) (by decide +kernel) (by simp)),
    h'.mp ⟨"shorter array", validateJsonStr_of_fuel (k := 80) (by decide +kernel) (by simp)⟩⟩

/-! ## Keys with names, and optional keys before a wildcard -/

/-- Records as in RFC 8428: the keys have names, and what is not claimed by them is left to the wildcard. -/
def c54Pack : String :=
  "pack = [1* record] record = {? bn => tstr, ? n => tstr, ? v => numeric, * label => value} " ++
  "bn = \"bn\" n = \"n\" v = \"v\" label = tstr value = int / bool numeric = int / float"

/-- Its rules. -/
def c54PackTable : RuleTable := [
  ("pack", ⟨[], .array [.occur (.numbered 1 usizeMax) (.rule "record" [])]⟩),
  ("record", ⟨[], .map [.occur .optional (.keyValue (.rule "bn" []) (.prelude .tstr) false),
    .occur .optional (.keyValue (.rule "n" []) (.prelude .tstr) false),
    .occur .optional (.keyValue (.rule "v" []) (.rule "numeric" []) false),
    .occur .zeroOrMore (.keyValue (.rule "label" []) (.rule "value" []) false)]⟩),
  ("bn", ⟨[], .literal (.text "bn")⟩), ("n", ⟨[], .literal (.text "n")⟩), ("v", ⟨[], .literal (.text "v")⟩),
  ("label", ⟨[], .prelude .tstr⟩), ("value", ⟨[], .choice [.prelude .int, .prelude .bool]⟩),
  ("numeric", ⟨[], .choice [.prelude .int, .prelude .float]⟩)]

/-- `[{"u": true, "v": 2, "n": n}]`. -/
def c54Record (n : Json) : Json :=
  .array [.object [("u", .bool true), ("v", .number (.posInt 2)), ("n", n)]]

/-- `demoLibs` with three JSON texts. -/
def c54PackLibs : Libs :=
  { demoLibs with
    jsonDecode := fun s => if s = "[{\"u\": true, \"v\": 2, \"n\": \"x\"}]" then .ok (c54Record (.string "x"))
      else if s = "[{\"u\": true, \"v\": 2, \"n\": 7}]" then .ok (c54Record (.number (.posInt 7)))
      else if s = "[{\"u\": true, \"v\": 2, \"n\": null}]" then .ok (c54Record .null)
      else .error "bad json" }

theorem c54_pack : flattenFromStr c54PackLibs c54Pack = .ok c54PackTable := flattenFromStr_same (by decide +kernel)

/-- It passes the three tests of C54, but not that of C49 for keys. -/
theorem c54_pack_tests : c54PackTable.tidy false false "pack" = true ∧ c54PackTable.decisive "pack" = true ∧
    c54PackTable.undoable "pack" = true ∧ c54PackTable.predictive "pack" = false := by decide +kernel

/-- The text `"x"` is taken by the entry for `n`, the number `7` by the wildcard, and `null` by neither. -/
example : validateJsonStr c54PackLibs "pack" c54Pack "[{\"u\": true, \"v\": 2, \"n\": \"x\"}]" = .ok () ∧
    validateJsonStr c54PackLibs "pack" c54Pack "[{\"u\": true, \"v\": 2, \"n\": 7}]" = .ok () :=
  ⟨validateJsonStr_of_fuel (k := 80) (by decide +kernel) (by simp),
    validateJsonStr_of_fuel (k := 80) (by decide +kernel) (by simp)⟩

example : ∃ rd v, LastRule c54PackTable "pack" rd ∧ JsonIs (c54Record .null) v ∧
    ¬ Sat (c54PackLibs.env c54PackTable) .root rd.node v := by
  obtain ⟨rd, v, hr, hj, _, h⟩ := C54_exact_json c54PackLibs c54_pack c54_pack_tests.1 c54_pack_tests.2.1
    c54_pack_tests.2.2.1 (json := "[{\"u\": true, \"v\": 2, \"n\": null}]") (j := c54Record .null) rfl
  exact ⟨rd, v, hr, hj, h.mp ⟨"more array element [1*18446744073709551615 Rule]",
    validateJsonStr_of_fuel (k := 80) (by decide +kernel) (by simp)⟩⟩

/-- Recursion passes the test if it is allowed, and then the recursion limit may be hit. -/
example : RuleTable.tidy [("a", ⟨[], .rule "a" []⟩)] true false "a" = true ∧
    RuleTable.tidy [("a", ⟨[], .rule "a" []⟩)] false false "a" = false := by decide +kernel

/-- So does `.cbor`. -/
example : RuleTable.tidy [("a", ⟨[], .ctlCbor (.prelude .int)⟩)] false true "a" = true ∧
    RuleTable.tidy [("a", ⟨[], .ctlCbor (.prelude .int)⟩)] false false "a" = false := by decide +kernel

/-- What the test finds: a missing rule, too many arguments, a group of two as a type, a range from an integer to a
float, a limit that is a text, `&` on a type, `.size` of an integer, and an argument that does not suit the use of its
parameter. -/
example : ∀ n ∈ [Node.rule "none" [], .rule "one" [.prelude .int], .rule "two" [],
      .range (.rule "one" []) (.literal (.float ⟨0⟩)) true, .ctl .lt (.prelude .int) (.literal (.text "a")),
      .choiceify "one" [], .ctl .size (.prelude .int) (.rule "one" []), .rule "most" [.prelude .tstr]],
    RuleTable.tidy [("x", ⟨[], n⟩), ("one", ⟨[], .literal (.int 1)⟩), ("two", ⟨[], .group [.prelude .int, .prelude .int]⟩),
      ("most", ⟨["n"], .ctl .le (.prelude .int) (.rule "n" [])⟩)] true true "x" = false := by decide +kernel

/-! ## Without the test the statement is false -/

/-- `validate_json_str("x", "x = [* most<tstr>] most<n> = int .le n", "[1, 2]")` is an error of the schema. -/
theorem C54_refuted : ¬ ∀ (l : Libs) (name cddl json : String) (t : RuleTable) (j : Json), flattenFromStr l cddl = .ok t →
    l.jsonDecode json = .ok j →
    validateJsonStr l name cddl json = .ok () ∨ ∃ m, validateJsonStr l name cddl json = .err (.mismatch m) := by
  intro h
  have hv : validateJsonStr c15BadLibs "x" "x = [* most<tstr>] most<n> = int .le n" "[1, 2]" =
    .err (.structural "bad .le argument type (Tstr)") := validateJsonStr_of_fuel (k := 60) (by decide +kernel) (by simp)
  have := h c15BadLibs "x" "x = [* most<tstr>] most<n> = int .le n" "[1, 2]"
    [("x", ⟨[], .array [.occur .zeroOrMore (.rule "most" [.prelude .tstr])]⟩),
      ("most", ⟨["n"], .ctl .le (.prelude .int) (.rule "n" [])⟩)] _ (flattenFromStr_same (by decide +kernel)) rfl
  rw [hv] at this
  rcases this with h | ⟨m, h⟩ <;> cases h

end Cddl
