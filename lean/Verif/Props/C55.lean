import Verif.Props.C54
import Verif.Spec.Convert

/-! # C55  Recursive schemas reach the recursion limit only on data that is nested deeply

Validation stops with an error at depth 50 of rules within rules, so a recursive rule may fail for data that it describes.
Where all recursion is through arrays and maps, a test that reads only the rules (`RuleTable.tidyAt`, Spec/TidyCheck.lean)
gives a height such that data of at most that height never reaches the limit: the answer is yes or a mismatch; and with the
tests of C15 and C49, it is yes exactly for the data described by the schema. -/

namespace Cddl

mutual
/-- How deeply arrays and objects are nested. -/
def Json.height : Json → Nat
  | .array l => Json.heightL l + 1
  | .object m => Json.heightM m + 1
  | _ => 0
/-- The largest height of elements. -/
def Json.heightL : List Json → Nat
  | [] => 0
  | j :: l => Nat.max j.height (Json.heightL l)
/-- The largest height of members. -/
def Json.heightM : List (String × Json) → Nat
  | [] => 0
  | (_, j) :: l => Nat.max j.height (Json.heightM l)
end

theorem Value.heightM_le {b : Nat} : ∀ {m : List (Value × Value)}, (∀ k v, (k, v) ∈ m → k.height ≤ b ∧ v.height ≤ b) →
    Value.heightM m ≤ b
  | [], _ => by simp [Value.heightM]
  | (k, v) :: m, h => by
    simp only [Value.heightM]
    exact Nat.max_le.mpr ⟨Nat.max_le.mpr (h k v (by simp)), Value.heightM_le fun k' v' h' => h k' v' (by simp [h'])⟩

mutual
theorem JsonIs.height {j : Json} {v : Value} (h : JsonIs j v) : v.height ≤ j.height := by
  cases h with
  | array hs =>
    simp only [Value.height, Json.height]
    exact Nat.succ_le_succ hs.height
  | object hs _ hm =>
    simp only [Value.height, Json.height]
    refine Nat.succ_le_succ (Value.heightM_le fun k v hk => ?_)
    obtain ⟨pre, post, he, _⟩ := (hm k v).mp hk
    exact hs.height k v (by rw [he]; simp)
  | _ => simp [Value.height, Json.height]
theorem JsonsAre.height {l : List Json} {vs : List Value} (h : JsonsAre l vs) : Value.heightL vs ≤ Json.heightL l := by
  cases h with
  | nil => exact Nat.zero_le _
  | cons h hs =>
    simp only [Value.heightL, Json.heightL]
    exact Nat.max_le.mpr ⟨Nat.le_trans h.height (Nat.le_max_left ..), Nat.le_trans hs.height (Nat.le_max_right ..)⟩
theorem JsonPairsAre.height {l : List (String × Json)} {vs : List (Value × Value)} (h : JsonPairsAre l vs) :
    ∀ k v, (k, v) ∈ vs → k.height ≤ Json.heightM l ∧ v.height ≤ Json.heightM l := by
  cases h with
  | nil => intro k v h; cases h
  | cons h hs =>
    intro k v hk
    simp only [Json.heightM]
    rcases List.mem_cons.mp hk with hk | hk
    · cases hk
      exact ⟨Nat.zero_le _, Nat.le_trans h.height (Nat.le_max_left ..)⟩
    · have := hs.height k v hk
      exact ⟨Nat.le_trans this.1 (Nat.le_max_right ..), Nat.le_trans this.2 (Nat.le_max_right ..)⟩
end

/-- What passes for some height passes for lower data. -/
theorem C55_lower {t : RuleTable} {name : String} {h k : Nat} (hu : t.tidyAt name h = true) (hk : k ≤ h) :
    t.tidyAt name k = true := by
  simp only [RuleTable.tidyAt, Plan.serves, Bool.and_eq_true, Bool.or_eq_true, decide_eq_true_eq] at hu ⊢
  refine ⟨⟨hu.1.1, hu.1.2.imp id fun h' => ?_⟩, hu.2⟩
  exact Nat.le_trans (Nat.add_le_add_left (Nat.mul_le_mul_left _ hk) _) h'

/-- C55.  For a table with recursion through arrays and maps only: on data that is not nested too deeply, the answer is yes or
a mismatch. -/
theorem C55_checked (l : Libs) {t : RuleTable} {name : String} {rd : RuleDef} {v : Value}
    (hu : t.tidyAt name v.height = true) (hr : LastRule t name rd) (hv : v.WF) :
    doValidate (l.env t) v rd = .ok () ∨ ∃ m, doValidate (l.env t) v rd = .err (.mismatch m) := by
  rcases Plan.serves_answer l RuleTable.plan_rules hu (.inr (Nat.le_refl _)) hr hv with h | h | ⟨h, _⟩ | ⟨h, _⟩
  · exact .inl h
  · exact .inr h
  · cases h
  · cases h


/-- A table that passes the test has the rule, and it takes no arguments. -/
theorem RuleTable.tidyAt_rule {t : RuleTable} {name : String} {h : Nat} (hu : t.tidyAt name h = true) :
    ∃ rd, LastRule t name rd ∧ rd.params = [] := Plan.serves_rule hu

/-- C55.  `validate_json_str` on a schema with recursion through arrays and maps only, for JSON text that is not nested too
deeply: the answer is yes or a mismatch. -/
theorem C55_json_str (l : Libs) {name cddl json : String} {t : RuleTable} (ht : flattenFromStr l cddl = .ok t)
    {j : Json} (hj : l.jsonDecode json = .ok j) (hu : t.tidyAt name j.height = true) :
    validateJsonStr l name cddl json = .ok () ∨ ∃ m, validateJsonStr l name cddl json = .err (.mismatch m) := by
  obtain ⟨rd, hr, _⟩ := RuleTable.tidyAt_rule hu
  obtain ⟨v, hv, hjv⟩ := json_ok j
  rw [C44_reuse_json l ht hr hj]
  unfold validateJson
  rw [hv]
  exact C55_checked l (C55_lower hu hjv.height) hr (Json.toValue_WF _ _ hv)

/-- C55.  The same for `validate_cbor_bytes` and CBOR without tags. -/
theorem C55_cbor_bytes (l : Libs) {name cddl : String} {cbor : List UInt8} {t : RuleTable}
    (ht : flattenFromStr l cddl = .ok t) {c : Cbor} {v : Value} (hc : l.cborDecode cbor = .ok c) (hcv : CborIs c v)
    (hu : t.tidyAt name v.height = true) :
    validateCborBytes l name cddl cbor = .ok () ∨ ∃ m, validateCborBytes l name cddl cbor = .err (.mismatch m) := by
  obtain ⟨rd, hr, _⟩ := RuleTable.tidyAt_rule hu
  have hv := (cbor_ok c v).mpr hcv
  rw [C44_reuse_cbor l ht hr hc]
  unfold validateCbor
  rw [hv]
  exact C55_checked l hu hr (Cbor.toValue_WF _ _ hv)

/-- C55.  On a schema that passes the three tests, and data that is not nested too deeply, the answer is yes exactly for the
data described, and a mismatch for all other data. -/
theorem C55_exact (l : Libs) {t : RuleTable} {name : String} {rd : RuleDef} {v : Value}
    (hu : t.tidyAt name v.height = true) (hp : t.decisive name = true) (hb : t.undoable name = true)
    (hr : LastRule t name rd) (hv : v.WF) :
    (doValidate (l.env t) v rd = .ok () ↔ Sat (l.env t) .root rd.node v) ∧
    ((∃ m, doValidate (l.env t) v rd = .err (.mismatch m)) ↔ ¬ Sat (l.env t) .root rd.node v) := by
  exact Plan.serves_exact l RuleTable.plan_rules hu (.inr (Nat.le_refl _)) rfl rfl hp hb hr hv

/-- C55.  `validate_json_str` says yes exactly if the data is described by the rule, and otherwise reports a mismatch. -/
theorem C55_exact_json (l : Libs) {name cddl json : String} {t : RuleTable} (ht : flattenFromStr l cddl = .ok t)
    (hp : t.decisive name = true) (hb : t.undoable name = true) {j : Json} (hj : l.jsonDecode json = .ok j)
    (hu : t.tidyAt name j.height = true) :
    ∃ rd v, LastRule t name rd ∧ JsonIs j v ∧
      (validateJsonStr l name cddl json = .ok () ↔ Sat (l.env t) .root rd.node v) ∧
      ((∃ m, validateJsonStr l name cddl json = .err (.mismatch m)) ↔ ¬ Sat (l.env t) .root rd.node v) := by
  obtain ⟨rd, hr, _⟩ := RuleTable.tidyAt_rule hu
  obtain ⟨v, hv, hjv⟩ := json_ok j
  refine ⟨rd, v, hr, hjv, ?_⟩
  rw [C44_reuse_json l ht hr hj]
  unfold validateJson
  rw [hv]
  exact C55_exact l (C55_lower hu hjv.height) hp hb hr (Json.toValue_WF _ _ hv)

/-- C55.  The same for `validate_cbor_bytes`. -/
theorem C55_exact_cbor (l : Libs) {name cddl : String} {cbor : List UInt8} {t : RuleTable}
    (ht : flattenFromStr l cddl = .ok t) (hp : t.decisive name = true) (hb : t.undoable name = true) {c : Cbor}
    {v : Value} (hc : l.cborDecode cbor = .ok c) (hcv : CborIs c v) (hu : t.tidyAt name v.height = true) :
    ∃ rd, LastRule t name rd ∧
      (validateCborBytes l name cddl cbor = .ok () ↔ Sat (l.env t) .root rd.node v) ∧
      ((∃ m, validateCborBytes l name cddl cbor = .err (.mismatch m)) ↔ ¬ Sat (l.env t) .root rd.node v) := by
  obtain ⟨rd, hr, _⟩ := RuleTable.tidyAt_rule hu
  have hv := (cbor_ok c v).mpr hcv
  refine ⟨rd, hr, ?_⟩
  rw [C44_reuse_cbor l ht hr hc]
  unfold validateCbor
  rw [hv]
  exact C55_exact l hu hp hb hr (Cbor.toValue_WF _ _ hv)

/-! ## A concrete case -/

/-- Binary trees with a label and further data, and lists of them. -/
def c55Text : String := "forest = list<tree> tree = {v: int, ? l: tree, ? r: tree, * tstr => more} " ++
  "more = text / [* more] list<t> = null / [t, list<t>]"

/-- Its rules. -/
def c55Table : RuleTable := [
  ("forest", ⟨[], .rule "list" [.rule "tree" []]⟩),
  ("tree", ⟨[], .map [.keyValue (.literal (.text "v")) (.prelude .int) true,
    .occur .optional (.keyValue (.literal (.text "l")) (.rule "tree" []) true),
    .occur .optional (.keyValue (.literal (.text "r")) (.rule "tree" []) true),
    .occur .zeroOrMore (.keyValue (.prelude .tstr) (.rule "more" []) false)]⟩),
  ("more", ⟨[], .choice [.prelude .tstr, .array [.occur .zeroOrMore (.rule "more" [])]]⟩),
  ("list", ⟨["t"], .choice [.prelude .nil, .array [.rule "t" [], .rule "list" [.rule "t" []]]]⟩)]

/-- `[{"v": 1, "l": {"v": 2}, "note": x}, null]`. -/
def c55Json (x : Json) : Json :=
  .array [.object [("v", .number (.posInt 1)), ("l", .object [("v", .number (.posInt 2))]), ("note", x)], .null]

/-- `demoLibs` with two JSON texts. -/
def c55Libs : Libs :=
  { demoLibs with
    jsonDecode := fun s => if s = "[{\"v\": 1, \"l\": {\"v\": 2}, \"note\": [[\"a\"]]}, null]" then
        .ok (c55Json (.array [.array [.string "a"]]))
      else if s = "[{\"v\": 1, \"l\": {\"v\": 2}, \"note\": [[null]]}, null]" then
        .ok (c55Json (.array [.array [.null]]))
      else .error "bad json" }

theorem c55_flatten : flattenFromStr c55Libs c55Text = .ok c55Table := flattenFromStr_same (by decide +kernel)

/-- It passes the three tests for data of height up to 24, though it is recursive. -/
theorem c55_tests : c55Table.tidyAt "forest" 24 = true ∧ c55Table.tidyAt "forest" 25 = false ∧
    c55Table.tidy false false "forest" = false ∧ c55Table.decisive "forest" = true ∧
    c55Table.undoable "forest" = true := by decide +kernel

/-- One is accepted and the other is not, so one is described by the schema and the other is not. -/
example : ∃ rd v w, LastRule c55Table "forest" rd ∧ JsonIs (c55Json (.array [.array [.string "a"]])) v ∧
    JsonIs (c55Json (.array [.array [.null]])) w ∧
    Sat (c55Libs.env c55Table) .root rd.node v ∧ ¬ Sat (c55Libs.env c55Table) .root rd.node w := by
  obtain ⟨rd, v, hr, hj, h, _⟩ := C55_exact_json c55Libs c55_flatten c55_tests.2.2.2.1 c55_tests.2.2.2.2
    (json := "[{\"v\": 1, \"l\": {\"v\": 2}, \"note\": [[\"a\"]]}, null]")
    (j := c55Json (.array [.array [.string "a"]])) rfl (C55_lower c55_tests.1 (by decide))
  obtain ⟨rd', w, hr', hj', _, h'⟩ := C55_exact_json c55Libs c55_flatten c55_tests.2.2.2.1 c55_tests.2.2.2.2
    (json := "[{\"v\": 1, \"l\": {\"v\": 2}, \"note\": [[null]]}, null]")
    (j := c55Json (.array [.array [.null]])) rfl (C55_lower c55_tests.1 (by decide))
  have : rd' = rd := Option.some.inj ((find_last.mpr hr').symm.trans (find_last.mpr hr))
  subst this
  exact ⟨rd', v, w, hr, hj, hj', h.mp (validateJsonStr_of_fuel (k := 80) (by decide +kernel) (by simp)),
    h'.mp ⟨"choice of 2", validateJsonStr_of_fuel (k := 80) (by decide +kernel) (by simp)⟩⟩

/-- Recursion that is not through an array or map does not pass. -/
example : RuleTable.tidyAt [("a", ⟨[], .choice [.prelude .int, .rule "a" []]⟩)] "a" 0 = false ∧
    RuleTable.tidyAt [("a", ⟨[], .array [.rule "g" []]⟩), ("g", ⟨[], .group [.prelude .int, .rule "g" []]⟩)] "a" 0 =
      false := by decide +kernel

/-! ## The height is the best possible -/

/-- Arrays in arrays, and nothing else. -/
def c55Nest : Nat → Value
  | 0 => .array []
  | n + 1 => .array [c55Nest n]

theorem c55Nest_WF : ∀ n, (c55Nest n).WF
  | 0 => trivial
  | n + 1 => ⟨c55Nest_WF n, trivial⟩

/-- `t = [* t]`. -/
def c55Nests : RuleTable := [("t", ⟨[], .array [.occur .zeroOrMore (.rule "t" [])]⟩)]

/-- Data of height 50 is accepted. -/
example : c55Nests.tidyAt "t" 50 = true ∧ (c55Nest 49).height = 50 ∧
    doValidate (demoLibs.env c55Nests) (c55Nest 49) ⟨[], .array [.occur .zeroOrMore (.rule "t" [])]⟩ = .ok () :=
  ⟨by decide +kernel, by decide +kernel, validate_of_fuel 300 (by decide +kernel)⟩

/-- Data of one level more may reach the limit. -/
theorem C55_refuted : ¬ ∀ (l : Libs) (t : RuleTable) (name : String) (rd : RuleDef) (v : Value) (h : Nat),
    t.tidyAt name h = true → LastRule t name rd → v.WF → v.height = h + 1 →
    doValidate (l.env t) v rd = .ok () ∨ ∃ m, doValidate (l.env t) v rd = .err (.mismatch m) := by
  intro h
  have hv : doValidate (demoLibs.env c55Nests) (c55Nest 50) ⟨[], .array [.occur .zeroOrMore (.rule "t" [])]⟩ =
    .err (.structural "hit recursion limit") := validate_of_fuel 300 (by decide +kernel)
  have := h demoLibs c55Nests "t" _ (c55Nest 50) 50 (by decide +kernel) ⟨[], [], rfl, by simp⟩
    (c55Nest_WF 50) (by decide +kernel)
  rw [hv] at this
  rcases this with h | ⟨m, h⟩ <;> cases h

end Cddl
