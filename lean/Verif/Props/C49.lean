import Verif.Props.C15Text
import Verif.Props.C02
import Verif.Props.C03
import Verif.Proofs.PredictMain
import Verif.Proofs.Predictive

/-! # C49  Where the next element or key decides, the verdict is the meaning of the schema

The converse of C15 and C16.  Matching takes what it can and does not go back, so data described by a schema may be
turned down (`C49_refuted`).  It is not if the next element of an array, and the keys of a map, always tell which
entry describes them; this is decided by a test that reads only the rules (`RuleTable.predictive`,
Spec/Predictive.lean). -/

namespace Cddl

/-- C49.  Data described by a type in which the next element or key always decides, and the keys of maps use no names, is
accepted, unless the answer is an error of the schema or of the recursion limit. -/
theorem C49_complete (env : Env) (J : Forecast) (hJ : J.Agrees env)
    (hl : ∀ s e, env.lookup s = .error e → e.isFatal = true) (hk : ∀ s d, env.lookup s = .ok d → d.node.plainKeyed = true)
    (n : Node) (v : Value) (hn : n.clear J = true) (hkn : n.plainKeyed = true) (hv : v.WF)
    (h : Sat env .root n v) : ∀ e, validate env v n top = .err e → e.isFatal = true :=
  Sat.complete hl hJ (plain_guard hk) h top rfl trivial hn hv ⟨hkn, trivial⟩ (Nat.le_refl _)

/-- C49 for a table that passes the test. -/
theorem C49_checked (l : Libs) {t : RuleTable} {name : String} {rd : RuleDef} {v : Value}
    (hu : t.predictive name = true) (hr : LastRule t name rd) (hp : rd.params = []) (hv : v.WF)
    (h : Sat (l.env t) .root rd.node v) :
    doValidate (l.env t) v rd = .ok () ∨ ∃ e, doValidate (l.env t) v rd = .err e ∧ e.isFatal = true := by
  have hn := RuleTable.decisive_clear (RuleTable.predictive_decisive hu) (find_last.mpr hr)
  have hk := RuleTable.predictive_plain hu (env := l.env t) rfl
  have hkn : rd.node.plainKeyed = true := hk name rd (by
    show t.lookup name = .ok rd
    unfold RuleTable.lookup
    rw [find_last.mpr hr])
  have hc := C49_complete _ _ (RuleTable.decisive_agrees (RuleTable.predictive_decisive hu) rfl) (env_fatal l t) hk _ _ hn hkn hv h
  have hd : doValidate (l.env t) v rd = validate (l.env t) v rd.node top := by
    unfold doValidate
    rw [hp]
    rfl
  cases hr : doValidate (l.env t) v rd with
  | ok => exact .inl rfl
  | err e => exact .inr ⟨e, rfl, hc e (hd ▸ hr)⟩
  | panic => exact absurd hr (C02_no_panic _ _ _ hv)
  | fuel => exact absurd hr (doValidate_returns _ _ _)

/-- C49.  For a table that passes this test and that of C15: the answer is yes and the data is described, or a mismatch
and it is not described, or an error of the schema or of the recursion limit. -/
theorem C49_exact (l : Libs) {t : RuleTable} {name : String} {rd : RuleDef} {v : Value}
    (hu : t.predictive name = true) (hb : t.undoable name = true) (hr : LastRule t name rd) (hp : rd.params = []) (hv : v.WF) :
    (doValidate (l.env t) v rd = .ok () ∧ Sat (l.env t) .root rd.node v) ∨
    (∃ m, doValidate (l.env t) v rd = .err (.mismatch m) ∧ ¬ Sat (l.env t) .root rd.node v) ∨
    ∃ e, doValidate (l.env t) v rd = .err e ∧ e.isFatal = true := by
  cases h : doValidate (l.env t) v rd with
  | ok => exact .inl ⟨rfl, (C15_checked_partial l hb hr hv h).2⟩
  | err e =>
    cases hf : e.isFatal with
    | true => exact .inr (.inr ⟨e, rfl, hf⟩)
    | false =>
      have hs : ¬ Sat (l.env t) .root rd.node v := by
        intro hs
        rcases C49_checked l hu hr hp hv hs with h' | ⟨e', h', hf'⟩
        · rw [h] at h'; cases h'
        · rw [h] at h'
          cases h'
          rw [hf] at hf'
          cases hf'
      cases e with
      | mismatch m => exact .inr (.inl ⟨m, rfl, hs⟩)
      | mapCut m => exact absurd h (C03_no_mapCut_table _ t rfl _ _ hv m)
      | _ => cases hf
  | panic => exact absurd h (C02_no_panic _ _ _ hv)
  | fuel => exact absurd h (doValidate_returns _ _ _)

/-- C49.  If `validate_json_str` reports a mismatch, and the rules of the schema pass the test, then the data is not
described by the rule. -/
theorem C49_json_str (l : Libs) {name cddl json : String} {t : RuleTable} (ht : flattenFromStr l cddl = .ok t)
    (hu : t.predictive name = true) {m : String} (h : validateJsonStr l name cddl json = .err (.mismatch m)) :
    ∃ rd j v, LastRule t name rd ∧ l.jsonDecode json = .ok j ∧ JsonIs j v ∧ ¬ Sat (l.env t) .root rd.node v := by
  generalize hr : (Res.err (.mismatch m) : Res Unit) = r at h
  cases (C44_json_str l name cddl json r).mp h with
  | notCddl hp =>
    unfold flattenFromStr at ht
    rw [hp] at ht
    cases ht
  | badSchema hp hf =>
    unfold flattenFromStr at ht
    rw [hp] at ht
    simp only [Res.bind, hf] at ht
    cases ht
  | noRule => cases hr
  | @data tree t' rd r hp hf hl hd =>
    have : t' = t := by
      unfold flattenFromStr at ht
      rw [hp] at ht
      simp only [Res.bind, hf] at ht
      exact Res.ok.inj ht
    subst this
    cases hd with
    | notJson => cases hr
    | @validated j v hd hj =>
      obtain ⟨w, hw, hjw⟩ := json_ok j
      cases jsonIs_unique hj hjw
      have hpar : rd.params = [] := by
        unfold doValidate at hr
        split at hr
        · cases hr
        · rename_i hne
          simpa using hne
      refine ⟨rd, j, v, hl, hd, hj, fun hs => ?_⟩
      rcases C49_checked l hu hl hpar (Json.toValue_WF _ _ hw) hs with h' | ⟨e', h', hf'⟩
      · rw [← hr] at h'; cases h'
      · rw [← hr] at h'
        cases h'
        cases hf'

/-- C49.  The same for `validate_cbor_bytes`. -/
theorem C49_cbor_bytes (l : Libs) {name cddl : String} {cbor : List UInt8} {t : RuleTable} (ht : flattenFromStr l cddl = .ok t)
    (hu : t.predictive name = true) {m : String} (h : validateCborBytes l name cddl cbor = .err (.mismatch m)) :
    ∃ rd c v, LastRule t name rd ∧ l.cborDecode cbor = .ok c ∧ CborIs c v ∧ ¬ Sat (l.env t) .root rd.node v := by
  generalize hr : (Res.err (.mismatch m) : Res Unit) = r at h
  cases (C44_cbor_bytes l name cddl cbor r).mp h with
  | notCddl hp =>
    unfold flattenFromStr at ht
    rw [hp] at ht
    cases ht
  | badSchema hp hf =>
    unfold flattenFromStr at ht
    rw [hp] at ht
    simp only [Res.bind, hf] at ht
    cases ht
  | noRule => cases hr
  | @data tree t' rd r hp hf hl hd =>
    have : t' = t := by
      unfold flattenFromStr at ht
      rw [hp] at ht
      simp only [Res.bind, hf] at ht
      exact Res.ok.inj ht
    subst this
    cases hd with
    | notCbor => cases hr
    | tagged => cases hr
    | @validated c v hd hj =>
      have hpar : rd.params = [] := by
        unfold doValidate at hr
        split at hr
        · cases hr
        · rename_i hne
          simpa using hne
      refine ⟨rd, c, v, hl, hd, hj, fun hs => ?_⟩
      rcases C49_checked l hu hl hpar (Cbor.toValue_WF _ _ ((cbor_ok c v).mpr hj)) hs with h' | ⟨e', h', hf'⟩
      · rw [← hr] at h'; cases h'
      · rw [← hr] at h'
        cases h'
        cases hf'

/-! ## A concrete case -/

/-- A schema with a recursive rule, a group, a choice of groups, generics, an unwrapped array and maps, in which a key
that is optional is kept from the entry for the other keys by its cut. -/
def c49Text : String :=
  "a = [* pair, ? tstr] pair = (int, b) b = bool / [+ a] / box<b> " ++
  "box<t> = {v: t, ? w: t, * tstr => any} u = [~a, (float, 2*3 int // bstr), ? null]"

/-- Its rules. -/
def c49Table : RuleTable := [
  ("a", ⟨[], .array [.occur .zeroOrMore (.rule "pair" []), .occur .optional (.prelude .tstr)]⟩),
  ("pair", ⟨[], .group [.prelude .int, .rule "b" []]⟩),
  ("b", ⟨[], .choice [.prelude .bool, .array [.occur .oneOrMore (.rule "a" [])], .rule "box" [.rule "b" []]]⟩),
  ("box", ⟨["t"], .map [.keyValue (.literal (.text "v")) (.rule "t" []) true,
    .occur .optional (.keyValue (.literal (.text "w")) (.rule "t" []) true),
    .occur .zeroOrMore (.keyValue (.prelude .tstr) (.prelude .any) false)]⟩),
  ("u", ⟨[], .array [.unwrap "a" [],
    .group [.choice [.group [.prelude .float, .occur (.numbered 2 3) (.prelude .int)], .group [.prelude .bstr]]],
    .occur .optional (.prelude .nil)]⟩)]

/-- `demoLibs` with a JSON text `[1, true, 2, {"v": 1}]` and its CBOR form. -/
def c49Libs : Libs :=
  { demoLibs with
    jsonDecode := fun s => if s = "[1, true, 2, {\"v\": 1}]" then
        .ok (.array [.number (.posInt 1), .bool true, .number (.posInt 2), .object [("v", .number (.posInt 1))]])
      else .error "bad json"
    cborDecode := fun b => if b = [0x84, 1, 0xf5, 2, 0xa1, 0x61, 0x76, 1] then
        .ok (.array [.integer 1, .bool true, .integer 2, .map [(.text "v", .integer 1)]])
      else .error "bad cbor" }

example : flattenFromStr c49Libs c49Text = .ok c49Table := flattenFromStr_same (by decide +kernel)

/-- It passes both tests. -/
example : c49Table.predictive "a" = true ∧ c49Table.predictive "b" = true ∧ c49Table.predictive "u" = true ∧
    c49Table.undoable "a" = true ∧ c49Table.undoable "b" = true ∧ c49Table.undoable "u" = true := by decide +kernel

/-- Expressions: a choice among types for a single element need not be decided by looking at it, so that `sum` and the
two forms of `shape`, all arrays, may stand beside each other. -/
def c49ExprTable : RuleTable := [
  ("e", ⟨[], .choice [.prelude .int, .rule "sum" [], .rule "shape" []]⟩),
  ("sum", ⟨[], .array [
    .keyValue (.literal (.text "op")) (.choice [.literal (.text "+"), .literal (.text "-")]) true,
    .keyValue (.literal (.text "args")) (.array [.occur .oneOrMore (.rule "e" [])]) true]⟩),
  ("shape", ⟨[], .choice [.array [.literal (.text "sq"), .rule "e" []], .array [.literal (.text "hex"), .rule "e" []]]⟩),
  ("x", ⟨[], .array [.occur .oneOrMore (.choice [.rule "e" [], .prelude .float]), .prelude .tstr]⟩)]

example : flattenFromStr c49Libs ("e = int / sum / shape sum = [op: \"+\" / \"-\", args: [+ e]] " ++
    "shape = [\"sq\", e] / [\"hex\", e] x = [+ (e / float), tstr]") = .ok c49ExprTable :=
  flattenFromStr_same (by decide +kernel)

example : c49ExprTable.predictive "e" = true ∧ c49ExprTable.predictive "x" = true ∧
    c49ExprTable.undoable "e" = true ∧ c49ExprTable.undoable "x" = true := by decide +kernel

/-- In a choice of groups it is the next element that must decide. -/
example : RuleTable.predictive [("x", ⟨[], .array [.choice [.group [.prelude .int], .group [.prelude .int, .prelude .int]]]⟩)] "x" =
    false := by decide +kernel

/-- `1, true` is a pair, `2, {"v": 1}` is not. -/
example :
    validateJsonStr c49Libs "a" c49Text "[1, true, 2, {\"v\": 1}]" = .err (.mismatch "shorter array") ∧
    validateCborBytes c49Libs "a" c49Text [0x84, 1, 0xf5, 2, 0xa1, 0x61, 0x76, 1] = .err (.mismatch "shorter array") :=
  ⟨validateJsonStr_of_fuel (k := 80) (by decide +kernel) (by simp),
    validateCborBytes_of_fuel (k := 80) (by decide +kernel) (by simp)⟩

/-- Without the cut the key `w` may be described by either entry; whichever takes it, the other can do without. -/
example : RuleTable.predictive [("x", ⟨[], .map [
    .occur .optional (.keyValue (.literal (.text "w")) (.prelude .int) false),
    .occur .zeroOrMore (.keyValue (.prelude .tstr) (.prelude .any) false)]⟩)] "x" = true := by decide +kernel

/-- But not here, and the rules do not pass the test: the first entry takes the pair that the second needs. -/
example : RuleTable.predictive [("x", ⟨[], .map [
    .occur .optional (.keyValue (.literal (.text "w")) (.prelude .int) false),
    .keyValue (.prelude .tstr) (.prelude .any) false]⟩)] "x" = false := by decide +kernel

/-- Names in keys do not pass: near the recursion limit looking them up is an error, which is passed over, and the key
is missed.  See C54 for schemas that do not reach the limit. -/
example : RuleTable.predictive [("x", ⟨[], .map [.keyValue (.rule "k" []) (.prelude .any) false]⟩), ("k", ⟨[], .prelude .tstr⟩)] "x" =
      false ∧
    RuleTable.decisive [("x", ⟨[], .map [.keyValue (.rule "k" []) (.prelude .any) false]⟩), ("k", ⟨[], .prelude .tstr⟩)] "x" =
      true := by decide +kernel

/-! ## Without the test the statement is false -/

/-- A repetition that takes all, followed by the same again; its rules do not pass the test. -/
def c49BadTable : RuleTable := [("x", ⟨[], .array [.occur .zeroOrMore (.prelude .int), .prelude .int]⟩)]

example : c49BadTable.predictive "x" = false := by decide +kernel

/-- `validate_json_str("x", "x = [* int, int]", "[1, 2]")` reports a mismatch although the data is described by the
schema. -/
theorem C49_refuted : ¬ ∀ (l : Libs) (name cddl json m : String) (t : RuleTable), flattenFromStr l cddl = .ok t →
    validateJsonStr l name cddl json = .err (.mismatch m) →
    ∃ rd j v, LastRule t name rd ∧ l.jsonDecode json = .ok j ∧ JsonIs j v ∧ ¬ Sat (l.env t) .root rd.node v := by
  intro h
  obtain ⟨rd, j, v, h1, h2, h3, h4⟩ := h c15BadLibs "x" "x = [* int, int]" "[1, 2]" "array element Int" c49BadTable
    (flattenFromStr_same (by decide +kernel)) (validateJsonStr_of_fuel (k := 60) (by decide +kernel) (by simp))
  have h2 : j = .array [.number (.posInt 1), .number (.posInt 2)] := by
    have : c15BadLibs.jsonDecode "[1, 2]" = .ok (.array [.number (.posInt 1), .number (.posInt 2)]) := rfl
    rw [this] at h2
    exact (Except.ok.inj h2).symm
  subst h2
  cases jsonIs_unique h3 (.array (.cons (.nat 1) (.cons (.nat 2) .nil)))
  have hr := find_last.mpr h1
  cases hr
  have one : ∀ i, Item (c15BadLibs.env c49BadTable) .root (.prelude .int) [.integer i] := fun i =>
    .value rfl (.prelude _ ⟨i, rfl⟩)
  exact h4 (.array (.cons (xs := [.integer 1]) (.occur (.zeroOrMore (by decide)) (.succ (one 1) (.zero _ _)))
    (.cons (one 2) (.nil _))))

end Cddl
