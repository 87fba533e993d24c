import Verif.Proofs.Endless
import Verif.Proofs.Same
import Verif.Props.C01
import Verif.Props.C02
import Verif.Props.C44
import Verif.Spec.Stages

/-! # C84  A rule that cannot do without itself accepts nothing -/

namespace Cddl

/-- C84.  Where each of some rules needs one of them again, nothing that needs one of them accepts any data, in any
scope: neither the recursion limit nor anything else makes the validator take the data on trust. -/
theorem C84_endless {S : String → Prop} {env : Env} {n : Node} {c : Ctx} (he : Endless S env) (hn : n.Needs S)
    (hc : c.Clear S) (v : Value) : validate env v n c ≠ .ok () := by
  obtain ⟨N, hN⟩ := (lim_ev env).val v n c
  have := (fns_turns he N).val (v := v) hn hc
  have e := hN N (Nat.le_refl N)
  simp only at e
  rw [e] at this
  exact this

/-- C84.  The answer is an error. -/
theorem C84_error {S : String → Prop} {env : Env} {rd : RuleDef} (he : Endless S env) (hn : rd.node.Needs S) {v : Value}
    (hv : v.WF) : ∃ e, doValidate env v rd = .err e := by
  have h1 := (C01_validation_returns env v rd).1
  have h2 := C02_no_panic env v rd hv
  cases h : doValidate env v rd with
  | ok u =>
    unfold doValidate at h
    split at h
    · cases h
    · exact absurd h (C84_endless (c := .root 0) he hn trivial v)
  | err e => exact ⟨e, rfl⟩
  | panic => exact absurd h h2
  | fuel => exact absurd h h1

/-- C84.  For the rules of a table: `S` is a set of names, each defined (if at all) by something that needs one of
them. -/
theorem C84_rules {S : String → Prop} {l : Libs} {t : RuleTable}
    (again : ∀ s rd, S s → LastRule t s rd → rd.node.Needs S) (params : ∀ p ∈ t, ∀ a ∈ p.2.params, ¬ S a) {name : String}
    (hs : S name) {rd : RuleDef} (hr : LastRule t name rd) {v : Value} (hv : v.WF) :
    ∃ e, doValidate (l.env t) v rd = .err e := by
  have look : ∀ s rd, (l.env t).lookup s = .ok rd → t.find s = some rd := by
    intro s rd h
    simp only [Libs.env, RuleTable.lookup] at h
    cases hf : t.find s with
    | none => rw [hf] at h; cases h
    | some d' => rw [hf] at h; cases h; rfl
  have he : Endless S (l.env t) := ⟨fun s rd hs h => again s rd hs (find_last.mp (look s rd h)),
    fun s rd h => params _ (RuleTable.find_mem (look s rd h))⟩
  exact C84_error he (again name rd hs hr) hv

/-- C84.  For whole calls: no document, JSON or CBOR, is accepted. -/
theorem C84_calls {S : String → Prop} {l : Libs} {cddl : String} {t : RuleTable} (ht : flattenFromStr l cddl = .ok t)
    (again : ∀ s rd, S s → LastRule t s rd → rd.node.Needs S) (params : ∀ p ∈ t, ∀ a ∈ p.2.params, ¬ S a) {name : String}
    (hs : S name) (json : String) (cbor : List UInt8) :
    validateJsonStr l name cddl json ≠ .ok () ∧ validateCborBytes l name cddl cbor ≠ .ok () := by
  unfold validateJsonStr validateCborBytes findRule
  rw [ht]
  simp only [Res.bind]
  cases hf : t.find name with
  | none => simp
  | some rd =>
    simp only
    constructor
    · cases l.jsonDecode json with
      | error e => simp
      | ok j =>
        simp only
        cases hv : j.toValue with
        | error e => simp [Res.ofExcept]
        | ok v =>
          obtain ⟨e, h⟩ := C84_rules (l := l) again params hs (find_last.mp hf) (j.toValue_WF v hv)
          simp [Res.ofExcept, h]
    · cases l.cborDecode cbor with
      | error e => simp
      | ok j =>
        simp only
        cases hv : j.toValue with
        | error e => simp [Res.ofExcept]
        | ok v =>
          obtain ⟨e, h⟩ := C84_rules (l := l) again params hs (find_last.mp hf) (j.toValue_WF v hv)
          simp [Res.ofExcept, h]

/-- The rules of `node = {value: int, next: list}  list = [+ node] / node  head = [? node]`. -/
def endlessTable : RuleTable := [
  ("node", ⟨[], .map [.keyValue (.literal (.text "value")) (.prelude .int) true, .keyValue (.literal (.text "next")) (.rule "list" []) true]⟩),
  ("list", ⟨[], .choice [.array [.occur .oneOrMore (.rule "node" [])], .rule "node" []]⟩),
  ("head", ⟨[], .array [.occur .optional (.rule "node" [])]⟩)]

/-- C84, an instance: a linked list without an end.  Nothing is a `node`, whereas `head`, which can do without one,
accepts the empty array. -/
theorem C84_example :
    flattenFromStr demoLibs "node = {value: int, next: list}  list = [+ node] / node  head = [? node]" = .ok endlessTable ∧
    (∀ json cbor,
      validateJsonStr demoLibs "node" "node = {value: int, next: list}  list = [+ node] / node  head = [? node]" json ≠ .ok () ∧
      validateCborBytes demoLibs "node" "node = {value: int, next: list}  list = [+ node] / node  head = [? node]" cbor ≠ .ok ()) ∧
    Accepts (demoLibs.env endlessTable) top (.rule "head" []) (.array []) := by
  have ht : flattenFromStr demoLibs "node = {value: int, next: list}  list = [+ node] / node  head = [? node]" = .ok endlessTable :=
    flattenFromStr_same (by decide +kernel)
  refine ⟨ht, fun json cbor => C84_calls (S := fun s => s = "node" ∨ s = "list") ht ?_ ?_ (.inl rfl) json cbor,
    accepts_of_fuel 30 (by decide +kernel)⟩
  · intro s rd hs hr
    have hf := find_last.mpr hr
    rcases hs with rfl | rfl
    · have e : endlessTable.find "node" = some ⟨[], .map [.keyValue (.literal (.text "value")) (.prelude .int) true,
        .keyValue (.literal (.text "next")) (.rule "list" []) true]⟩ := rfl
      rw [e] at hf
      cases hf
      simp [Node.Needs, Node.NeedsSome]
    · have e : endlessTable.find "list" = some ⟨[], .choice [.array [.occur .oneOrMore (.rule "node" [])], .rule "node" []]⟩ := rfl
      rw [e] at hf
      cases hf
      simp [Node.Needs, Node.NeedsSome, Node.NeedsAll]
  · simp [endlessTable]

end Cddl
