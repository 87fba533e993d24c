import Verif.Props.C01
import Verif.Props.C50
import Verif.Proofs.BareReturns
import Verif.Proofs.BareYields
import Verif.Proofs.Inline

/-! # C73  Built without the feature `ciborium`

The crate can be built without CBOR.  Only `.cbor` is then different: where a value is checked against it the validator
stops with an error that names the feature.  A schema that uses no `.cbor` gets the same answers, and one that does gets
the same answer or that error, unless `.cbor` stands in the key of a map: the search for a key drops the error, so the map
is turned down as not matching. -/

namespace Cddl

/-- No rule uses `.cbor`. -/
def RuleTable.NoCbor (t : RuleTable) : Prop := ∀ r ∈ t, r.2.node.noCbor true = true

/-- No key of a map uses `.cbor`, or a name. -/
def RuleTable.FreeKeys (t : RuleTable) : Prop := ∀ r ∈ t, r.2.node.freeKeys = true

/-- C73.  A schema without `.cbor` gets the same answer whether or not the feature is there. -/
theorem C73_same (l : Libs) {t : RuleTable} (ht : t.NoCbor) (v : Value) {rd : RuleDef} (hr : rd.node.noCbor true = true) :
    (∀ n, doValidateBareF (l.env t) n v rd = doValidateF (l.env t) n v rd) ∧
    ∃ N, ∀ n, N ≤ n → doValidateBareF (l.env t) n v rd = doValidate (l.env t) v rd := by
  have key : ∀ n, doValidateBareF (l.env t) n v rd = doValidateF (l.env t) n v rd := by
    intro n
    unfold doValidateBareF doValidateF
    split
    · rfl
    · refine (fns_bare (nm := true) (env := l.env t) (fun _ s rd h => ?_) n).val v hr fun _ => trivial
      exact ht _ (RuleTable.lookup_mem (t := t) h)
  obtain ⟨N, hN⟩ := (C01_validation_returns (l.env t) v rd).2
  exact ⟨key, N, fun n hn => (key n).trans (hN n hn)⟩

/-- C73.  Where a value is checked against `.cbor` the answer is the error, whatever the value and whatever stands behind
`.cbor`; it is not one of those that mean that the data does not match. -/
theorem C73_unsupported (env : Env) (k : Nat) (v : Value) (m : Node) (c : Ctx) :
    (fnsBare env (k + 1)).val v (.ctlCbor m) c =
      .err (.unsupported "'.cbor' control operator; enable ciborium feature to support.") ∧
    (Err.unsupported "'.cbor' control operator; enable ciborium feature to support.").isFatal = true := ⟨rfl, rfl⟩

/-- C73.  Without the feature nothing panics, whatever the schema. -/
theorem C73_no_panic (env : Env) (n : Nat) {v : Value} (hv : v.WF) (rd : RuleDef) : doValidateBareF env n v rd ≠ .panic := by
  unfold doValidateBareF
  split
  · simp
  · intro h
    have := (bare_good (env := env) n).val v rd.node (.root 0) hv
    rw [h] at this
    exact this

/-- C73.  Without the feature validation returns, whatever the schema and the data; a larger budget gives the same answer. -/
theorem C73_returns (l : Libs) (t : RuleTable) (v : Value) (rd : RuleDef) :
    ∃ r N, r ≠ .fuel ∧ (∀ n, N ≤ n → doValidateBareF (l.env t) n v rd = r) ∧
      ∀ n, doValidateBareF (l.env t) n v rd = .fuel ∨ doValidateBareF (l.env t) n v rd = r := by
  let N := 3 * (t.size + rd.node.size + 1) ^ 51
  have hN : ∀ n, N ≤ n → (fnsBare (l.env t) n).val v rd.node (.root 0) ≠ .fuel := fun n hn =>
    returns_within_of (q := .val v rd.node (.root 0)) (fnsBare_budget _)
      (fun s d h => Nat.le_trans (RuleTable.within l t s d h) (Nat.le_add_right _ _)) rfl (Nat.le_add_left _ _) hn
  have hm : ∀ n m, n ≤ m → Res.Le (doValidateBareF (l.env t) n v rd) (doValidateBareF (l.env t) m v rd) := fun n m h => by
    unfold doValidateBareF
    split
    · exact .rfl
    · exact (fnsBare_mono _ h).val _ _ _
  have hf : ∀ n, N ≤ n → doValidateBareF (l.env t) n v rd ≠ .fuel := fun n hn => by
    unfold doValidateBareF
    split
    · exact fun h => (nomatch h)
    · exact hN n hn
  refine ⟨doValidateBareF (l.env t) N v rd, N, hf N (Nat.le_refl _), fun n hn => ?_, fun n => ?_⟩
  · rcases hm N n hn with h | h
    · exact absurd h (hf N (Nat.le_refl _))
    · exact h.symm
  · rcases Nat.le_total n N with hn | hn
    · exact hm n N hn
    · rcases hm N n hn with h | h
      · exact absurd h (hf N (Nat.le_refl _))
      · exact .inr h.symm

/-- C73.  If no key of a map uses `.cbor` (or a name), with the same budget the answer is the same, or it is the error that
names the feature. -/
theorem C73_budget (l : Libs) {t : RuleTable} (ht : t.FreeKeys) {v : Value} (hv : v.WF) {rd : RuleDef}
    (hr : rd.node.freeKeys = true) (n : Nat) :
    doValidateBareF (l.env t) n v rd = .err (.unsupported "'.cbor' control operator; enable ciborium feature to support.") ∨
    doValidateBareF (l.env t) n v rd = doValidateF (l.env t) n v rd := by
  have hp := C73_no_panic (l.env t) n hv rd
  unfold doValidateBareF doValidateF at *
  split
  · exact .inr rfl
  · rename_i hpar
    rw [if_neg hpar] at hp
    rcases (fns_yields (env := l.env t) (fun s rd h => ht _ (RuleTable.lookup_mem (t := t) h)) n).val v hr (c := .root 0)
      trivial with h | h
    · generalize (fnsBare (l.env t) n).val v rd.node (.root 0) = x at h hp
      cases h with
      | err => exact .inl rfl
      | panic => exact absurd rfl hp
    · exact .inr h

/-- C73.  So without the feature validation returns too, with the same answer or with the error that names the feature. -/
theorem C73_yields (l : Libs) {t : RuleTable} (ht : t.FreeKeys) {v : Value} (hv : v.WF) {rd : RuleDef}
    (hr : rd.node.freeKeys = true) : ∃ N, ∀ n, N ≤ n →
    doValidateBareF (l.env t) n v rd = .err (.unsupported "'.cbor' control operator; enable ciborium feature to support.") ∨
    doValidateBareF (l.env t) n v rd = doValidate (l.env t) v rd := by
  obtain ⟨N, hN⟩ := (C01_validation_returns (l.env t) v rd).2
  refine ⟨N, fun n hn => ?_⟩
  rw [← hN n hn]
  exact C73_budget l ht hv hr n

/-- C73.  What is accepted without the feature is accepted with it, and what is turned down without it, other than for the
missing feature, is turned down with it, with the same error. -/
theorem C73_agrees (l : Libs) {t : RuleTable} (ht : t.FreeKeys) {v : Value} (hv : v.WF) {rd : RuleDef}
    (hr : rd.node.freeKeys = true) {n : Nat} {r : Res Unit} (h : doValidateBareF (l.env t) n v rd = r) (hf : r ≠ .fuel)
    (hu : r ≠ .err (.unsupported "'.cbor' control operator; enable ciborium feature to support.")) :
    doValidate (l.env t) v rd = r := by
  rcases C73_budget l ht hv hr n with h1 | h1
  · exact absurd (h.symm.trans h1) hu
  · rw [h] at h1
    unfold doValidate
    unfold doValidateF at h1
    split at h1
    · rename_i hp
      rw [if_pos hp]
      exact h1.symm
    · rename_i hp
      rw [if_neg hp]
      exact lim_val_of_fns h1.symm hf

/-- An environment in which every byte string holds the CBOR number 3. -/
def bareDemo (t : RuleTable) : Env := ⟨t.lookup, fun _ _ => false, fun _ => .ok (.integer 3), fun _ => "f"⟩

/-- `{* (bytes .cbor int) => any}` -/
def bareKey : Node := .map [.occur .zeroOrMore (.keyValue (.ctlCbor (.prelude .int)) (.prelude .any) false)]

/-- C73.  With `.cbor` in a key it is otherwise: `{* (bytes .cbor int) => any}` accepts `{h'03': null}` with the feature,
and without it turns the same map down as not matching; nothing says that the feature is missing. -/
theorem C73_key_refuted :
    doValidate (bareDemo []) (.map [(.bytes [3], .null)]) ⟨[], bareKey⟩ = .ok () ∧
    ∀ n, 10 ≤ n → ∃ m, doValidateBareF (bareDemo []) n (.map [(.bytes [3], .null)]) ⟨[], bareKey⟩ = .err (.mismatch m) := by
  refine ⟨doValidate_of_fuel (k := 10) (by decide +kernel) (by decide), fun n hn => ?_⟩
  obtain ⟨k, rfl⟩ : ∃ k, n = k + 10 := ⟨n - 10, by omega⟩
  exact ⟨_, rfl⟩

/-- `[int, bytes .cbor int]` and `[int, (bytes .cbor int) / text]`: the numbers are checked before the error is met. -/
example : ∀ n, 10 ≤ n →
    doValidateBareF (bareDemo []) n (.array [.text "a", .bytes [3]]) ⟨[], .array [.prelude .int, .ctlCbor (.prelude .int)]⟩ =
      .err (.mismatch "int") ∧
    doValidateBareF (bareDemo []) n (.array [.integer 1, .text "a"])
      ⟨[], .array [.prelude .int, .choice [.ctlCbor (.prelude .int), .prelude .tstr]]⟩ =
      .err (.unsupported "'.cbor' control operator; enable ciborium feature to support.") ∧
    doValidateBareF (bareDemo []) n (.array [.integer 1, .text "a"])
      ⟨[], .array [.prelude .int, .choice [.prelude .tstr, .ctlCbor (.prelude .int)]]⟩ = .ok () := by
  intro n hn
  obtain ⟨k, rfl⟩ : ∃ k, n = k + 10 := ⟨n - 10, by omega⟩
  exact ⟨rfl, rfl, rfl⟩

/-- The conditions hold of `t = [* bytes .cbor u]`, `u = {* text => int}`; the first also of `u` alone. -/
example : RuleTable.FreeKeys [("t", ⟨[], .array [.occur .zeroOrMore (.ctlCbor (.rule "u" []))]⟩),
      ("u", ⟨[], .map [.occur .zeroOrMore (.keyValue (.prelude .tstr) (.prelude .int) false)]⟩)] ∧
    RuleTable.NoCbor [("u", ⟨[], .map [.occur .zeroOrMore (.keyValue (.prelude .tstr) (.prelude .int) false)]⟩)] := by
  unfold RuleTable.FreeKeys RuleTable.NoCbor
  decide

end Cddl
