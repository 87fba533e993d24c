import Verif.Model.Api
import Verif.Spec.Demo

/-! # The entry points, without a step budget -/

namespace Cddl

/-- `validate_cbor`, /repo/src/cbor.rs:124-131, without a step budget. -/
noncomputable def validateCbor (env : Env) (rd : RuleDef) (c : Cbor) : Res Unit :=
  (Res.ofExcept c.toValue).bind fun v => doValidate env v rd

/-- `validate_json`, /repo/src/json.rs:82-89, without a step budget. -/
noncomputable def validateJson (env : Env) (rd : RuleDef) (j : Json) : Res Unit :=
  (Res.ofExcept j.toValue).bind fun v => doValidate env v rd

/-- They are what the model computes with every large enough budget. -/
theorem validateCbor_fuel (env : Env) (rd : RuleDef) (c : Cbor) :
    validateCbor env rd c ≠ .fuel ∧ ∃ N, ∀ n, N ≤ n → validateCborF env n rd c = validateCbor env rd c := by
  unfold validateCbor validateCborF
  cases c.toValue with
  | error e => exact ⟨by simp, 0, fun _ _ => rfl⟩
  | ok v =>
    refine ⟨doValidate_returns env v rd, ?_⟩
    show ∃ N, ∀ n, N ≤ n → doValidateF env n v rd = doValidate env v rd
    unfold doValidate doValidateF
    split
    · exact ⟨0, fun _ _ => rfl⟩
    · exact (lim_ev env).val v rd.node (.root 0)

theorem validateJson_fuel (env : Env) (rd : RuleDef) (j : Json) :
    validateJson env rd j ≠ .fuel ∧ ∃ N, ∀ n, N ≤ n → validateJsonF env n rd j = validateJson env rd j := by
  unfold validateJson validateJsonF
  cases j.toValue with
  | error e => exact ⟨by simp, 0, fun _ _ => rfl⟩
  | ok v =>
    refine ⟨doValidate_returns env v rd, ?_⟩
    show ∃ N, ∀ n, N ≤ n → doValidateF env n v rd = doValidate env v rd
    unfold doValidate doValidateF
    split
    · exact ⟨0, fun _ _ => rfl⟩
    · exact (lim_ev env).val v rd.node (.root 0)

/-- `validate_cbor_bytes`, /repo/src/cbor.rs:134-152, without a step budget. -/
noncomputable def validateCborBytes (l : Libs) (name cddl : String) (cbor : List UInt8) : Res Unit :=
  (findRule l name cddl).bind fun p =>
    match l.cborDecode cbor with
    | .error msg => .err (.valueError msg)
    | .ok c => (Res.ofExcept c.toValue).bind fun v => doValidate (l.env p.1) v p.2

/-- `validate_json_str`, /repo/src/json.rs:92-110, without a step budget. -/
noncomputable def validateJsonStr (l : Libs) (name cddl json : String) : Res Unit :=
  (findRule l name cddl).bind fun p =>
    match l.jsonDecode json with
    | .error msg => .err (.valueError msg)
    | .ok j => (Res.ofExcept j.toValue).bind fun v => doValidate (l.env p.1) v p.2

/-- Any budget that gives an answer gives the answer. -/
theorem validateCborBytes_of_fuel {l : Libs} {k : Nat} {name cddl : String} {cbor : List UInt8} {r : Res Unit}
    (h : validateCborBytesF l k name cddl cbor = r) (hr : r ≠ .fuel) : validateCborBytes l name cddl cbor = r := by
  unfold validateCborBytesF at h
  unfold validateCborBytes
  cases hf : findRule l name cddl with
  | ok p =>
    rw [hf] at h
    simp only [Res.bind] at h ⊢
    cases hd : l.cborDecode cbor with
    | error m => rw [hd] at h; exact h
    | ok c =>
      rw [hd] at h; dsimp only at h ⊢
      cases hv : c.toValue with
      | error e => rw [hv] at h; simpa [Res.ofExcept] using h
      | ok v => rw [hv] at h; exact doValidate_of_fuel h hr
  | err e => rw [hf] at h; exact h
  | panic => rw [hf] at h; exact h
  | fuel => rw [hf] at h; exact h

theorem validateJsonStr_of_fuel {l : Libs} {k : Nat} {name cddl json : String} {r : Res Unit}
    (h : validateJsonStrF l k name cddl json = r) (hr : r ≠ .fuel) : validateJsonStr l name cddl json = r := by
  unfold validateJsonStrF at h
  unfold validateJsonStr
  cases hf : findRule l name cddl with
  | ok p =>
    rw [hf] at h
    simp only [Res.bind] at h ⊢
    cases hd : l.jsonDecode json with
    | error m => rw [hd] at h; exact h
    | ok c =>
      rw [hd] at h; dsimp only at h ⊢
      cases hv : c.toValue with
      | error e => rw [hv] at h; simpa [Res.ofExcept] using h
      | ok v => rw [hv] at h; exact doValidate_of_fuel h hr
  | err e => rw [hf] at h; exact h
  | panic => rw [hf] at h; exact h
  | fuel => rw [hf] at h; exact h

/-- The answer is the one some budget gives. -/
theorem validateCborBytes_eq_fuel (l : Libs) (name cddl : String) (cbor : List UInt8) :
    ∃ k, validateCborBytes l name cddl cbor = validateCborBytesF l k name cddl cbor := by
  unfold validateCborBytes validateCborBytesF
  cases hf : findRule l name cddl with
  | ok p =>
    simp only [Res.bind]
    cases hd : l.cborDecode cbor with
    | error m => exact ⟨0, rfl⟩
    | ok c =>
      dsimp only
      cases hv : c.toValue with
      | error e => exact ⟨0, rfl⟩
      | ok v => exact doValidate_eq_fuel _ v p.2
  | err e => exact ⟨0, rfl⟩
  | panic => exact ⟨0, rfl⟩
  | fuel => exact ⟨0, rfl⟩

theorem validateJsonStr_eq_fuel (l : Libs) (name cddl json : String) :
    ∃ k, validateJsonStr l name cddl json = validateJsonStrF l k name cddl json := by
  unfold validateJsonStr validateJsonStrF
  cases hf : findRule l name cddl with
  | ok p =>
    simp only [Res.bind]
    cases hd : l.jsonDecode json with
    | error m => exact ⟨0, rfl⟩
    | ok c =>
      dsimp only
      cases hv : c.toValue with
      | error e => exact ⟨0, rfl⟩
      | ok v => exact doValidate_eq_fuel _ v p.2
  | err e => exact ⟨0, rfl⟩
  | panic => exact ⟨0, rfl⟩
  | fuel => exact ⟨0, rfl⟩

end Cddl
