import Verif.Proofs.Loops
import Verif.Spec.Convert

/-! # C32  The `.cbor` control operator -/

namespace Cddl

theorem ctlCbor_eq (env : Env) (c : Ctx) (t : Node) (v : Value) :
    validate env v (.ctlCbor t) c = validateControlCbor env (lim env) t v c := by
  unfold validate
  rw [val_eq]
  rfl

/-- C32.  `.cbor t` accepts exactly the byte strings that decode to a data item whose value is accepted
by `t` (decoding itself, `ciborium`, is a parameter of the model). -/
theorem C32_accepts (env : Env) (c : Ctx) (t : Node) (v : Value) :
    Accepts env c (.ctlCbor t) v ↔
      ∃ bytes item inner, v = .bytes bytes ∧ env.cborDecode bytes = .ok item ∧ item.toValue = .ok inner ∧
        Accepts env c t inner := by
  unfold Accepts
  rw [ctlCbor_eq]
  cases v with
  | bytes b =>
    simp only [validateControlCbor]
    cases hd : env.cborDecode b with
    | error e => simp [hd]
    | ok item =>
      dsimp only
      cases hi : item.toValue with
      | error e => simp [Res.ofExcept, Res.bind, hd, hi]
      | ok inner => simp [Res.ofExcept, Res.bind, hd, hi, validate]
  | _ => simp [validateControlCbor]

/-- C32.  Bytes that cannot be decoded are a fatal `ValueError`, also inside a choice of any further types
and as the first element of an array. -/
theorem C32_undecodable (env : Env) (c : Ctx) (t : Node) (bytes : List UInt8) (msg : String)
    (h : env.cborDecode bytes = .error msg) :
    validate env (.bytes bytes) (.ctlCbor t) c = .err (.valueError msg) ∧
    (∀ ns, validate env (.bytes bytes) (.choice (.ctlCbor t :: ns)) c = .err (.valueError msg)) ∧
    (∀ xs ns, validate env (.array (.bytes bytes :: xs)) (.array (.ctlCbor t :: ns)) c = .err (.valueError msg)) := by
  have h0 : validate env (.bytes bytes) (.ctlCbor t) c = .err (.valueError msg) := by
    rw [ctlCbor_eq]; simp [validateControlCbor, h]
  refine ⟨h0, fun ns => ?_, fun xs ns => ?_⟩
  · unfold validate
    rw [val_eq]
    simp only [valBody, validateChoice, choiceLoop]
    unfold validate at h0
    rw [h0]
    rfl
  · unfold validate at h0 ⊢
    rw [val_eq]
    simp only [valBody, validateArray, seqLoopS]
    rw [arr_eq]
    simp only [arrBody, validateArrayValue, WArr.new, h0, SRes.ofRes]

/-- C32.  Anything but a byte string is an ordinary mismatch. -/
theorem C32_not_bytes (env : Env) (c : Ctx) (t : Node) (v : Value) (h : ∀ b, v ≠ .bytes b) :
    validate env v (.ctlCbor t) c = .err (.mismatch "Bytes") := by
  rw [ctlCbor_eq]
  cases v with
  | bytes b => exact absurd rfl (h b)
  | _ => rfl

/-! Examples: an environment in which the byte 1 decodes to 1 and nothing else decodes. -/

/-- An environment with a decoder for one byte. -/
def cborEnv : Env :=
  { demoEnv [] with cborDecode := fun b => if b = [1] then .ok (.integer 1) else .error "bad" }

example : Accepts cborEnv top (.ctlCbor (.prelude .int)) (.bytes [1]) :=
  (C32_accepts _ _ _ _).mpr ⟨[1], .integer 1, .integer 1, rfl, rfl, rfl, accepts_of_fuel 60 (by decide)⟩

example : validate cborEnv (.bytes [2]) (.choice [.ctlCbor (.prelude .int), .prelude .bstr]) top =
    .err (.valueError "bad") := (C32_undecodable _ _ _ _ _ rfl).2.1 _

end Cddl
