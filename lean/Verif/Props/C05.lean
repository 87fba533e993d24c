import Verif.Spec.Demo
import Verif.Proofs.Order

/-! # C05  Literals accept exactly the equal value -/

namespace Cddl

/-- What a literal denotes: same kind and equal contents; floats by bit pattern. -/
def Denotes : Literal → Value → Prop
  | .bool b, v => v = .bool b
  | .int i, v => v = .integer i
  | .float f, v => ∃ g, v = .float g ∧ g.bits = f.bits
  | .text s, v => v = .text s
  | .bytes b, v => v = .bytes b

/-- C05.  A literal accepts exactly the value it denotes; everything else is a mismatch. -/
theorem C05_literal (env : Env) (c : Ctx) (l : Literal) (v : Value) :
    (Accepts env c (.literal l) v ↔ Denotes l v) ∧
    (¬ Denotes l v → ∃ m, validate env v (.literal l) c = .err (.mismatch m)) := by
  have hd : Denotes l v ↔ v = l.toValue := by
    cases l with
    | float f =>
      simp only [Denotes, Literal.toValue]
      constructor
      · rintro ⟨g, rfl, hg⟩
        cases g; cases f; simp_all
      · rintro rfl; exact ⟨f, rfl, rfl⟩
    | _ => rfl
  rw [hd]
  unfold Accepts validate
  rw [val_eq]
  simp only [valBody, validateLiteral]
  by_cases h : v = l.toValue
  · have : v.beq l.toValue = true := (Value.beq_iff _ _).mpr h
    simp only [this, if_true, true_iff]
    exact ⟨h, fun hn => absurd h hn⟩
  · have : v.beq l.toValue = false := by
      cases hb : v.beq l.toValue with
      | false => rfl
      | true => exact absurd ((Value.beq_iff _ _).mp hb) h
    simp [this, h]

/-- C05: a literal accepts at most one value. -/
theorem C05_unique (env : Env) (c : Ctx) (l : Literal) (v w : Value)
    (hv : Accepts env c (.literal l) v) (hw : Accepts env c (.literal l) w) : v = w := by
  rw [(C05_literal _ _ _ _).1] at hv hw
  cases l <;> simp_all [Denotes]
  obtain ⟨⟨g⟩, rfl, hg⟩ := hv
  obtain ⟨⟨h⟩, rfl, hh⟩ := hw
  simp_all

/-- `0.0` does not accept `-0.0`. -/
example : ¬ Accepts (demoEnv []) top (.literal (.float ⟨0⟩)) (.float ⟨0x8000000000000000⟩) := by
  rw [(C05_literal _ _ _ _).1]; simp [Denotes]
/-- `1` does not accept `1.0`. -/
example : ¬ Accepts (demoEnv []) top (.literal (.int 1)) (.float ⟨0x3FF0000000000000⟩) := by
  rw [(C05_literal _ _ _ _).1]; simp [Denotes]
example : Accepts (demoEnv []) top (.literal (.bytes [1, 2])) (.bytes [1, 2]) :=
  (C05_literal _ _ _ _).1.mpr rfl

end Cddl
