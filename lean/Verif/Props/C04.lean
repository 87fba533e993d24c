import Verif.Spec.Demo

/-! # C04  Prelude types accept exactly their data -/

namespace Cddl

/-- The data each prelude type stands for (RFC 8610, appendix D), on decoded values. -/
def InPrelude : PreludeType → Value → Prop
  | .any, _ => True
  | .nil, v => v = .null
  | .bool, v => ∃ b, v = .bool b
  | .int, v => ∃ i, v = .integer i
  | .uint, v => ∃ i, v = .integer i ∧ 0 ≤ i
  | .nint, v => ∃ i, v = .integer i ∧ i < 0
  | .float, v => ∃ f, v = .float f
  | .tstr, v => ∃ s, v = .text s
  | .bstr, v => ∃ b, v = .bytes b

/-- C04.  A prelude type accepts exactly its data and answers everything else with a mismatch. -/
theorem C04_prelude (env : Env) (c : Ctx) (p : PreludeType) (v : Value) :
    (Accepts env c (.prelude p) v ↔ InPrelude p v) ∧
    (¬ InPrelude p v → ∃ m, validate env v (.prelude p) c = .err (.mismatch m)) := by
  unfold Accepts validate
  rw [val_eq]
  cases p <;> cases v <;> simp [valBody, validatePreludeType, InPrelude] <;>
    (rename_i x; by_cases h : x < 0
     · have h' : ¬ 0 ≤ x := by omega
       simp [h, h']
     · have h' : 0 ≤ x := by omega
       simp [h, h'])

/-- C04, on integers: exactly one of `uint` and `nint` accepts. -/
theorem C04_uint_xor_nint (env : Env) (c : Ctx) (i : Int) :
    Accepts env c (.prelude .uint) (.integer i) ↔ ¬ Accepts env c (.prelude .nint) (.integer i) := by
  rw [(C04_prelude env c .uint _).1, (C04_prelude env c .nint _).1]
  simp [InPrelude]

/-- C04: the type of a value is unique, apart from `any` and the two halves of `int`. -/
theorem C04_disjoint (env : Env) (c : Ctx) (p q : PreludeType) (v : Value)
    (hp : Accepts env c (.prelude p) v) (hq : Accepts env c (.prelude q) v)
    (h1 : p ≠ .any) (h2 : q ≠ .any) (h3 : p ≠ .int) (h4 : q ≠ .int) : p = q := by
  rw [(C04_prelude env c _ _).1] at hp hq
  cases p <;> cases q <;> cases v <;> simp_all [InPrelude] <;> omega

example : Accepts (demoEnv []) top (.prelude .uint) (.integer 18446744073709551615) :=
  (C04_prelude _ _ _ _).1.mpr ⟨_, rfl, by decide⟩
example : ¬ Accepts (demoEnv []) top (.prelude .int) (.float ⟨0x3FF0000000000000⟩) := by
  rw [(C04_prelude _ _ _ _).1]; simp [InPrelude]

end Cddl
