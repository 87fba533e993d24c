import Verif.Props.C09
import Verif.Proofs.Bytes

/-! # C11  `.size` on text and byte strings -/

namespace Cddl

/-- The lengths a size argument allows: a number, a closed range or a half-open range. -/
inductive SizeArg
  | exactly (n : Nat)
  | closed (a b : Nat)
  | halfOpen (a b : Nat)

/-- The lengths allowed by a size argument. -/
def SizeArg.Allows : SizeArg → Nat → Prop
  | .exactly n, k => k = n
  | .closed a b, k => a ≤ k ∧ k ≤ b
  | .halfOpen a b, k => a ≤ k ∧ k < b

/-- How the argument is written in a schema. -/
def SizeArg.node : SizeArg → Node
  | .exactly n => .literal (.int n)
  | .closed a b => .range (.literal (.int a)) (.literal (.int b)) true
  | .halfOpen a b => .range (.literal (.int a)) (.literal (.int b)) false

/-- Sizes are u64 in the code. -/
def SizeArg.Small : SizeArg → Prop
  | .exactly n => n < 2 ^ 64
  | .closed a b => a < 2 ^ 64 ∧ b < 2 ^ 64
  | .halfOpen a b => a < 2 ^ 64 ∧ b < 2 ^ 64

theorem sizeArg_normal (env : Env) (z : SizeArg) (h : z.Small) (kind : String) :
    ∃ sz a b, normalizeSizeRange env z.node = .ok sz ∧ sizeEndpoints kind sz = .ok (a, b) ∧
      ∀ k, z.Allows k ↔ a ≤ k ∧ if sz.2.2 then k ≤ b else k < b := by
  cases z with
  | exactly n =>
    refine ⟨(.literal (.int n), .literal (.int n), true), n, n, ?_, ?_, ?_⟩
    · simp [SizeArg.node, normalizeSizeRange, toU64_nat h]
    · simp [sizeEndpoints, toU64_nat h]
    · intro k; simp [SizeArg.Allows]; omega
  | closed a b =>
    refine ⟨(.literal (.int a), .literal (.int b), true), a, b, ?_, ?_, ?_⟩
    · simp [SizeArg.node, normalizeSizeRange, toU64_nat h.1, toU64_nat h.2]
    · simp [sizeEndpoints, toU64_nat h.1, toU64_nat h.2]
    · intro k; simp [SizeArg.Allows]
  | halfOpen a b =>
    refine ⟨(.literal (.int a), .literal (.int b), false), a, b, ?_, ?_, ?_⟩
    · simp [SizeArg.node, normalizeSizeRange, toU64_nat h.1, toU64_nat h.2]
    · simp [sizeEndpoints, toU64_nat h.1, toU64_nat h.2]
    · intro k; simp [SizeArg.Allows]

/-- C11 for text: exactly the texts whose UTF-8 encoding has an allowed number of bytes. -/
theorem C11_size_tstr (env : Env) (c : Ctx) (t a : Node) (z : SizeArg) (v : Value)
    (ht : Names env c t (.prelude .tstr)) (ha : Names env c a z.node) (hz : z.Small) :
    (Accepts env c (.ctl .size t a) v ↔ ∃ s, v = .text s ∧ z.Allows s.toUTF8.size) ∧
    (Accepts env c (.ctl .size t a) v ∨
      ∃ m, validate env v (.ctl .size t a) c = .err (.mismatch m)) := by
  obtain ⟨sz, lo, hi, h1, h2, h3⟩ := sizeArg_normal env z hz "tstr"
  unfold Accepts validate
  rw [val_eq]
  simp only [valBody, validateControl, validateControlSize, ht.chase, ha.chase, Res.bind, h1,
    validateSizeTstr, h2, h3]
  by_cases hlt : lo > hi ∨ lo = hi ∧ sz.2.2 = false
  · simp only [hlt, if_true]
    cases v <;> simp
    intro h
    cases hi' : sz.2.2 <;> simp [hi'] at hlt ⊢ <;> omega
  · simp only [hlt, if_false]
    cases v <;> simp
    rename_i s
    by_cases hl : s.utf8ByteSize < lo
    · simp [hl]; omega
    · simp only [hl, if_false]
      cases hi' : sz.2.2 <;> simp <;> split <;> simp_all <;> omega

/-- C11 for byte strings. -/
theorem C11_size_bstr (env : Env) (c : Ctx) (t a : Node) (z : SizeArg) (v : Value)
    (ht : Names env c t (.prelude .bstr)) (ha : Names env c a z.node) (hz : z.Small) :
    (Accepts env c (.ctl .size t a) v ↔ ∃ s, v = .bytes s ∧ z.Allows s.length) ∧
    (Accepts env c (.ctl .size t a) v ∨
      ∃ m, validate env v (.ctl .size t a) c = .err (.mismatch m)) := by
  obtain ⟨sz, lo, hi, h1, h2, h3⟩ := sizeArg_normal env z hz "bstr"
  unfold Accepts validate
  rw [val_eq]
  simp only [valBody, validateControl, validateControlSize, ht.chase, ha.chase, Res.bind, h1,
    validateSizeBstr, h2, h3]
  by_cases hlt : lo > hi ∨ lo = hi ∧ sz.2.2 = false
  · simp only [hlt, if_true]
    cases v <;> simp
    intro h
    cases hi' : sz.2.2 <;> simp [hi'] at hlt ⊢ <;> omega
  · simp only [hlt, if_false]
    cases v <;> simp
    rename_i s
    by_cases hl : s.length < lo
    · simp [hl]; omega
    · simp only [hl, if_false]
      cases hi' : sz.2.2 <;> simp <;> split <;> simp_all <;> omega

/-- "é" has one character and two UTF-8 bytes. -/
example : Accepts (demoEnv []) top (.ctl .size (.prelude .tstr) (.literal (.int 2))) (.text "é") :=
  accepts_of_fuel 60 (by decide)
example : ¬ Accepts (demoEnv []) top (.ctl .size (.prelude .bstr) (SizeArg.halfOpen 1 3).node)
    (.bytes [1, 2, 3]) := by
  rw [(C11_size_bstr _ _ _ _ (.halfOpen 1 3) _ (.here _ _ (by simp)) (.here _ _ (by simp [SizeArg.node]))
    (by simp [SizeArg.Small])).1]
  simp [SizeArg.Allows]

end Cddl
