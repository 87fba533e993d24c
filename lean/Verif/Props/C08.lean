import Verif.Spec.Demo
import Verif.Proofs.Float

/-! # C08  Integer and float ranges -/

namespace Cddl

/-- A range endpoint: a literal, or a name that resolves to one through rule references. -/
inductive Endpoint (env : Env) : Ctx → Node → Literal → Prop
  | literal (c : Ctx) (l : Literal) : Endpoint env c (.literal l) l
  | rule {c c' : Ctx} {name : String} {args : List Node} {n : Node} {l : Literal} :
      c.lookupRule env name args = .ok (n, c') → Endpoint env c' n l →
      Endpoint env c (.rule name args) l

theorem Endpoint.deref {env : Env} {c : Ctx} {n : Node} {l : Literal} (h : Endpoint env c n l) :
    (lim env).deref n c = .ok l := by
  induction h with
  | literal c l => rw [deref_eq]; rfl
  | rule h1 _ ih => rw [deref_eq]; simp only [derefBody, h1, Res.ofExcept, Res.bind]; exact ih

/-- The integers `a..b` (inclusive) or `a...b` (exclusive). -/
def InIntRange (a b : Int) (inclusive : Bool) (x : Int) : Prop :=
  a ≤ x ∧ if inclusive then x ≤ b else x < b

/-- The floats `a..b` or `a...b`, compared as the numbers they denote; NaN is in no range. -/
def InFloatRange (a b : F64) (inclusive : Bool) (x : F64) : Prop :=
  x.nan = false ∧ b.nan = false ∧ a.num ≤ x.num ∧
    if inclusive then x.num ≤ b.num else x.num < b.num

/-- C08 for integers: the range accepts exactly the integers inside, everything else mismatches. -/
theorem C08_int_range (env : Env) (c : Ctx) (s e : Node) (a b : Int) (inclusive : Bool) (v : Value)
    (hs : Endpoint env c s (.int a)) (he : Endpoint env c e (.int b)) :
    (Accepts env c (.range s e inclusive) v ↔
      ∃ x, v = .integer x ∧ InIntRange a b inclusive x) ∧
    (Accepts env c (.range s e inclusive) v ∨
      ∃ m, validate env v (.range s e inclusive) c = .err (.mismatch m)) := by
  unfold Accepts validate
  rw [val_eq]
  simp only [valBody, validateRange, hs.deref, he.deref, Res.bind]
  cases v <;> simp [rangeMatch, sameKind]
  rename_i x
  unfold checkRangeInt InIntRange
  cases inclusive <;> simp <;> split <;> simp_all <;> split <;> simp_all <;> omega

/-- C08 for floats; the lower endpoint is a number (a NaN cannot be written in CDDL text). -/
theorem C08_float_range (env : Env) (c : Ctx) (s e : Node) (a b : F64) (inclusive : Bool) (v : Value)
    (hs : Endpoint env c s (.float a)) (he : Endpoint env c e (.float b)) (ha : a.nan = false) :
    (Accepts env c (.range s e inclusive) v ↔
      ∃ x, v = .float x ∧ InFloatRange a b inclusive x) ∧
    (Accepts env c (.range s e inclusive) v ∨
      ∃ m, validate env v (.range s e inclusive) c = .err (.mismatch m)) := by
  unfold Accepts validate
  rw [val_eq]
  simp only [valBody, validateRange, hs.deref, he.deref, Res.bind]
  cases v <;> simp [rangeMatch, sameKind]
  rename_i x
  unfold checkRangeFloat InFloatRange F64.lt F64.le
  simp only [F64.isNaN_eq]
  have h1 := F64.num_lt x a
  have h2 := F64.num_lt x b
  have h3 := F64.num_lt b x
  cases hx : x.nan <;> cases hb : b.nan <;> cases inclusive <;> simp [ha] <;>
    split <;> simp_all <;> (try split) <;> (try simp_all) <;> omega

/-- C08: a lower bound above the upper bound accepts nothing. -/
theorem C08_empty (env : Env) (c : Ctx) (s e : Node) (a b : Int) (inclusive : Bool) (v : Value)
    (hs : Endpoint env c s (.int a)) (he : Endpoint env c e (.int b)) (h : b < a) :
    ¬ Accepts env c (.range s e inclusive) v := by
  rw [(C08_int_range env c s e a b inclusive v hs he).1]
  rintro ⟨x, _, h1, h2⟩
  cases inclusive <;> simp at h2 <;> omega

/-- The kind of a literal. -/
def Literal.kind : Literal → Nat
  | .bool _ => 0 | .int _ => 1 | .float _ => 2 | .text _ => 3 | .bytes _ => 4

/-- C08: endpoints of different kinds are a schema error for every value. -/
theorem C08_mixed (env : Env) (c : Ctx) (s e : Node) (a b : Literal) (inclusive : Bool) (v : Value)
    (hs : Endpoint env c s a) (he : Endpoint env c e b) (h : a.kind ≠ b.kind) :
    ∃ m, validate env v (.range s e inclusive) c = .err (.structural m) := by
  unfold validate
  rw [val_eq]
  simp only [valBody, validateRange, hs.deref, he.deref, Res.bind]
  cases a <;> cases b <;> simp [Literal.kind] at h <;> cases v <;> simp [rangeMatch, sameKind]

/-- C08: a range between endpoints of one kind that is neither of integers nor of floats accepts nothing; that is a
mismatch, not a schema error. -/
theorem C08_no_numbers (env : Env) (c : Ctx) (s e : Node) (a b : Literal) (inclusive : Bool) (v : Value)
    (hs : Endpoint env c s a) (he : Endpoint env c e b) (h : a.kind = b.kind) (h1 : ∀ i, a ≠ .int i) (h2 : ∀ f, a ≠ .float f) :
    ∃ m, validate env v (.range s e inclusive) c = .err (.mismatch m) := by
  unfold validate
  rw [val_eq]
  simp only [valBody, validateRange, hs.deref, he.deref, Res.bind]
  cases a <;> cases b <;> simp [Literal.kind] at h <;> first
    | exact absurd rfl (h1 _)
    | exact absurd rfl (h2 _)
    | exact ⟨_, rfl⟩

example : Accepts (demoEnv []) top (.range (.literal (.int (-3))) (.literal (.int 7)) true)
    (.integer 7) := accepts_of_fuel 60 (by decide)
/-- Exclusive upper bound, the endpoint given by a rule `max = 7`. -/
example : ¬ Accepts (demoEnv [("max", ⟨[], .literal (.int 7)⟩)]) top
    (.range (.literal (.int (-3))) (.rule "max" []) false) (.integer 7) := by
  rw [(C08_int_range _ _ _ _ (-3) 7 _ _ (.literal _ _)
    (.rule (c' := .frame [] top 1) (n := .literal (.int 7)) rfl (.literal _ _))).1]
  simp [InIntRange]
/-- `1.0 .. 2.0` contains 1.5 and not NaN. -/
example : Accepts (demoEnv []) top (.range (.literal (.float ⟨0x3FF0000000000000⟩))
    (.literal (.float ⟨0x4000000000000000⟩)) true) (.float ⟨0x3FF8000000000000⟩) :=
  accepts_of_fuel 60 (by decide)
example : ¬ Accepts (demoEnv []) top (.range (.literal (.float ⟨0x3FF0000000000000⟩))
    (.literal (.float ⟨0x4000000000000000⟩)) true) (.float ⟨0x7FF8000000000000⟩) := by
  rw [(C08_float_range _ _ _ _ _ _ _ _ (.literal _ _) (.literal _ _) (by decide)).1]
  rintro ⟨x, hx, h, _⟩
  cases hx
  exact absurd h (by decide)

/-- `-2.0 .. -1.0` contains -1.5 and not -3.0. -/
example : Accepts (demoEnv []) top (.range (.literal (.float ⟨0xC000000000000000⟩))
    (.literal (.float ⟨0xBFF0000000000000⟩)) true) (.float ⟨0xBFF8000000000000⟩) :=
  accepts_of_fuel 60 (by decide)
example : ¬ Accepts (demoEnv []) top (.range (.literal (.float ⟨0xC000000000000000⟩))
    (.literal (.float ⟨0xBFF0000000000000⟩)) true) (.float ⟨0xC008000000000000⟩) := by
  rw [(C08_float_range _ _ _ _ _ _ _ _ (.literal _ _) (.literal _ _) (by decide)).1]
  rintro ⟨x, hx, _, _, h, _⟩
  cases hx
  exact absurd h (by decide +kernel)

/-- `"a".."b"` accepts no text. -/
example : ∃ m, validate (demoEnv []) (.text "a") (.range (.literal (.text "a")) (.literal (.text "b")) true) top =
    .err (.mismatch m) :=
  C08_no_numbers _ _ _ _ _ _ _ _ (.literal _ _) (.literal _ _) rfl (fun _ h => by cases h) fun _ h => by cases h

end Cddl
