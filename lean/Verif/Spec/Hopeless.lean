import Verif.Spec.Stands

/-! # Types that cannot do without certain types -/

namespace Cddl

/-- The type `n` accepts no value. -/
def AcceptsNothing (env : Env) (c : Ctx) (n : Node) : Prop :=
  ∀ v : Value, v.WF → ¬ Accepts env c n v

mutual
/-- The type `n` cannot do without one of the types `B`. -/
inductive Hopeless (env : Env) (B : Ctx → Node → Prop) : Ctx → Node → Prop
  | now {c n} : B c n → Hopeless env B c n
  | cbor {c n} : Hopeless env B c n → Hopeless env B c (.ctlCbor n)
  | rule {c s as n c'} : c.lookupRule env s as = .ok (n, c') → Hopeless env B c' n → Hopeless env B c (.rule s as)
  | choice {c l} : (∀ n ∈ l, Hopeless env B c n) → Hopeless env B c (.choice l)
  | group {c n} : Hopeless env B c n → Hopeless env B c (.group [n])
  | array {c l n} : n ∈ l → HopelessElement env B c n → Hopeless env B c (.array l)
  | map {c l n} : n ∈ l → HopelessPair env B c n → Hopeless env B c (.map l)
/-- The entry `n` of an array cannot do without it. -/
inductive HopelessElement (env : Env) (B : Ctx → Node → Prop) : Ctx → Node → Prop
  | alone {c n} : n.isElement = true → (∀ k t y, n ≠ .keyValue k t y) → Hopeless env B c n → HopelessElement env B c n
  | keyed {c k t y} : Hopeless env B c t → HopelessElement env B c (.keyValue k t y)
  | rule {c s as n c'} : c.lookupRule env s as = .ok (n, c') → HopelessElement env B c' n → HopelessElement env B c (.rule s as)
  | unwrap {c s as l c' n} : c.lookupRule env s as = .ok (.array l, c') → n ∈ l → HopelessElement env B c' n →
      HopelessElement env B c (.unwrap s as)
  | choice {c l} : (∀ n ∈ l, HopelessElement env B c n) → HopelessElement env B c (.choice l)
  | group {c l n} : n ∈ l → HopelessElement env B c n → HopelessElement env B c (.group l)
  | occur {c o n} : o.limits.1 ≠ 0 → HopelessElement env B c n → HopelessElement env B c (.occur o n)
/-- The entry `n` of a map cannot do without it. -/
inductive HopelessPair (env : Env) (B : Ctx → Node → Prop) : Ctx → Node → Prop
  | key {c k t y} : Hopeless env B c k → HopelessPair env B c (.keyValue k t y)
  | value {c k t y} : Hopeless env B c t → HopelessPair env B c (.keyValue k t y)
  | rule {c s as n c'} : c.lookupRule env s as = .ok (n, c') → HopelessPair env B c' n → HopelessPair env B c (.rule s as)
  | unwrap {c s as l c' n} : c.lookupRule env s as = .ok (.map l, c') → n ∈ l → HopelessPair env B c' n →
      HopelessPair env B c (.unwrap s as)
  | choice {c l} : (∀ n ∈ l, HopelessPair env B c n) → HopelessPair env B c (.choice l)
  | group {c l n} : n ∈ l → HopelessPair env B c n → HopelessPair env B c (.group l)
  | occur {c o n} : o.limits.1 ≠ 0 → HopelessPair env B c n → HopelessPair env B c (.occur o n)
end

end Cddl
