import Verif.Spec.Stands

/-! # How many elements and keys of a kind entries can take, and how many they need -/

namespace Cddl

mutual
/-- The entry `n` of an array takes at most `k` elements among `q`, counting what options that fail may take. -/
inductive ElemsAtMost (env : Env) (q : Value → Bool) : Ctx → Node → Nat → Prop
  | element (c) {n} : n.isElement = true → ElemsAtMost env q c n 1
  /-- a type that accepts only other values -/
  | other {c n} : n.isElement = true → (∀ k t x, n ≠ .keyValue k t x) → (∀ a, Accepts env c n a → q a = false) → ElemsAtMost env q c n 0
  | otherKeyed {c k t x} : (∀ a, Accepts env c t a → q a = false) → ElemsAtMost env q c (.keyValue k t x) 0
  | rule {c s as n c' k} : c.lookupRule env s as = .ok (n, c') → ElemsAtMost env q c' n k → ElemsAtMost env q c (.rule s as) k
  | unwrap {c s as l c' k} : c.lookupRule env s as = .ok (.array l, c') → ElemsAtMostL env q c' l k → ElemsAtMost env q c (.unwrap s as) k
  | choice {c l k} : ElemsAtMostL env q c l k → ElemsAtMost env q c (.choice l) k
  | group {c l k} : ElemsAtMostL env q c l k → ElemsAtMost env q c (.group l) k
  | occur {c o n k} : ElemsAtMost env q c n k → ElemsAtMost env q c (.occur o n) (max 1 o.limits.2 * k)
/-- Together. -/
inductive ElemsAtMostL (env : Env) (q : Value → Bool) : Ctx → List Node → Nat → Prop
  | nil (c) : ElemsAtMostL env q c [] 0
  | cons {c n l k k'} : ElemsAtMost env q c n k → ElemsAtMostL env q c l k' → ElemsAtMostL env q c (n :: l) (k + k')
end

mutual
/-- The entry `n` of a map takes at most `k` pairs whose keys are among `q`, counting what options that fail may take. -/
inductive KeysAtMost (env : Env) (q : Value → Bool) : Ctx → Node → Nat → Prop
  | pair (c k v x) : KeysAtMost env q c (.keyValue k v x) 1
  /-- a key that accepts only other values -/
  | other {c k v x} : (∀ a, Accepts env c k a → q a = false) → KeysAtMost env q c (.keyValue k v x) 0
  | never (c) {n} : n.isNoPair = true → KeysAtMost env q c n 0
  | rule {c s as n c' k} : c.lookupRule env s as = .ok (n, c') → KeysAtMost env q c' n k → KeysAtMost env q c (.rule s as) k
  | unwrap {c s as l c' k} : c.lookupRule env s as = .ok (.map l, c') → KeysAtMostL env q c' l k →
      KeysAtMost env q c (.unwrap s as) k
  | choice {c l k} : KeysAtMostL env q c l k → KeysAtMost env q c (.choice l) k
  | inline {c l k} : KeysAtMostL env q c l k → KeysAtMost env q c (.choiceifyInline l) k
  | group {c l k} : KeysAtMostL env q c l k → KeysAtMost env q c (.group l) k
  | occur {c o n k} : KeysAtMost env q c n k → KeysAtMost env q c (.occur o n) (max 1 o.limits.2 * k)
/-- Together. -/
inductive KeysAtMostL (env : Env) (q : Value → Bool) : Ctx → List Node → Nat → Prop
  | nil (c) : KeysAtMostL env q c [] 0
  | cons {c n l k k'} : KeysAtMost env q c n k → KeysAtMostL env q c l k' → KeysAtMostL env q c (n :: l) (k + k')
end

mutual
/-- Where the entry `n` of an array matches, it takes at least `k` elements among `q`. -/
inductive ElemsAtLeast (env : Env) (q : Value → Bool) : Ctx → Node → Nat → Prop
  | zero (c n) : ElemsAtLeast env q c n 0
  | alone {c n} : n.isElement = true → (∀ k t x, n ≠ .keyValue k t x) → (∀ a, Accepts env c n a → q a = true) →
      ElemsAtLeast env q c n 1
  | keyed {c k t x} : (∀ a, Accepts env c t a → q a = true) → ElemsAtLeast env q c (.keyValue k t x) 1
  | rule {c s as n c' k} : c.lookupRule env s as = .ok (n, c') → ElemsAtLeast env q c' n k → ElemsAtLeast env q c (.rule s as) k
  | unwrap {c s as l c' k} : c.lookupRule env s as = .ok (.array l, c') → ElemsAtLeastL env q c' l k → ElemsAtLeast env q c (.unwrap s as) k
  | choice {c l k} : ElemsAtLeastO env q c l k → ElemsAtLeast env q c (.choice l) k
  | group {c l k} : ElemsAtLeastL env q c l k → ElemsAtLeast env q c (.group l) k
  | occur {c o n k} : ElemsAtLeast env q c n k → ElemsAtLeast env q c (.occur o n) (o.limits.1 * k)
/-- Together. -/
inductive ElemsAtLeastL (env : Env) (q : Value → Bool) : Ctx → List Node → Nat → Prop
  | nil (c) : ElemsAtLeastL env q c [] 0
  | cons {c n l k k'} : ElemsAtLeast env q c n k → ElemsAtLeastL env q c l k' → ElemsAtLeastL env q c (n :: l) (k + k')
/-- Each of these. -/
inductive ElemsAtLeastO (env : Env) (q : Value → Bool) : Ctx → List Node → Nat → Prop
  | nil (c k) : ElemsAtLeastO env q c [] k
  | cons {c n l k} : ElemsAtLeast env q c n k → ElemsAtLeastO env q c l k → ElemsAtLeastO env q c (n :: l) k
end

end Cddl
