import Verif.Spec.Stands

/-! # How many keys of a kind an entry needs -/

namespace Cddl

mutual
/-- Where the entry `n` of a map matches, it takes at least `k` pairs whose keys are among `q`. -/
inductive KeysAtLeast (env : Env) (q : Value → Bool) : Ctx → Node → Nat → Prop
  | zero (c n) : KeysAtLeast env q c n 0
  | pair {c k v x} : (∀ a, Accepts env c k a → q a = true) → KeysAtLeast env q c (.keyValue k v x) 1
  | rule {c s as n c' k} : c.lookupRule env s as = .ok (n, c') → KeysAtLeast env q c' n k → KeysAtLeast env q c (.rule s as) k
  | unwrap {c s as l c' k} : c.lookupRule env s as = .ok (.map l, c') → KeysAtLeastL env q c' l k →
      KeysAtLeast env q c (.unwrap s as) k
  | choice {c l k} : KeysAtLeastO env q c l k → KeysAtLeast env q c (.choice l) k
  | inline {c l k} : KeysAtLeastO env q c l k → KeysAtLeast env q c (.choiceifyInline l) k
  | group {c l k} : KeysAtLeastL env q c l k → KeysAtLeast env q c (.group l) k
  | occur {c o n k} : KeysAtLeast env q c n k → KeysAtLeast env q c (.occur o n) (o.limits.1 * k)
/-- Together. -/
inductive KeysAtLeastL (env : Env) (q : Value → Bool) : Ctx → List Node → Nat → Prop
  | nil (c) : KeysAtLeastL env q c [] 0
  | cons {c n l k k'} : KeysAtLeast env q c n k → KeysAtLeastL env q c l k' → KeysAtLeastL env q c (n :: l) (k + k')
/-- Each of these. -/
inductive KeysAtLeastO (env : Env) (q : Value → Bool) : Ctx → List Node → Nat → Prop
  | nil (c k) : KeysAtLeastO env q c [] k
  | cons {c n l k} : KeysAtLeast env q c n k → KeysAtLeastO env q c l k → KeysAtLeastO env q c (n :: l) k
end

end Cddl
