import Verif.Spec.Takes

/-! # How much the entries of arrays and maps can take -/

namespace Cddl

mutual
/-- The entry `n` of an array takes at most `k` elements, counting what options that fail may take. -/
inductive AtMost (env : Env) : Ctx → Node → Nat → Prop
  | element (c) {n} : n.isElement = true → AtMost env c n 1
  | rule {c s as n c' k} : c.lookupRule env s as = .ok (n, c') → AtMost env c' n k → AtMost env c (.rule s as) k
  | unwrap {c s as l c' k} : c.lookupRule env s as = .ok (.array l, c') → AtMostL env c' l k → AtMost env c (.unwrap s as) k
  | choice {c l k} : AtMostL env c l k → AtMost env c (.choice l) k
  | group {c l k} : AtMostL env c l k → AtMost env c (.group l) k
  | occur {c o n k} : AtMost env c n k → AtMost env c (.occur o n) (max 1 o.limits.2 * k)
/-- Together. -/
inductive AtMostL (env : Env) : Ctx → List Node → Nat → Prop
  | nil (c) : AtMostL env c [] 0
  | cons {c n l k k'} : AtMost env c n k → AtMostL env c l k' → AtMostL env c (n :: l) (k + k')
end

mutual
/-- The entry `n` of a map takes at most `k` pairs, counting what options that fail may take. -/
inductive AtMostM (env : Env) : Ctx → Node → Nat → Prop
  | pair (c k v x) : AtMostM env c (.keyValue k v x) 1
  | never (c) {n} : n.isNoPair = true → AtMostM env c n 0
  | rule {c s as n c' k} : c.lookupRule env s as = .ok (n, c') → AtMostM env c' n k → AtMostM env c (.rule s as) k
  | unwrap {c s as l c' k} : c.lookupRule env s as = .ok (.map l, c') → AtMostML env c' l k →
      AtMostM env c (.unwrap s as) k
  | choice {c l k} : AtMostML env c l k → AtMostM env c (.choice l) k
  | inline {c l k} : AtMostML env c l k → AtMostM env c (.choiceifyInline l) k
  | group {c l k} : AtMostML env c l k → AtMostM env c (.group l) k
  | occur {c o n k} : AtMostM env c n k → AtMostM env c (.occur o n) (max 1 o.limits.2 * k)
/-- Together. -/
inductive AtMostML (env : Env) : Ctx → List Node → Nat → Prop
  | nil (c) : AtMostML env c [] 0
  | cons {c n l k k'} : AtMostM env c n k → AtMostML env c l k' → AtMostML env c (n :: l) (k + k')
end

mutual
/-- Where the entry `n` of an array matches, it takes at least `k` elements. -/
inductive AtLeast (env : Env) : Ctx → Node → Nat → Prop
  | zero (c n) : AtLeast env c n 0
  | element (c) {n} : n.isElement = true → AtLeast env c n 1
  | rule {c s as n c' k} : c.lookupRule env s as = .ok (n, c') → AtLeast env c' n k → AtLeast env c (.rule s as) k
  | unwrap {c s as l c' k} : c.lookupRule env s as = .ok (.array l, c') → AtLeastL env c' l k → AtLeast env c (.unwrap s as) k
  | choice {c l k} : AtLeastO env c l k → AtLeast env c (.choice l) k
  | group {c l k} : AtLeastL env c l k → AtLeast env c (.group l) k
  | occur {c o n k} : AtLeast env c n k → AtLeast env c (.occur o n) (o.limits.1 * k)
/-- Together. -/
inductive AtLeastL (env : Env) : Ctx → List Node → Nat → Prop
  | nil (c) : AtLeastL env c [] 0
  | cons {c n l k k'} : AtLeast env c n k → AtLeastL env c l k' → AtLeastL env c (n :: l) (k + k')
/-- Each of these. -/
inductive AtLeastO (env : Env) : Ctx → List Node → Nat → Prop
  | nil (c k) : AtLeastO env c [] k
  | cons {c n l k} : AtLeast env c n k → AtLeastO env c l k → AtLeastO env c (n :: l) k
end

mutual
/-- Where the entry `n` of a map matches, it takes at least `k` pairs. -/
inductive AtLeastM (env : Env) : Ctx → Node → Nat → Prop
  | zero (c n) : AtLeastM env c n 0
  | pair (c k v x) : AtLeastM env c (.keyValue k v x) 1
  | rule {c s as n c' k} : c.lookupRule env s as = .ok (n, c') → AtLeastM env c' n k → AtLeastM env c (.rule s as) k
  | unwrap {c s as l c' k} : c.lookupRule env s as = .ok (.map l, c') → AtLeastML env c' l k →
      AtLeastM env c (.unwrap s as) k
  | choice {c l k} : AtLeastMO env c l k → AtLeastM env c (.choice l) k
  | inline {c l k} : AtLeastMO env c l k → AtLeastM env c (.choiceifyInline l) k
  | group {c l k} : AtLeastML env c l k → AtLeastM env c (.group l) k
  | occur {c o n k} : AtLeastM env c n k → AtLeastM env c (.occur o n) (o.limits.1 * k)
/-- Together. -/
inductive AtLeastML (env : Env) : Ctx → List Node → Nat → Prop
  | nil (c) : AtLeastML env c [] 0
  | cons {c n l k k'} : AtLeastM env c n k → AtLeastML env c l k' → AtLeastML env c (n :: l) (k + k')
/-- Each of these. -/
inductive AtLeastMO (env : Env) : Ctx → List Node → Nat → Prop
  | nil (c k) : AtLeastMO env c [] k
  | cons {c n l k} : AtLeastM env c n k → AtLeastMO env c l k → AtLeastMO env c (n :: l) k
end

end Cddl
