import Verif.Proofs.Limit

/-!
# Entries that take something

Entries of arrays and maps that, whenever they match, use up at least one element or pair.
-/

namespace Cddl

/-- Where the entry of an array is a type, it is for one element. -/
def Node.isElement : Node → Bool
  | .occur .. | .rule .. | .unwrap .. | .choice _ | .group _ => false
  | _ => true

/-- Types that are no entries of maps. -/
def Node.isNoPair : Node → Bool
  | .literal _ | .prelude _ | .map _ | .array _ | .range .. | .ctl .. | .ctlRegexp _ | .ctlCbor _ => true
  | _ => false

/-- If this entry of an array matches, it takes an element. -/
inductive TakesElement (env : Env) : Ctx → Node → Prop
  | element (c) {n} : n.isElement = true → TakesElement env c n
  | rule {c s as n c'} : c.lookupRule env s as = .ok (n, c') → TakesElement env c' n → TakesElement env c (.rule s as)
  | unwrap {c s as l c' n} : c.lookupRule env s as = .ok (.array l, c') → n ∈ l → TakesElement env c' n →
      TakesElement env c (.unwrap s as)
  | choice {c l} : (∀ n ∈ l, TakesElement env c n) → TakesElement env c (.choice l)
  | group {c l n} : n ∈ l → TakesElement env c n → TakesElement env c (.group l)
  | occur {c o n} : 0 < o.limits.1 → TakesElement env c n → TakesElement env c (.occur o n)

/-- What a member of a group behind `&` stands for among the entries of a map. -/
def Node.entryOf : Node → Node
  | .keyValue _ v _ => v
  | n => n

/-- If this entry of a map matches, it takes a pair. -/
inductive TakesPair (env : Env) : Ctx → Node → Prop
  | pair (c k v x) : TakesPair env c (.keyValue k v x)
  | never (c) {n} : n.isNoPair = true → TakesPair env c n
  | rule {c s as n c'} : c.lookupRule env s as = .ok (n, c') → TakesPair env c' n → TakesPair env c (.rule s as)
  | unwrap {c s as l c' n} : c.lookupRule env s as = .ok (.map l, c') → n ∈ l → TakesPair env c' n →
      TakesPair env c (.unwrap s as)
  | choice {c l} : (∀ n ∈ l, TakesPair env c n) → TakesPair env c (.choice l)
  | inline {c l} : (∀ n ∈ l, TakesPair env c n) → TakesPair env c (.choiceifyInline l)
  /-- `&g`, where the members of `g` may be named groups themselves -/
  | choiceify {c s as l c'} : c.lookupRule env s as = .ok (.group l, c') →
      (∀ n ∈ l, ∀ s as, n = .rule s as → TakesPair env c' (.choiceify s as)) →
      (∀ n ∈ l, (∀ s as, n ≠ .rule s as) → TakesPair env c' n.entryOf) → TakesPair env c (.choiceify s as)
  | choiceifyName {c s as s' as' c'} : c.lookupRule env s as = .ok (.rule s' as', c') → TakesPair env c' (.choiceify s' as') →
      TakesPair env c (.choiceify s as)
  | group {c l n} : n ∈ l → TakesPair env c n → TakesPair env c (.group l)
  | occur {c o n} : 0 < o.limits.1 → TakesPair env c n → TakesPair env c (.occur o n)

/-- `k` rounds of a loop, one after the other, all of which succeed. -/
inductive Rounds {σ : Type} (f : σ → SRes σ) : Nat → σ → σ → Prop
  | zero (w) : Rounds f 0 w w
  | succ {k w w' w''} : f w = .ok w' → Rounds f k w' w'' → Rounds f (k + 1) w w''

end Cddl
