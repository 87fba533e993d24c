import Verif.Spec.Demo
import Verif.Spec.Takes

/-! # The entries of arrays and maps, wherever they stand -/

namespace Cddl

/-- In an array with the entry `n`, the type `t` stands for an element: alone or with a key, among alternatives, in a
group, under a number of occurrences, behind a name or behind `~`. -/
inductive ElementOf (env : Env) : Ctx → Node → Ctx → Node → Prop
  | alone (c) {n} : n.isElement = true → (∀ k t x, n ≠ .keyValue k t x) → ElementOf env c n c n
  | keyed (c k t x) : ElementOf env c (.keyValue k t x) c t
  | rule {c s as n c' d t} : c.lookupRule env s as = .ok (n, c') → ElementOf env c' n d t → ElementOf env c (.rule s as) d t
  | unwrap {c s as l c' n d t} : c.lookupRule env s as = .ok (.array l, c') → n ∈ l → ElementOf env c' n d t →
      ElementOf env c (.unwrap s as) d t
  | choice {c l n d t} : n ∈ l → ElementOf env c n d t → ElementOf env c (.choice l) d t
  | group {c l n d t} : n ∈ l → ElementOf env c n d t → ElementOf env c (.group l) d t
  | occur {c o n d t} : ElementOf env c n d t → ElementOf env c (.occur o n) d t

/-- In a map with the entry `n`, the key `k` with the value `t` stands for a pair. -/
inductive PairOf (env : Env) : Ctx → Node → Ctx → Node → Node → Prop
  | pair (c k t x) : PairOf env c (.keyValue k t x) c k t
  | rule {c s as n c' d k t} : c.lookupRule env s as = .ok (n, c') → PairOf env c' n d k t → PairOf env c (.rule s as) d k t
  | unwrap {c s as l c' n d k t} : c.lookupRule env s as = .ok (.map l, c') → n ∈ l → PairOf env c' n d k t →
      PairOf env c (.unwrap s as) d k t
  | choice {c l n d k t} : n ∈ l → PairOf env c n d k t → PairOf env c (.choice l) d k t
  | inline {c l n d k t} : n ∈ l → PairOf env c n d k t → PairOf env c (.choiceifyInline l) d k t
  /-- `&g`, where `g` has the member `n`, of which the value counts if it has a key -/
  | choiceify {c s as l c' n d k t} : c.lookupRule env s as = .ok (.group l, c') → n ∈ l → (∀ s as, n ≠ .rule s as) →
      PairOf env c' n.entryOf d k t → PairOf env c (.choiceify s as) d k t
  /-- `&g`, where `g` has a named group as a member -/
  | choiceifyMember {c s as l c' s' as' d k t} : c.lookupRule env s as = .ok (.group l, c') → .rule s' as' ∈ l →
      PairOf env c' (.choiceify s' as') d k t → PairOf env c (.choiceify s as) d k t
  | choiceifyName {c s as s' as' c' d k t} : c.lookupRule env s as = .ok (.rule s' as', c') →
      PairOf env c' (.choiceify s' as') d k t → PairOf env c (.choiceify s as) d k t
  | group {c l n d k t} : n ∈ l → PairOf env c n d k t → PairOf env c (.group l) d k t
  | occur {c o n d k t} : PairOf env c n d k t → PairOf env c (.occur o n) d k t

/-- The type `t` stands somewhere under the type `n`, to be matched in the course of matching `n`. -/
inductive Under (env : Env) : Ctx → Node → Ctx → Node → Prop
  | self (c n) : Under env c n c n
  | rule {c s as n c' d t} : c.lookupRule env s as = .ok (n, c') → Under env c' n d t → Under env c (.rule s as) d t
  | choice {c l n d t} : n ∈ l → Under env c n d t → Under env c (.choice l) d t
  | group {c n d t} : Under env c n d t → Under env c (.group [n]) d t
  | element {c l n c' n' d t} : n ∈ l → ElementOf env c n c' n' → Under env c' n' d t → Under env c (.array l) d t
  | key {c l n c' k v d t} : n ∈ l → PairOf env c n c' k v → Under env c' k d t → Under env c (.map l) d t
  | value {c l n c' k v d t} : n ∈ l → PairOf env c n c' k v → Under env c' v d t → Under env c (.map l) d t
  | cbor {c n d t} : Under env c n d t → Under env c (.ctlCbor n) d t
  | inline {c l n d t} : n ∈ l → (∀ s as, n ≠ .rule s as) → Under env c n.entryOf d t → Under env c (.choiceifyInline l) d t
  | inlineMember {c l s as d t} : .rule s as ∈ l → Under env c (.choiceify s as) d t → Under env c (.choiceifyInline l) d t
  | choiceify {c s as l c' n d t} : c.lookupRule env s as = .ok (.group l, c') → n ∈ l → (∀ s as, n ≠ .rule s as) →
      Under env c' n.entryOf d t → Under env c (.choiceify s as) d t
  | choiceifyMember {c s as l c' s' as' d t} : c.lookupRule env s as = .ok (.group l, c') → .rule s' as' ∈ l →
      Under env c' (.choiceify s' as') d t → Under env c (.choiceify s as) d t
  | choiceifyName {c s as s' as' c' d t} : c.lookupRule env s as = .ok (.rule s' as', c') →
      Under env c' (.choiceify s' as') d t → Under env c (.choiceify s as) d t

/-- `w` is part of `v`: an element, key or value, at any depth. -/
inductive PartOf : Value → Value → Prop
  | self (v) : PartOf v v
  | elem {xs x w} : x ∈ xs → PartOf x w → PartOf (.array xs) w
  | key {m p w} : p ∈ m → PartOf p.1 w → PartOf (.map m) w
  | value {m p w} : p ∈ m → PartOf p.2 w → PartOf (.map m) w

/-- Types that do not refer to other types for the same value. -/
def Node.isFinal : Node → Bool
  | .rule .. | .choice _ | .group _ | .choiceify .. | .choiceifyInline _ => false
  | _ => true

/-- The entry `n` of an array is filled by elements among `xs`: a type by an element that it accepts, a group if all of
its entries are, a choice if one of its options is, a repetition if it is optional or its entry is. -/
inductive Filled (env : Env) (xs : List Value) : Ctx → Node → Prop
  | alone {c n x} : n.isElement = true → (∀ k t y, n ≠ .keyValue k t y) → x ∈ xs → Accepts env c n x → Filled env xs c n
  | keyed {c k t y x} : x ∈ xs → Accepts env c t x → Filled env xs c (.keyValue k t y)
  | rule {c s as n c'} : c.lookupRule env s as = .ok (n, c') → Filled env xs c' n → Filled env xs c (.rule s as)
  | unwrap {c s as l c'} : c.lookupRule env s as = .ok (.array l, c') → (∀ n ∈ l, Filled env xs c' n) →
      Filled env xs c (.unwrap s as)
  | choice {c l n} : n ∈ l → Filled env xs c n → Filled env xs c (.choice l)
  | group {c l} : (∀ n ∈ l, Filled env xs c n) → Filled env xs c (.group l)
  | none {c o n} : o.limits.1 = 0 → Filled env xs c (.occur o n)
  | some {c o n} : Filled env xs c n → Filled env xs c (.occur o n)

/-- The entry `n` of a map is filled by pairs among `m`. -/
inductive FilledM (env : Env) (m : VMap) : Ctx → Node → Prop
  | pair {c k t y p} : p ∈ m → Accepts env c k p.1 → Accepts env c t p.2 → FilledM env m c (.keyValue k t y)
  | rule {c s as n c'} : c.lookupRule env s as = .ok (n, c') → FilledM env m c' n → FilledM env m c (.rule s as)
  | unwrap {c s as l c'} : c.lookupRule env s as = .ok (.map l, c') → (∀ n ∈ l, FilledM env m c' n) →
      FilledM env m c (.unwrap s as)
  | choice {c l n} : n ∈ l → FilledM env m c n → FilledM env m c (.choice l)
  | inline {c l n} : n ∈ l → FilledM env m c n → FilledM env m c (.choiceifyInline l)
  | choiceify {c s as l c' n} : c.lookupRule env s as = .ok (.group l, c') → n ∈ l → (∀ s as, n ≠ .rule s as) →
      FilledM env m c' n.entryOf → FilledM env m c (.choiceify s as)
  | choiceifyMember {c s as l c' s' as'} : c.lookupRule env s as = .ok (.group l, c') → .rule s' as' ∈ l →
      FilledM env m c' (.choiceify s' as') → FilledM env m c (.choiceify s as)
  | choiceifyName {c s as s' as' c'} : c.lookupRule env s as = .ok (.rule s' as', c') →
      FilledM env m c' (.choiceify s' as') → FilledM env m c (.choiceify s as)
  | group {c l} : (∀ n ∈ l, FilledM env m c n) → FilledM env m c (.group l)
  | none {c o n} : o.limits.1 = 0 → FilledM env m c (.occur o n)
  | some {c o n} : FilledM env m c n → FilledM env m c (.occur o n)

/-- With the entry `n`, a map must have a pair for the key `k` with the value `t`, whatever is chosen. -/
inductive Demands (env : Env) : Ctx → Node → Ctx → Node → Node → Prop
  | pair (c k t y) : Demands env c (.keyValue k t y) c k t
  | rule {c s as n c' d k t} : c.lookupRule env s as = .ok (n, c') → Demands env c' n d k t →
      Demands env c (.rule s as) d k t
  | unwrap {c s as l c' n d k t} : c.lookupRule env s as = .ok (.map l, c') → n ∈ l → Demands env c' n d k t →
      Demands env c (.unwrap s as) d k t
  | group {c l n d k t} : n ∈ l → Demands env c n d k t → Demands env c (.group l) d k t
  | occur {c o n d k t} : o.limits.1 ≠ 0 → Demands env c n d k t → Demands env c (.occur o n) d k t

end Cddl
