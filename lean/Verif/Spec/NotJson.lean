import Verif.Spec.Stands

/-! # Types that no JSON value has -/

namespace Cddl

/-- Values that JSON can express: no byte strings, and texts for keys. -/
inductive IsJson : Value → Prop
  | null : IsJson .null
  | bool (b) : IsJson (.bool b)
  | integer (i) : IsJson (.integer i)
  | float (f) : IsJson (.float f)
  | text (s) : IsJson (.text s)
  | array {xs} : (∀ x ∈ xs, IsJson x) → IsJson (.array xs)
  | map {m} : (∀ p ∈ m, ∃ s, p.1 = .text s) → (∀ p ∈ m, IsJson p.2) → IsJson (.map m)

/-- Literals that are not in JSON, or, with `key`, not as keys. -/
def Literal.notJson (key : Bool) : Literal → Bool
  | .bytes _ => true
  | .text _ => false
  | _ => key

/-- Prelude types that nothing in JSON has, or, with `key`, no key. -/
def PreludeType.notJson (key : Bool) : PreludeType → Bool
  | .bstr => true
  | .any | .tstr => false
  | _ => key

mutual
/-- The type `n` cannot do without something that JSON cannot express; with `key = true`, if it is the type of a key. -/
inductive NotJson (env : Env) : Bool → Ctx → Node → Prop
  | literal {key c l} : l.notJson key = true → NotJson env key c (.literal l)
  | prelude {key c p} : p.notJson key = true → NotJson env key c (.prelude p)
  | cbor {key c n} : NotJson env key c (.ctlCbor n)
  /-- `bstr .size …` -/
  | size {key c arg} : NotJson env key c (.ctl .size (.prelude .bstr) arg)
  | keyArray {c l} : NotJson env true c (.array l)
  | keyMap {c l} : NotJson env true c (.map l)
  | rule {key c s as n c'} : c.lookupRule env s as = .ok (n, c') → NotJson env key c' n → NotJson env key c (.rule s as)
  | choice {key c l} : (∀ n ∈ l, NotJson env key c n) → NotJson env key c (.choice l)
  | group {key c n} : NotJson env key c n → NotJson env key c (.group [n])
  | array {key c l n} : n ∈ l → NotJsonElement env c n → NotJson env key c (.array l)
  | map {key c l n} : n ∈ l → NotJsonPair env c n → NotJson env key c (.map l)
/-- The entry `n` of an array cannot do without it. -/
inductive NotJsonElement (env : Env) : Ctx → Node → Prop
  | alone {c n} : n.isElement = true → (∀ k t y, n ≠ .keyValue k t y) → NotJson env false c n → NotJsonElement env c n
  | keyed {c k t y} : NotJson env false c t → NotJsonElement env c (.keyValue k t y)
  | rule {c s as n c'} : c.lookupRule env s as = .ok (n, c') → NotJsonElement env c' n → NotJsonElement env c (.rule s as)
  | unwrap {c s as l c' n} : c.lookupRule env s as = .ok (.array l, c') → n ∈ l → NotJsonElement env c' n →
      NotJsonElement env c (.unwrap s as)
  | choice {c l} : (∀ n ∈ l, NotJsonElement env c n) → NotJsonElement env c (.choice l)
  | group {c l n} : n ∈ l → NotJsonElement env c n → NotJsonElement env c (.group l)
  | occur {c o n} : o.limits.1 ≠ 0 → NotJsonElement env c n → NotJsonElement env c (.occur o n)
/-- The entry `n` of a map cannot do without it. -/
inductive NotJsonPair (env : Env) : Ctx → Node → Prop
  | key {c k t y} : NotJson env true c k → NotJsonPair env c (.keyValue k t y)
  | value {c k t y} : NotJson env false c t → NotJsonPair env c (.keyValue k t y)
  | rule {c s as n c'} : c.lookupRule env s as = .ok (n, c') → NotJsonPair env c' n → NotJsonPair env c (.rule s as)
  | unwrap {c s as l c' n} : c.lookupRule env s as = .ok (.map l, c') → n ∈ l → NotJsonPair env c' n →
      NotJsonPair env c (.unwrap s as)
  | choice {c l} : (∀ n ∈ l, NotJsonPair env c n) → NotJsonPair env c (.choice l)
  | group {c l n} : n ∈ l → NotJsonPair env c n → NotJsonPair env c (.group l)
  | occur {c o n} : o.limits.1 ≠ 0 → NotJsonPair env c n → NotJsonPair env c (.occur o n)
end

end Cddl
