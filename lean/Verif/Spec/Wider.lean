import Verif.Spec.Sat

/-! # Loosening a schema

Ways to change a schema after which it should describe at least what it described before: widening types, adding
options, relaxing occurrence indicators, making entries optional, adding optional entries, naming types and putting
types in place of names. -/

namespace Cddl

/-- The ways a node is used. -/
inductive Use
  /-- as the type of one data item -/
  | type
  /-- as an entry of an array -/
  | elem
  /-- as an entry of a map -/
  | member
  /-- as an array whose entries are used (`~`) -/
  | elems
  /-- as a map whose entries are used (`~`) -/
  | members
  /-- as a member of a group turned into a choice (`&`) -/
  | alt
  /-- as a group turned into a choice -/
  | alts
  /-- as an operand of a range or control operator -/
  | operand
  deriving DecidableEq

/-- Uses that choices and names pass on. -/
def Use.plain : Use → Bool
  | .type | .elem | .member => true
  | _ => false

/-- An entry that may be left out. -/
def Skippable (e : Node) : Prop := ∃ o n, e = .occur o n ∧ Count o 0

mutual
/-- `Wider env env' D ps u n n'`: the node `n` may be loosened to `n'`, where it is used as `u` in the body of a rule
with the parameters `ps`.  `D s u` says that the rule `s` is used as `u` and has been loosened for that use. -/
inductive Wider (env env' : Env) (D : String → Use → Prop) : List String → Use → Node → Node → Prop
  | core {ps u n n'} : Looser env env' D ps u n n' → Wider env env' D ps u n n'
  /-- to the type of everything -/
  | toAny (ps n) : Wider env env' D ps .type n (.prelude .any)
  /-- to a choice with a suitable option -/
  | option {ps u n n' l} : u.plain = true → n' ∈ l → Wider env env' D ps u n n' → Wider env env' D ps u n (.choice l)
  /-- to a name of a suitable type or group -/
  | name {u n s d} : u.plain = true → env'.lookup s = .ok d → d.params = [] → Wider env env' D [] u n d.node →
      Wider env env' D [] u n (.rule s [])
  /-- with an occurrence indicator where there was none -/
  | addOccur {ps u o n n'} : u = .elem ∨ u = .member → Count o 1 → Wider env env' D ps u n n' →
      (u = .elem ∨ n'.cuts = [] ∨ ∃ l t x, n = .keyValue (.literal l) t x ∧ n'.cuts = [.cut l]) →
      Wider env env' D ps u n (.occur o n')
/-- The cases that follow the form of `n`. -/
inductive Looser (env env' : Env) (D : String → Use → Prop) : List String → Use → Node → Node → Prop
  | literal (ps l) : Looser env env' D ps .type (.literal l) (.literal l)
  | literalType (ps) {l p} : InPrelude p l.toValue → Looser env env' D ps .type (.literal l) (.prelude p)
  | prelude (ps) {p p'} : (∀ v, InPrelude p v → InPrelude p' v) → Looser env env' D ps .type (.prelude p) (.prelude p')
  | choice {ps u l l'} : u.plain = true → Options env env' D ps u l l' → Looser env env' D ps u (.choice l) (.choice l')
  /-- options that one type covers -/
  | merge {ps u l n'} : u.plain = true → Options env env' D ps u l [n'] → Looser env env' D ps u (.choice l) n'
  | map {ps ms ms'} (extra) : Entries env env' D ps .member ms ms' → (∀ e ∈ extra, Skippable e) →
      Looser env env' D ps .type (.map ms) (.map (ms' ++ extra))
  | array {ps ms ms'} : Entries env env' D ps .elem ms ms' → Looser env env' D ps .type (.array ms) (.array ms')
  | rule {ps u s as as'} : u.plain = true → (s ∈ ps ∨ D s u) → Args env env' D ps as as' →
      Looser env env' D ps u (.rule s as) (.rule s as')
  /-- a type in place of its name -/
  | inline {u s d n'} : u.plain = true → env.lookup s = .ok d → d.params = [] → Wider env env' D [] u d.node n' →
      Looser env env' D [] u (.rule s []) n'
  | group {ps m m'} : Wider env env' D ps .type m m' → Looser env env' D ps .type (.group [m]) (.group [m'])
  | range {ps a a' b b'} (i) : Wider env env' D ps .operand a a' → Wider env env' D ps .operand b b' →
      Looser env env' D ps .type (.range a b i) (.range a' b' i)
  | rangeWider (ps) {a a' b b' i i'} : (∀ v, InRange a b i v → InRange a' b' i' v) →
      Looser env env' D ps .type (.range (.literal a) (.literal b) i) (.range (.literal a') (.literal b') i')
  | rangeType (ps) {a b i p} : (∀ v, InRange a b i v → InPrelude p v) →
      Looser env env' D ps .type (.range (.literal a) (.literal b) i) (.prelude p)
  | ctl {ps t t' a a'} (o) : Wider env env' D ps .operand t t' → Wider env env' D ps .operand a a' →
      Looser env env' D ps .type (.ctl o t a) (.ctl o t' a')
  /-- without the control operator -/
  | ctlType (ps o p a) : Looser env env' D ps .type (.ctl o (.prelude p) a) (.prelude p)
  | regexp (ps p) : Looser env env' D ps .type (.ctlRegexp p) (.ctlRegexp p)
  | regexpType (ps p) : Looser env env' D ps .type (.ctlRegexp p) (.prelude .tstr)
  | cbor {ps n n'} : Wider env env' D ps .type n n' → Looser env env' D ps .type (.ctlCbor n) (.ctlCbor n')
  | cborType (ps n) : Looser env env' D ps .type (.ctlCbor n) (.prelude .bstr)
  | choiceify {ps s as as'} : s ∉ ps → D s .alts → Args env env' D ps as as' →
      Looser env env' D ps .type (.choiceify s as) (.choiceify s as')
  | choiceifyInline {ps ms ms'} : Options env env' D ps .alt ms ms' →
      Looser env env' D ps .type (.choiceifyInline ms) (.choiceifyInline ms')
  /-- entries that are single items (in maps there are none) -/
  | item {ps u n n'} : u = .elem ∨ u = .member → n.isItem = true → n'.isItem = true → Wider env env' D ps .type n n' →
      Looser env env' D ps u n n'
  | elemKey {ps t t'} (k k' x x') : Wider env env' D ps .type t t' →
      Looser env env' D ps .elem (.keyValue k t x) (.keyValue k' t' x')
  | memberKey {ps k k' t t'} (x x') : Wider env env' D ps .type k k' → Wider env env' D ps .type t t' →
      Looser env env' D ps .member (.keyValue k t x) (.keyValue k' t' x')
  | entries {ps u ms ms'} : u = .elem ∨ u = .member → Entries env env' D ps u ms ms' →
      Looser env env' D ps u (.group ms) (.group ms')
  | unwrapArray {ps s as as'} : s ∉ ps → D s .elems → Args env env' D ps as as' →
      Looser env env' D ps .elem (.unwrap s as) (.unwrap s as')
  | unwrapMap {ps s as as'} : s ∉ ps → D s .members → Args env env' D ps as as' →
      Looser env env' D ps .member (.unwrap s as) (.unwrap s as')
  /-- another occurrence indicator, with no new cut -/
  | occur {ps u o o' n n'} : u = .elem ∨ u = .member → (∀ k, Count o k → Count o' k) → Wider env env' D ps u n n' →
      (u = .elem ∨ n'.cuts = [] ∨ n'.cuts = n.cuts) → Looser env env' D ps u (.occur o n) (.occur o' n')
  | elems {ps ms ms'} : Entries env env' D ps .elem ms ms' → Looser env env' D ps .elems (.array ms) (.array ms')
  | members {ps ms ms'} : Entries env env' D ps .member ms ms' → Looser env env' D ps .members (.map ms) (.map ms')
  | altKey {ps t t'} (k k' x x') : Wider env env' D ps .type t t' →
      Looser env env' D ps .alt (.keyValue k t x) (.keyValue k' t' x')
  | altRule {ps s as as'} : s ∉ ps → D s .alts → Args env env' D ps as as' →
      Looser env env' D ps .alt (.rule s as) (.rule s as')
  | altType {ps m m'} : (∀ k t x, m ≠ .keyValue k t x) → (∀ s as, m ≠ .rule s as) → (∀ k t x, m' ≠ .keyValue k t x) →
      (∀ s as, m' ≠ .rule s as) → Wider env env' D ps .type m m' → Looser env env' D ps .alt m m'
  | alts {ps ms ms'} : Options env env' D ps .alt ms ms' → Looser env env' D ps .alts (.group ms) (.group ms')
  | altsRule {ps s as as'} : s ∉ ps → D s .alts → Args env env' D ps as as' →
      Looser env env' D ps .alts (.rule s as) (.rule s as')
  | operand {n} (ps) : (∀ s as, n ≠ .rule s as) → Looser env env' D ps .operand n n
  | operandRule {ps s as as'} : s ∉ ps → D s .operand → Args env env' D ps as as' →
      Looser env env' D ps .operand (.rule s as) (.rule s as')
/-- Each option is covered by an option of the other list. -/
inductive Options (env env' : Env) (D : String → Use → Prop) : List String → Use → List Node → List Node → Prop
  | nil (ps u l') : Options env env' D ps u [] l'
  | cons {ps u n n' l l'} : n' ∈ l' → Wider env env' D ps u n n' → Options env env' D ps u l l' →
      Options env env' D ps u (n :: l) l'
/-- Entry by entry, with additional entries that may be left out and that cut no key. -/
inductive Entries (env env' : Env) (D : String → Use → Prop) : List String → Use → List Node → List Node → Prop
  | nil (ps u) : Entries env env' D ps u [] []
  | cons {ps u n n' l l'} : Wider env env' D ps u n n' → Entries env env' D ps u l l' →
      Entries env env' D ps u (n :: l) (n' :: l')
  | add {ps u o n' l l'} : Count o 0 → (u = .elem ∨ n'.cuts = []) → Entries env env' D ps u l l' →
      Entries env env' D ps u l (.occur o n' :: l')
/-- Generic arguments, one by one, for whatever the parameters may be used. -/
inductive Args (env env' : Env) (D : String → Use → Prop) : List String → List Node → List Node → Prop
  | nil (ps) : Args env env' D ps [] []
  | cons {ps n n' l l'} : (∀ u, u.plain = true → Wider env env' D ps u n n') → Args env env' D ps l l' →
      Args env env' D ps (n :: l) (n' :: l')
end

/-- The rules have been loosened for the uses made of them. -/
structure LoosenedRules (env env' : Env) (D : String → Use → Prop) : Prop where
  rules : ∀ s u d, D s u → env.lookup s = .ok d →
    ∃ d', env'.lookup s = .ok d' ∧ d'.params = d.params ∧ Wider env env' D d.params u d.node d'.node
  regex : env'.regexMatch = env.regexMatch
  cbor : env'.cborDecode = env.cborDecode

/-- The rule `name` of the one schema, with all that it uses, has been loosened to that of the other. -/
def Loosened (env env' : Env) (name : String) : Prop := ∃ D, LoosenedRules env env' D ∧ D name .type

end Cddl
