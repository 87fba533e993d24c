import Verif.Spec.Cong

/-! # Writing out rules

What it means to replace names of rules by what they stand for, generic rules included: the parameters of the
body are replaced by the arguments (RFC 8610, section 3.10). -/

namespace Cddl

/-- How a name that is kept is used. -/
inductive NameUse
  /-- as a type or an entry -/
  | plain
  /-- behind `&`, or within a group behind `&` -/
  | choices
  /-- behind `~` -/
  | contents

/-- What a name stands for; of several bindings the last one counts. -/
def argFor : List (String × Node) → String → Option Node
  | [], _ => none
  | (s, a) :: g, t => match argFor g t with
    | some x => some x
    | none => if s = t then some a else none

/-- The argument `a`, written out as `a'`, may be used as a key: it is a type (not a literal) without names, or a
parameter that may be used as a key. -/
def KeyArg (ps : List (String × Node)) (F : List String) (a a' : Node) : Prop :=
  (a.names = [] ∧ a' = a ∧ ∀ l, a ≠ .literal l) ∨ ∃ s as, a = .rule s as ∧ s ∈ F ∧ argFor ps s = some a'

/-- The key `k` is written out as `k'`: it has no names, or is a parameter that may be used as a key. -/
def KeyOut (ps : List (String × Node)) (F : List String) (k k' : Node) : Prop :=
  (k.names = [] ∧ k' = k) ∨ ∃ s as, k = .rule s as ∧ s ∈ F ∧ argFor ps s = some k'

mutual
/-- `WriteOut env K q ps F n n'`: `n` is part of a rule whose parameters stand for the nodes `ps`, those of `F`
being fit for keys; `n'` is part of a rule with the parameters `q`, and is `n` with parameters replaced by what they
stand for and names replaced by the bodies of the rules they name, or kept if `K` allows it. -/
inductive WriteOut (env : Env) (K : String → NameUse → Prop) (q : List String) :
    List (String × Node) → List String → Node → Node → Prop
  | literal (ps F l) : WriteOut env K q ps F (.literal l) (.literal l)
  | prelude (ps F p) : WriteOut env K q ps F (.prelude p) (.prelude p)
  | regexp (ps F p) : WriteOut env K q ps F (.ctlRegexp p) (.ctlRegexp p)
  /-- a parameter is replaced by what it stands for -/
  | param {ps F s a'} (as) : argFor ps s = some a' → WriteOut env K q ps F (.rule s as) a'
  /-- a name is kept, if it means a rule on both sides -/
  | name {ps F s as as'} (u) : argFor ps s = none → s ∉ q → K s u → WriteOutL env K q ps F as as' →
      WriteOut env K q ps F (.rule s as) (.rule s as')
  /-- a name is replaced by the body of its rule, with the arguments for the parameters -/
  | body {ps F s as as' d n'} (F' : List String) : argFor ps s = none → env.lookup s = .ok d →
      d.params.length = as.length → WriteOutL env K q ps F as as' →
      (∀ t ∈ F', ∀ a, argFor (d.params.zip as) t = some a →
        ∃ a', argFor (d.params.zip as') t = some a' ∧ KeyArg ps F a a') →
      WriteOut env K q (d.params.zip as') F' d.node n' → WriteOut env K q ps F (.rule s as) n'
  | choice {ps F l l'} : WriteOutL env K q ps F l l' → WriteOut env K q ps F (.choice l) (.choice l')
  | map {ps F l l'} : WriteOutL env K q ps F l l' → WriteOut env K q ps F (.map l) (.map l')
  | array {ps F l l'} : WriteOutL env K q ps F l l' → WriteOut env K q ps F (.array l) (.array l')
  | group {ps F l l'} : WriteOutL env K q ps F l l' → WriteOut env K q ps F (.group l) (.group l')
  | keyValue {ps F k k' v v'} (x) : KeyOut ps F k k' → WriteOut env K q ps F v v' →
      WriteOut env K q ps F (.keyValue k v x) (.keyValue k' v' x)
  | occur {ps F n n'} (o) : WriteOut env K q ps F n n' → WriteOut env K q ps F (.occur o n) (.occur o n')
  | unwrap {ps F s as as'} : argFor ps s = none → s ∉ q → K s .contents → WriteOutL env K q ps F as as' →
      WriteOut env K q ps F (.unwrap s as) (.unwrap s as')
  | range {ps F a a' b b'} (i) : WriteOut env K q ps F a a' → WriteOut env K q ps F b b' →
      WriteOut env K q ps F (.range a b i) (.range a' b' i)
  | ctl {ps F a a' b b'} (o) : WriteOut env K q ps F a a' → WriteOut env K q ps F b b' →
      WriteOut env K q ps F (.ctl o a b) (.ctl o a' b')
  | cbor {ps F n n'} : WriteOut env K q ps F n n' → WriteOut env K q ps F (.ctlCbor n) (.ctlCbor n')
  | choiceify {ps F s as as'} : argFor ps s = none → s ∉ q → K s .choices → WriteOutL env K q ps F as as' →
      WriteOut env K q ps F (.choiceify s as) (.choiceify s as')
  | inline {ps F l l'} : WriteOutG env K q ps F l l' →
      WriteOut env K q ps F (.choiceifyInline l) (.choiceifyInline l')
/-- Lists of nodes. -/
inductive WriteOutL (env : Env) (K : String → NameUse → Prop) (q : List String) :
    List (String × Node) → List String → List Node → List Node → Prop
  | nil (ps F) : WriteOutL env K q ps F [] []
  | cons {ps F n n' l l'} : WriteOut env K q ps F n n' → WriteOutL env K q ps F l l' →
      WriteOutL env K q ps F (n :: l) (n' :: l')
/-- Entries of a group behind `&`: names are kept. -/
inductive WriteOutG (env : Env) (K : String → NameUse → Prop) (q : List String) :
    List (String × Node) → List String → List Node → List Node → Prop
  | nil (ps F) : WriteOutG env K q ps F [] []
  | name {ps F s as as' l l'} : argFor ps s = none → s ∉ q → K s .choices → WriteOutL env K q ps F as as' →
      WriteOutG env K q ps F l l' → WriteOutG env K q ps F (.rule s as :: l) (.rule s as' :: l')
  | other {ps F n n' l l'} : (∀ s as, n ≠ .rule s as) → WriteOut env K q ps F n n' → WriteOutG env K q ps F l l' →
      WriteOutG env K q ps F (n :: l) (n' :: l')
end

/-- Parameters that stand for themselves. -/
def selfParams (q : List String) : List (String × Node) := q.map fun s => (s, .rule s [])

/-- What is asked of a kept rule with body `n`, written out as `n'`, apart from that. -/
def UseFits (env : Env) (K : String → NameUse → Prop) (q : List String) (n n' : Node) : NameUse → Prop
  | .plain => True
  | .choices => (∃ l l', n = .group l ∧ n' = .group l' ∧ WriteOutG env K q (selfParams q) [] l l') ∨
      (∃ s as as', n = .rule s as ∧ n' = .rule s as' ∧ s ∉ q ∧ K s .choices ∧
        WriteOutL env K q (selfParams q) [] as as') ∨
      ((∀ l, n ≠ .group l) ∧ ∀ s as, n ≠ .rule s as)
  | .contents => (∀ s as, n ≠ .rule s as) ∨ ∃ s as, n' = .rule s as

/-- The rules of the one schema that are kept are, in the other, written out. -/
structure WrittenOut (env env' : Env) (K : String → NameUse → Prop) : Prop where
  regex : env.regexMatch = env'.regexMatch
  cbor : env.cborDecode = env'.cborDecode
  fmt : env.fmtF64 = env'.fmtF64
  rules : ∀ s u, K s u → (∃ e, env.lookup s = .error e ∧ env'.lookup s = .error e) ∨
    ∃ d d', env.lookup s = .ok d ∧ env'.lookup s = .ok d' ∧ d'.params = d.params ∧
      WriteOut env K d.params (selfParams d.params) [] d.node d'.node ∧ UseFits env K d.params d.node d'.node u

end Cddl
