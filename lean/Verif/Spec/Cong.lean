import Verif.Model.Validate
import Verif.Spec.All2

/-! # Schemas that are the same up to names and array keys -/

namespace Cddl

/-- Types that describe one data item by their form alone. -/
def Node.isItem : Node → Bool
  | .literal _ | .prelude _ | .map _ | .array _ | .range .. | .ctl .. | .ctlRegexp _ | .ctlCbor _
  | .choiceify .. | .choiceifyInline _ => true
  | _ => false

mutual
/-- `Cong ρ κ a n n'`: `n` and `n'` have the same form; names used in `n` and `n'` correspond under `ρ`; and
if `κ = true`, in array entries (`a = true`) the member keys may differ, or may be missing in `n'` if the
entry's type is a single item, and occurrences may be written differently if their limits are the same. -/
inductive Cong (ρ : String → String → Prop) (κ : Bool) : Bool → Node → Node → Prop
  | literal (a l) : Cong ρ κ a (.literal l) (.literal l)
  | prelude (a p) : Cong ρ κ a (.prelude p) (.prelude p)
  | regexp (a p) : Cong ρ κ a (.ctlRegexp p) (.ctlRegexp p)
  | rule (a) {s s' as as'} : ρ s s' → CongL ρ κ false as as' → Cong ρ κ a (.rule s as) (.rule s' as')
  | choice {a l l'} : CongL ρ κ a l l' → Cong ρ κ a (.choice l) (.choice l')
  | map (a) {l l'} : CongL ρ κ false l l' → Cong ρ κ a (.map l) (.map l')
  | array (a) {l l'} : CongL ρ κ true l l' → Cong ρ κ a (.array l) (.array l')
  | group {a l l'} : CongL ρ κ a l l' → Cong ρ κ a (.group l) (.group l')
  | keyValue (a) {k k' v v'} (x) : Cong ρ κ false k k' → Cong ρ κ false v v' →
      Cong ρ κ a (.keyValue k v x) (.keyValue k' v' x)
  | changeKey {v v'} (k k' x x') : κ = true → Cong ρ κ false v v' → Cong ρ κ true (.keyValue k v x) (.keyValue k' v' x')
  | dropKey {v v'} (k x) : κ = true → Cong ρ κ false v v' → v'.isItem = true → Cong ρ κ true (.keyValue k v x) v'
  | occur {a n n'} (o) : Cong ρ κ a n n' → Cong ρ κ a (.occur o n) (.occur o n')
  | respell {a n n'} (o o') : κ = true → o.limits = o'.limits → Cong ρ κ a n n' → Cong ρ κ a (.occur o n) (.occur o' n')
  | unwrap (a) {s s' as as'} : ρ s s' → CongL ρ κ false as as' → Cong ρ κ a (.unwrap s as) (.unwrap s' as')
  | range (a) {b b' e e'} (i) : Cong ρ κ false b b' → Cong ρ κ false e e' →
      Cong ρ κ a (.range b e i) (.range b' e' i)
  | ctl (a) {t t' x x'} (o) : Cong ρ κ false t t' → Cong ρ κ false x x' →
      Cong ρ κ a (.ctl o t x) (.ctl o t' x')
  | cbor (a) {n n'} : Cong ρ κ false n n' → Cong ρ κ a (.ctlCbor n) (.ctlCbor n')
  | choiceify (a) {s s' as as'} : ρ s s' → CongL ρ κ false as as' →
      Cong ρ κ a (.choiceify s as) (.choiceify s' as')
  | inline (a) {l l'} : CongL ρ κ false l l' → Cong ρ κ a (.choiceifyInline l) (.choiceifyInline l')
/-- Lists of such nodes. -/
inductive CongL (ρ : String → String → Prop) (κ : Bool) : Bool → List Node → List Node → Prop
  | nil (a) : CongL ρ κ a [] []
  | cons {a n n' l l'} : Cong ρ κ a n n' → CongL ρ κ a l l' → CongL ρ κ a (n :: l) (n' :: l')
end

mutual
/-- All rule (or parameter) names used in a node. -/
def Node.names : Node → List String
  | .literal _ | .prelude _ | .ctlRegexp _ => []
  | .rule s as | .unwrap s as | .choiceify s as => s :: Node.namesL as
  | .choice l | .map l | .array l | .group l | .choiceifyInline l => Node.namesL l
  | .keyValue k v _ => k.names ++ v.names
  | .occur _ n | .ctlCbor n => n.names
  | .range a b _ => a.names ++ b.names
  | .ctl _ a b => a.names ++ b.names
/-- All names used in a list of nodes. -/
def Node.namesL : List Node → List String
  | [] => []
  | n :: ns => n.names ++ Node.namesL ns
end

/-- `s` and `s'` are bound at the same position of the parameter lists (the last one counts). -/
def Bound : List String → List String → String → String → Prop
  | p :: ps, p' :: ps', s, s' => Bound ps ps' s s' ∨ (s = p ∧ s' = p' ∧ s ∉ ps ∧ s' ∉ ps')
  | _, _, _, _ => False

/-- Corresponding names inside the bodies of rules with these parameters. -/
def scopeRel (G : String → String → Prop) (ps ps' : List String) (s s' : String) : Prop :=
  Bound ps ps' s s' ∨ (s ∉ ps ∧ s' ∉ ps' ∧ G s s')

/-- Corresponding rule definitions. -/
structure DefRel (G : String → String → Prop) (κ : Bool) (d d' : RuleDef) : Prop where
  arity : d.params.length = d'.params.length
  body : Cong (scopeRel G d.params d'.params) κ false d.node d'.node

/-- Corresponding rule sets: names related by `G` are both missing with the same error or have
corresponding definitions; regular expressions, decoding and float printing are the same. -/
structure EnvRel (G : String → String → Prop) (κ : Bool) (env env' : Env) : Prop where
  look : ∀ s s', G s s' → (∃ e, env.lookup s = .error e ∧ env'.lookup s' = .error e) ∨
    ∃ d d', env.lookup s = .ok d ∧ env'.lookup s' = .ok d' ∧ DefRel G κ d d'
  regex : env.regexMatch = env'.regexMatch
  cbor : env.cborDecode = env'.cborDecode
  fmt : env.fmtF64 = env'.fmtF64

/-- The argument bound to a parameter name in a scope. -/
def Ctx.param : Ctx → String → Option Node
  | .root _, _ => none
  | .frame g _ _, s => gmapFind g s

/-- Corresponding scopes and the correspondence of names in them. -/
inductive CtxRel (G : String → String → Prop) (κ : Bool) : Ctx → Ctx → (String → String → Prop) → Prop
  | root (d : Nat) : CtxRel G κ (.root d) (.root d) G
  /-- two unrelated scopes, restricted to names that are not parameters there -/
  | free {c c' : Ctx} : c.depth = c'.depth →
      CtxRel G κ c c' fun s s' => c.param s = none ∧ c'.param s' = none ∧ G s s'
  | frame {c c' : Ctx} {ρ : String → String → Prop} {ps ps' : List String} {as as' : List Node} (d : Nat) :
      CtxRel G κ c c' ρ → ps.length = as.length → ps'.length = as'.length →
      CongL ρ κ false as as' →
      CtxRel G κ (.frame (ps.zip as) c d) (.frame (ps'.zip as') c' d) (scopeRel G ps ps')

end Cddl
