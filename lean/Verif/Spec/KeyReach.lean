import Verif.Spec.WriteOut

/-! # What the keys of maps lead to -/

namespace Cddl

/-- The names of the key are of `S`, or the key is a parameter of `F`. -/
def KeyName (S : String → Prop) (F : List String) (k : Node) : Prop :=
  (∀ s ∈ k.names, S s) ∨ ∃ s as, k = .rule s as ∧ s ∈ F

mutual
/-- In a rule whose parameters `F` may be keys: the keys are types with names of `S` only, or such parameters; and so are the
arguments for the parameters `P` of other rules. -/
def Node.KeysReach (look : String → Except Err RuleDef) (S : String → Prop) (P : String → List String) (F : List String) :
    Node → Prop
  | .literal _ | .prelude _ | .ctlRegexp _ => True
  | .rule s as | .unwrap s as | .choiceify s as => Node.KeysReachL look S P F as ∧
      ∀ d, look s = .ok d → d.params.length = as.length →
        ∀ p ∈ P s, ∃ a, argFor (d.params.zip as) p = some a ∧ KeyName S F a
  | .choice l | .map l | .array l | .group l | .choiceifyInline l => Node.KeysReachL look S P F l
  | .keyValue k v _ => KeyName S F k ∧ v.KeysReach look S P F
  | .occur _ n | .ctlCbor n => n.KeysReach look S P F
  | .range a b _ => a.KeysReach look S P F ∧ b.KeysReach look S P F
  | .ctl _ a b => a.KeysReach look S P F ∧ b.KeysReach look S P F
/-- The same for all nodes of a list. -/
def Node.KeysReachL (look : String → Except Err RuleDef) (S : String → Prop) (P : String → List String) (F : List String) :
    List Node → Prop
  | [] => True
  | n :: ns => n.KeysReach look S P F ∧ Node.KeysReachL look S P F ns
end

/-- The keys in the rules lead to rules of `S` only: `S` contains with a rule all that it names, and no parameter is called
like a rule of `S`. -/
structure KeysLead (look : String → Except Err RuleDef) (S : String → Prop) (P : String → List String) : Prop where
  closed : ∀ s d, S s → look s = .ok d → ∀ t ∈ d.node.names, t ∉ d.params → S t
  params : ∀ s d, look s = .ok d → ∀ p ∈ d.params, ¬ S p
  rules : ∀ s d, look s = .ok d → d.node.KeysReach look S P (P s)

end Cddl
