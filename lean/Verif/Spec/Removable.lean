import Verif.Spec.Expand

/-! # Schemas whose generic rules are not recursive -/

namespace Cddl

/-- The argument is a type without names, or a parameter that may be used as a key. -/
def keyFit (F : List String) : Node → Bool
  | .literal _ => false
  | .rule s _ => F.contains s
  | n => n.names.isEmpty

/-- The name is that of a generic rule. -/
def RuleTable.isGeneric (t : RuleTable) (s : String) : Bool := (t.find s).any fun d => !d.params.isEmpty

mutual
/-- What is asked of a part of a rule with the parameters `q`, those of `F` being used as keys: generic rules have as many
arguments as parameters, and types for the parameters `P` that they use as keys; keys have no names but those of `F`; what
stands behind `&` and `~` is the name of a rule of `C`, respectively `D`, or of none. -/
def RuleTable.fits (t : RuleTable) (C D : List String) (P : String → List String) (q F : List String) : Node → Bool
  | .literal _ | .prelude _ | .ctlRegexp _ => true
  | .rule s as => t.fitsL C D P q F as && (q.contains s || match t.find s with
      | none => true
      | some d => d.params.isEmpty || (decide (d.params.length = as.length) &&
          (P s).all fun p => (argFor (d.params.zip as) p).any (keyFit F)))
  | .choice l | .map l | .array l | .group l => t.fitsL C D P q F l
  | .keyValue k v _ => (k.names.isEmpty || match k with
      | .rule s _ => F.contains s
      | _ => false) && t.fits C D P q F v
  | .occur _ n | .ctlCbor n => t.fits C D P q F n
  | .range a b _ => t.fits C D P q F a && t.fits C D P q F b
  | .ctl _ a b => t.fits C D P q F a && t.fits C D P q F b
  | .unwrap s as => !q.contains s && t.keeps D s && t.fitsL C D P q F as
  | .choiceify s as => !q.contains s && t.keeps C s && t.fitsL C D P q F as
  | .choiceifyInline l => (l.all fun n => match n with
      | .rule s _ => !q.contains s && t.keeps C s
      | _ => true) && t.fitsL C D P q F l
/-- Lists of nodes. -/
def RuleTable.fitsL (t : RuleTable) (C D : List String) (P : String → List String) (q F : List String) : List Node → Bool
  | [] => true
  | n :: l => t.fits C D P q F n && t.fitsL C D P q F l
end

/-- The generic rules are not recursive: each uses only generic rules of a lower rank. -/
structure RuleTable.Ranked (t : RuleTable) (C D : List String) (P : String → List String) (rank : String → Nat) : Prop where
  uses : t.usesFit C D = true
  plain : ∀ p ∈ t, p.2.params = [] → t.fits C D P [] [] p.2.node = true
  generic : ∀ p ∈ t, p.2.params ≠ [] → t.fits C D P p.2.params (P p.1) p.2.node = true
  lower : ∀ p ∈ t, p.2.params ≠ [] → ∀ s ∈ p.2.node.names, s ∉ p.2.params → t.isGeneric s = true → rank s < rank p.1

end Cddl
