import Verif.Spec.WriteOut

/-! # A schema without generic rules

Each use of a generic rule is replaced by the body of the rule, with the arguments in place of the parameters. -/

namespace Cddl

/-- Apply a function to all elements; it must be defined for all of them. -/
def optAll {α β : Type} (f : α → Option β) : List α → Option (List β)
  | [] => some []
  | a :: l => (f a).bind fun b => (optAll f l).map (b :: ·)

/-- A name that is not generic, and one of `C`; or not defined. -/
def RuleTable.keeps (t : RuleTable) (C : List String) (s : String) : Bool :=
  match t.find s with
  | none => true
  | some d => d.params.isEmpty && C.contains s

/-- The argument may be used as a key. -/
def keyArg (ps : List (String × Node)) (F : List String) : Node → Bool
  | .literal _ => false
  | .rule s _ => F.contains s && (argFor ps s).isSome
  | n => n.names.isEmpty

/-- The parameters whose arguments may be used as keys. -/
def keyParams (ps : List (String × Node)) (F : List String) (g : List (String × Node)) (params : List String) : List String :=
  params.filter fun s => match argFor g s with
    | some a => keyArg ps F a
    | none => false

/-- A key without names, or a parameter that may be used as a key. -/
def keyOut (ps : List (String × Node)) (F : List String) (k : Node) : Option Node :=
  if k.names.isEmpty then some k
  else match k with
    | .rule s _ => if F.contains s then argFor ps s else none
    | _ => none

/-- An entry of a group behind `&`: a name that is kept, or something else. -/
def RuleTable.memberKeeps (t : RuleTable) (C : List String) (ps : List (String × Node)) : Node → Bool
  | .rule s _ => (argFor ps s).isNone && t.keeps C s
  | _ => true

/-- Replace parameters by what they stand for (`ps`) and uses of generic rules by their bodies.  Undefined where a name
not in `C` stands behind `&` or one not in `D` behind `~`, where generic rules are recursive (not done in `k` steps), and
where a key has names other than a parameter that stands for a type. -/
def RuleTable.expandNode (t : RuleTable) (C D : List String) :
    Nat → List (String × Node) → List String → Node → Option Node
  | 0, _, _, _ => none
  | k + 1, ps, F, n =>
    match n with
    | .literal l => some (.literal l)
    | .prelude p => some (.prelude p)
    | .ctlRegexp p => some (.ctlRegexp p)
    | .rule s as =>
      match argFor ps s with
      | some a => some a
      | none => (optAll (t.expandNode C D k ps F) as).bind fun as' =>
        match t.find s with
        | none => some (.rule s as')
        | some d =>
          if d.params.isEmpty then some (.rule s as')
          else if d.params.length = as.length then
            t.expandNode C D k (d.params.zip as') (keyParams ps F (d.params.zip as) d.params) d.node
          else none
    | .choice l => (optAll (t.expandNode C D k ps F) l).map .choice
    | .map l => (optAll (t.expandNode C D k ps F) l).map .map
    | .array l => (optAll (t.expandNode C D k ps F) l).map .array
    | .group l => (optAll (t.expandNode C D k ps F) l).map .group
    | .keyValue key v x => (keyOut ps F key).bind fun key' => (t.expandNode C D k ps F v).map (.keyValue key' · x)
    | .occur o n => (t.expandNode C D k ps F n).map (.occur o)
    | .unwrap s as =>
      if (argFor ps s).isNone && t.keeps D s then (optAll (t.expandNode C D k ps F) as).map (.unwrap s) else none
    | .range a b i => (t.expandNode C D k ps F a).bind fun a' => (t.expandNode C D k ps F b).map (.range a' · i)
    | .ctl o a b => (t.expandNode C D k ps F a).bind fun a' => (t.expandNode C D k ps F b).map (.ctl o a')
    | .ctlCbor n => (t.expandNode C D k ps F n).map .ctlCbor
    | .choiceify s as =>
      if (argFor ps s).isNone && t.keeps C s then (optAll (t.expandNode C D k ps F) as).map (.choiceify s) else none
    | .choiceifyInline l =>
      if l.all (t.memberKeeps C ps) then (optAll (t.expandNode C D k ps F) l).map .choiceifyInline else none

/-- The names of `C` may stand behind `&`, those of `D` behind `~`. -/
def RuleTable.usesFit (t : RuleTable) (C D : List String) : Bool :=
  (C.all fun s => match t.find s with
    | some ⟨_, .group l⟩ => l.all (t.memberKeeps C [])
    | some ⟨_, .rule s' _⟩ => t.keeps C s'
    | _ => true) &&
  D.all fun s => match t.find s with
    | some ⟨_, .rule _ _⟩ => false
    | _ => true

/-- The schema without its generic rules. -/
def RuleTable.expand (t : RuleTable) (C D : List String) (k : Nat) : Option RuleTable :=
  if t.usesFit C D then
    optAll (fun p => (t.expandNode C D k [] [] p.2.node).map fun n => (p.1, ⟨[], n⟩))
      (t.filter fun p => p.2.params.isEmpty && (t.find p.1).any fun d => d.params.isEmpty)
  else none

end Cddl
