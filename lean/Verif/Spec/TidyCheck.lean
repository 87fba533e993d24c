import Verif.Spec.Tidy

/-! # Finding out for what the rules of a table are used

Starting with one rule used as a type, the bodies are read again and again to see what they use other rules and their
own parameters for.  Whether the result fits the rules (Spec/Tidy.lean) is then checked. -/

namespace Cddl

/-- A rule, or a parameter of the rule at hand, is used for something; `inside`: inside of an array or map. -/
inductive Need
  | rule (s : String) (u : Purpose) (inside : Bool)
  | param (p : String) (u : Purpose) (inside : Bool)

/-- What using a name for `u` needs; `args`: what its arguments need. -/
def nameNeeds (ps : List String) (i : Bool) (u : Purpose) (s : String) (args : List Need) : List Need :=
  if ps.contains s then [.param s u i] else .rule s u i :: args

/-- The kind of the literal a node stands for, following at most `n` names. -/
def RuleTable.litKind (t : RuleTable) : Nat → Node → Option LitKind
  | _, .literal l => some l.kindOf
  | n + 1, .rule s _ =>
    match t.find s with
    | some d => t.litKind n d.node
    | none => none
  | _, _ => none

mutual

/-- What using the node for `u` needs; `ps`: the parameters of the rule at hand, `params`: what the parameters of
rules are used for, `i`: inside of an array or map. -/
def Node.needs (t : RuleTable) (ps : List String) (params : String → List ParamUse) (i : Bool) (u : Purpose) :
    Node → List Need
  | .rule s as =>
    match u with
    | .unwrapArr | .unwrapMap => []
    | .pickItem => nameNeeds ps i .pick s (Node.needsArgs t ps params i (params s) as)
    | .mpickItem => nameNeeds ps i .mpick s (Node.needsArgs t ps params i (params s) as)
    | u => nameNeeds ps i u s (Node.needsArgs t ps params i (params s) as)
  | .choice os =>
    match u with
    | .type | .pickItem => Node.needsL t ps params i .type os
    | .entry => Node.needsL t ps params i .entry os
    | .member | .mpickItem => Node.needsL t ps params i .member os
    | _ => []
  | .map ms =>
    match u with
    | .type | .entry | .pickItem => Node.needsL t ps params true .member ms
    | .unwrapMap => Node.needsL t ps params i .member ms
    | _ => []
  | .array ms =>
    match u with
    | .type | .entry | .pickItem => Node.needsL t ps params true .entry ms
    | .unwrapArr => Node.needsL t ps params i .entry ms
    | _ => []
  | .group ms =>
    match u with
    | .type | .pickItem => Node.needsL t ps params i .type ms
    | .entry => Node.needsL t ps params i .entry ms
    | .member | .mpickItem => Node.needsL t ps params i .member ms
    | .pick => Node.needsL t ps params i .pickItem ms
    | .mpick => Node.needsL t ps params i .mpickItem ms
    | _ => []
  | .keyValue k v _ =>
    match u with
    | .entry | .pickItem => v.needs t ps params i .type
    | .member => k.needs t ps params i .type ++ v.needs t ps params i .type
    | .mpickItem => v.needs t ps params i .member
    | _ => []
  | .occur _ n =>
    match u with
    | .entry => n.needs t ps params i .entry
    | .member | .mpickItem => n.needs t ps params i .member
    | _ => []
  | .unwrap s as =>
    match u with
    | .entry => nameNeeds ps i .unwrapArr s (Node.needsArgs t ps params i (params s) as)
    | .member | .mpickItem => nameNeeds ps i .unwrapMap s (Node.needsArgs t ps params i (params s) as)
    | _ => []
  | .range a b _ =>
    match u with
    | .type | .entry | .pickItem =>
      let k := match t.litKind 50 a with
        | some k => k
        | none => match t.litKind 50 b with
          | some k => k
          | none => .int
      a.needs t ps params i (.lit k) ++ b.needs t ps params i (.lit k)
    | _ => []
  | .ctl op x a =>
    match u with
    | .type | .entry | .pickItem =>
      if op = .size then a.needs t ps params i .size ++ x.needs t ps params i .sizeTarget
      else a.needs t ps params i .int ++ x.needs t ps params i .intTarget
    | _ => []
  | .ctlCbor n =>
    match u with
    | .type | .entry | .pickItem => n.needs t ps params i .type
    | _ => []
  | .choiceify s as =>
    match u with
    | .type | .entry | .pickItem => nameNeeds ps i .pick s (Node.needsArgs t ps params i (params s) as)
    | .member | .mpickItem => nameNeeds ps i .mpick s (Node.needsArgs t ps params i (params s) as)
    | _ => []
  | .choiceifyInline ms =>
    match u with
    | .type | .entry | .pickItem => Node.needsL t ps params i .pickItem ms
    | .member | .mpickItem => Node.needsL t ps params i .member ms
    | _ => []
  | .literal _ | .prelude _ | .ctlRegexp _ => []

/-- The same for a list. -/
def Node.needsL (t : RuleTable) (ps : List String) (params : String → List ParamUse) (i : Bool) (u : Purpose) :
    List Node → List Need
  | [] => []
  | n :: ns => n.needs t ps params i u ++ Node.needsL t ps params i u ns

/-- The same for arguments. -/
def Node.needsArgs (t : RuleTable) (ps : List String) (params : String → List ParamUse) (i : Bool) :
    List ParamUse → List Node → List Need
  | us :: l, n :: ns => (us.near.flatMap fun u => n.needs t ps params i u) ++
      (us.far.flatMap fun u => n.needs t ps params true u) ++ Node.needsArgs t ps params i l ns
  | _, _ => []

end

/-- What has been found out about one rule. -/
structure RuleUse where
  name : String
  rules : List Purpose
  params : List ParamUse
  rank : Nat
  deriving DecidableEq

/-- What has been found out about a name. -/
def useOf (s : String) : List RuleUse → RuleUse
  | [] => ⟨s, [], [], 0⟩
  | r :: l => if r.name = s then r else useOf s l

/-- Adding without repeating. -/
def addNew (us : List Purpose) : List Purpose → List Purpose
  | [] => us
  | u :: l => if us.contains u then addNew us l else addNew (us ++ [u]) l

/-- What the body of a rule needs. -/
def RuleTable.needsOf (t : RuleTable) (l : List RuleUse) (r : RuleUse) : List Need :=
  match t.find r.name with
  | some d => r.rules.flatMap fun u => d.node.needs t d.params (fun s => (useOf s l).params) false u
  | none => []

/-- The uses of the rule `s` among needs. -/
def ruleNeeds (s : String) : List Need → List Purpose
  | [] => []
  | .rule s' u _ :: l => if s' = s then u :: ruleNeeds s l else ruleNeeds s l
  | .param _ _ _ :: l => ruleNeeds s l

/-- The uses of the parameter `p` among needs. -/
def paramNeeds (p : String) (i : Bool) : List Need → List Purpose
  | [] => []
  | .param p' u i' :: l => if p' = p ∧ i' = i then u :: paramNeeds p i l else paramNeeds p i l
  | .rule _ _ _ :: l => paramNeeds p i l

/-- A number above the ranks of the rules among needs; `near`: only of those outside of arrays and maps. -/
def rankAbove (near : Bool) (l : List RuleUse) : List Need → Nat
  | [] => 0
  | .rule s _ i :: ns => if near && i then rankAbove near l ns else Nat.max ((useOf s l).rank + 1) (rankAbove near l ns)
  | .param _ _ _ :: ns => rankAbove near l ns

/-- One round. -/
def RuleTable.useRound (t : RuleTable) (l : List RuleUse) : List RuleUse :=
  let needs := l.flatMap (t.needsOf l)
  l.map fun r => ⟨r.name, addNew r.rules (ruleNeeds r.name needs),
    match t.find r.name with
    | some d => (d.params.zip r.params).map fun q =>
        let ns := t.needsOf l r
        ⟨addNew q.2.near (paramNeeds q.1 false ns), addNew q.2.far (paramNeeds q.1 true ns)⟩
    | none => r.params, r.rank⟩

/-- One round for the ranks: a rule comes above those it uses. -/
def RuleTable.rankRound (t : RuleTable) (near : Bool) (l : List RuleUse) : List RuleUse :=
  l.map fun r => { r with rank := rankAbove near l (t.needsOf l r) }

/-- Rounds until nothing changes, at most `n`. -/
def settleUse (f : List RuleUse → List RuleUse) : Nat → List RuleUse → List RuleUse
  | 0, l => l
  | n + 1, l => if f l = l then l else settleUse f n (f l)

/-- The start: only `name` is used, as a type. -/
def RuleTable.firstUse (t : RuleTable) (name : String) : List RuleUse :=
  t.map fun p => ⟨p.1, if p.1 = name then [.type] else [],
    match t.find p.1 with | some d => d.params.map fun _ => ⟨[], []⟩ | none => [], 0⟩

/-- The end.  A round that changes something finds one of 18 uses of a rule, or one of 36 of a parameter; a rule with a
rank above 50 counts as recursive. -/
def RuleTable.lastUse (t : RuleTable) (near : Bool) (name : String) : List RuleUse :=
  settleUse (t.rankRound near) 51
    (settleUse t.useRound (36 * (t.length + (t.flatMap fun p => p.2.params).length) + 1) (t.firstUse name))

/-- The plan found.  `levels`: recursion through arrays and maps is allowed, and every rank is below the slack. -/
def RuleTable.plan (t : RuleTable) (levels limit cbor : Bool) (name : String) : Plan :=
  let l := t.lastUse levels name
  { rules := fun s => if (t.find s).isSome then (useOf s l).rules else []
    params := fun s => (useOf s l).params
    rank := fun s => (useOf s l).rank
    slack := if levels then l.foldl (fun k r => Nat.max k (r.rank + 1)) 0 else 0
    limit := limit
    cbor := cbor }

/-- `Plan.Fits` as a test. -/
def Plan.fitsB (J : Plan) (t : RuleTable) : Bool :=
  t.all fun p => (J.rules p.1).all fun u =>
    match t.find p.1 with
    | some d => decide (d.params.length = (J.params p.1).length) && d.node.tidy J (J.place p.1 d) u
    | none => false

/-- The plan fits, and the rule `name` can be used as a type for data of height `h`. -/
def Plan.serves (J : Plan) (t : RuleTable) (name : String) (h : Nat) : Bool :=
  J.fitsB t && (J.rules name).contains .type && (J.limit || decide (J.rank name + J.slack * h ≤ 50)) &&
    match t.find name with
    | some d => d.params.isEmpty
    | none => false

/-- The rule `name` can be used as a type, and everything it leads to is used as it should be.  `limit`: recursion is
allowed; `cbor`: `.cbor` is allowed. -/
def RuleTable.tidy (t : RuleTable) (limit cbor : Bool) (name : String) : Bool :=
  (t.plan false limit cbor name).serves t name 0

/-- The same with recursion only through arrays and maps, and the recursion limit is not reached for data of height
`h`. -/
def RuleTable.tidyAt (t : RuleTable) (name : String) (h : Nat) : Bool :=
  (t.plan true false false name).serves t name h

end Cddl
