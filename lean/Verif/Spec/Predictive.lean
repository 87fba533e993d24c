import Verif.Spec.Predict
import Verif.Spec.Undoable

/-! # A test for schemas that can be matched without second thoughts

The assumptions of Spec/Predict.lean are computed from the rules: start with the best of each rule, and replace it by
what the bodies of the rules give, until the assumptions agree with the rules. -/

namespace Cddl

/-- What is known of a parameter, or of a name without rule: it may stand for anything but a group. -/
def Facts.open : Facts :=
  ⟨true, none, false, ⟨true, none, false, .never, true⟩, ⟨false, none, true, none, false⟩, ⟨false, none, true, false, false, none, none⟩,
    ⟨false, none, true, false, false, none, none⟩⟩

/-- The best that can be said of a rule: that it describes nothing. -/
def Facts.best : Facts :=
  ⟨true, .never, true, ⟨true, .never, false, .never, true⟩, ⟨true, .never, false, .never, true⟩,
    ⟨true, .never, false, false, true, .never, .never⟩, ⟨true, .never, false, false, true, .never, .never⟩⟩

/-- The assumptions made by a list. -/
def forecastOf (l : List (String × Facts)) : Forecast := fun s =>
  match l.find? fun p => p.1 == s with
  | some p => p.2
  | none => .open

/-- The alternatives of a rule after `&` are clear. -/
def RuleDef.altClear (J : Forecast) (d : RuleDef) : Bool :=
  match d.node with
  | .group ms => Node.clearAlts J ms
  | .rule s as => (J s).alt && Node.clearArgs J as
  | _ => true

/-- What the body of a rule gives.  A rule with the name of a parameter (of any rule) is kept open. -/
def factsFrom (J : Forecast) (isParam : Bool) (d : RuleDef) : Facts where
  type := d.node.clear J
  look := if isParam then none else d.node.look J
  alt := !isParam && d.altClear J
  entry := if isParam then { d.node.entry J with first := none } else d.node.entry J
  unwrapEntry := if isParam then Facts.open.unwrapEntry else match d.node with
    | .array ms => .seq (Node.entries J ms)
    | _ => Facts.best.unwrapEntry
  member := if isParam then Facts.open.member else { d.node.member J with leaf := false }
  unwrapMember := if isParam then Facts.open.unwrapMember else match d.node with
    | .map ms => .seq (Node.members J ms)
    | _ => Facts.best.unwrapMember

/-- One round. -/
def refineFacts (t : RuleTable) (l : List (String × Facts)) : List (String × Facts) :=
  t.map fun p => (p.1, factsFrom (forecastOf l) (t.params.contains p.1) p.2)

/-- `Forecast.AgreesAt` as a test. -/
def Forecast.agreesAtB (J : Forecast) (s : String) (d : RuleDef) : Bool :=
  (!(J s).type || (d.node.clear J && (d.node.look J).within (J s).look)) &&
  (!(J s).alt || d.altClear J) &&
  (!(J s).entry.ok || (d.node.entry J).le (J s).entry) &&
  (!(J s).unwrapEntry.ok || match d.node with
    | .array ms => (ItemFacts.seq (Node.entries J ms)).le (J s).unwrapEntry
    | _ => true) &&
  (!(J s).member.ok || (d.node.member J).le (J s).member) &&
  (!(J s).unwrapMember.ok || match d.node with
    | .map ms => (MemberFacts.seq (Node.members J ms)).le (J s).unwrapMember
    | _ => true) &&
  d.params.all fun q => (J q).look == none && (J q).entry.first == none && !(J q).alt && !(J q).unwrapEntry.ok &&
    !(J q).member.ok && !(J q).unwrapMember.ok

/-- The assumptions agree with all rules in use. -/
def Forecast.agreesB (J : Forecast) (t : RuleTable) : Bool :=
  t.all fun p => match t.find p.1 with | some d => J.agreesAtB p.1 d | none => true

/-- Rounds until the assumptions agree with the rules, at most `n`. -/
def settleFacts (t : RuleTable) : Nat → List (String × Facts) → List (String × Facts)
  | 0, l => l
  | n + 1, l => if (forecastOf l).agreesB t then l else settleFacts t n (refineFacts t l)

/-- The computed assumptions. -/
def RuleTable.forecast (t : RuleTable) : Forecast :=
  forecastOf (settleFacts t (100 * t.length + 100)
    (t.map fun p => (p.1, if t.params.contains p.1 then Facts.open else Facts.best)))

/-- Under the rule `name` of the table the next element, or the keys, always decide.  (If the rounds run out the
answer is no.) -/
def RuleTable.decisive (t : RuleTable) (name : String) : Bool :=
  t.forecast.agreesB t && match t.find name with | some d => d.node.clear t.forecast | none => false

mutual
/-- Types without names. -/
def Node.plainKey : Node → Bool
  | .literal _ | .prelude _ | .ctlRegexp _ => true
  | .choice l => Node.plainKeys l
  | _ => false
/-- All of them. -/
def Node.plainKeys : List Node → Bool
  | [] => true
  | n :: ns => n.plainKey && Node.plainKeys ns
end

mutual
/-- The keys of maps use no names, so that looking for a key cannot fail. -/
def Node.plainKeyed : Node → Bool
  | .literal _ | .prelude _ | .ctlRegexp _ | .range .. | .ctl .. => true
  | .choice l | .group l | .map l | .array l | .choiceifyInline l => Node.plainKeyedL l
  | .rule _ as | .unwrap _ as | .choiceify _ as => Node.plainKeyedL as
  | .keyValue k t _ => k.plainKey && t.plainKeyed
  | .occur _ n | .ctlCbor n => n.plainKeyed
/-- In all of them. -/
def Node.plainKeyedL : List Node → Bool
  | [] => true
  | n :: ns => n.plainKeyed && Node.plainKeyedL ns
end

/-- The same, and the keys of maps use no names: errors met while looking for a key are passed over, and near the
recursion limit every name is an error. -/
def RuleTable.predictive (t : RuleTable) (name : String) : Bool :=
  t.decisive name && t.all fun p => p.2.node.plainKeyed

end Cddl
