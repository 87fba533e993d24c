import Verif.Spec.Rollback

/-! # Deciding whether whatever a schema tries can be undone

A judgement (Spec/Rollback.lean) for the rules of a table is computed by starting from the best one and looking at
the bodies again and again.  Whether the result agrees with the rules is then checked. -/

namespace Cddl

/-- What is assumed of one rule name. -/
structure RuleKind where
  type : Bool
  alt : Bool
  item : Kind
  member : Kind
  unwrapItem : Kind
  unwrapMember : Kind
  deriving DecidableEq

/-- Everything. -/
def Kind.all : Kind := ⟨true, true, true, true⟩

/-- The last entry for a name; for names without an entry (parameters) what arguments promise. -/
def kindOf (s : String) : List (String × RuleKind) → RuleKind
  | [] => ⟨true, false, .single true, .single true, .none, .none⟩
  | (n, k) :: l => if n = s ∧ (∀ p ∈ l, p.1 ≠ s) then k else kindOf s l

/-- The judgement of a list of entries. -/
def judgementOf (l : List (String × RuleKind)) : Judgement where
  type s := (kindOf s l).type
  alt s := (kindOf s l).alt
  entry p s := match p with
    | .item => (kindOf s l).item
    | .member => (kindOf s l).member
  unwrap p s := match p with
    | .item => (kindOf s l).unwrapItem
    | .member => (kindOf s l).unwrapMember

/-- What the body of a rule allows to assume, given a judgement; `isParam`: the name is also a parameter. -/
def kindFrom (J : Judgement) (isParam : Bool) (d : RuleDef) : RuleKind where
  type := d.node.typeOk J
  alt := !isParam && match d.node with
    | .group ms => Node.altsOk J ms
    | .rule s' as => J.alt s' && Node.argsOk J as
    | _ => true
  item := d.node.kind J .item
  member := d.node.kind J .member
  unwrapItem := if isParam then .none else match d.node with
    | .array ms => .seq (Node.kinds J .item ms)
    | _ => .all
  unwrapMember := if isParam then .none else match d.node with
    | .map ms => .seq (Node.kinds J .member ms)
    | _ => .all

/-- All parameter names of a table. -/
def RuleTable.params (t : RuleTable) : List String := t.flatMap fun p => p.2.params

/-- One round. -/
def refineKinds (t : RuleTable) (l : List (String × RuleKind)) : List (String × RuleKind) :=
  t.map fun p => (p.1, kindFrom (judgementOf l) (t.params.contains p.1) p.2)

/-- The best assumptions. -/
def bestKinds (t : RuleTable) : List (String × RuleKind) :=
  t.map fun p => if t.params.contains p.1 then (p.1, ⟨true, false, .all, .all, .none, .none⟩)
    else (p.1, ⟨true, true, .all, .all, .all, .all⟩)

/-- Rounds until nothing changes, at most `n`. -/
def settleKinds (t : RuleTable) : Nat → List (String × RuleKind) → List (String × RuleKind)
  | 0, l => l
  | n + 1, l => if refineKinds t l = l then l else settleKinds t n (refineKinds t l)

/-- The computed judgement.  A round that changes something takes one of at most 18 promises from some rule. -/
def RuleTable.judgement (t : RuleTable) : Judgement := judgementOf (settleKinds t (18 * t.length + 1) (bestKinds t))

/-- `Kind.le` as a test. -/
def Kind.leB (k k' : Kind) : Bool :=
  (!k.sound || k'.sound) && (!k.logged || k'.logged) && (!k.atomic || k'.atomic) && (!k.uncut || k'.uncut)

/-- `Judgement.AgreesAt` as a test. -/
def Judgement.agreesAtB (J : Judgement) (s : String) (d : RuleDef) : Bool :=
  (!J.type s || d.node.typeOk J) &&
  (!J.alt s || match d.node with
    | .group ms => Node.altsOk J ms
    | .rule s' as => J.alt s' && Node.argsOk J as
    | _ => true) &&
  (J.entry .item s).leB (d.node.kind J .item) && (J.entry .member s).leB (d.node.kind J .member) &&
  (match d.node with | .array ms => (J.unwrap .item s).leB (.seq (Node.kinds J .item ms)) | _ => true) &&
  (match d.node with | .map ms => (J.unwrap .member s).leB (.seq (Node.kinds J .member ms)) | _ => true) &&
  d.params.all fun q => !J.alt q && J.unwrap .item q == .none && J.unwrap .member q == .none

/-- Whatever the rule `name` of the table tries can be undone. -/
def RuleTable.undoable (t : RuleTable) (name : String) : Bool :=
  (t.all fun p => match t.find p.1 with | some d => t.judgement.agreesAtB p.1 d | none => true) &&
    match t.find name with | some d => d.node.typeOk t.judgement | none => false

end Cddl
