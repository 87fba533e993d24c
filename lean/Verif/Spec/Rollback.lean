import Verif.Model.Validate

/-! # Schemas whose speculative matching can be undone

The validator tries the options of a group choice, and the entries under an occurrence indicator, on a working copy
of the data.  The following conditions on a schema are read off its text.  They say that whatever is tried and
fails can be undone.  A rule name is judged by what a given assignment (`Judgement`) says of it; the assignment
has to agree with the rules (`Judgement.Agrees`). -/

namespace Cddl

/-- Entry of an array or of a map. -/
inductive Place
  | item | member
  deriving DecidableEq

/-- What is known of an entry.  `sound`: everything tried inside it can be undone.  `logged`: what it takes is
noted for the enclosing group.  `atomic`: if it fails it takes nothing.  `uncut`: it does not fail with a cut. -/
structure Kind where
  sound : Bool
  logged : Bool
  atomic : Bool
  uncut : Bool
  deriving DecidableEq

namespace Kind

/-- Entries that take at most one element, and only on success. -/
def single (sound : Bool) : Kind := ⟨sound, true, true, true⟩

/-- Nothing known. -/
def none : Kind := ⟨false, false, false, false⟩

/-- A choice: all options but the last are atomic. -/
def choice (ks : List Kind) : Kind :=
  ⟨ks.all sound && ks.dropLast.all atomic, ks.all logged, ks.all atomic, ks.all uncut⟩

/-- A group, which undoes what its entries log when it fails, and logs nothing itself. -/
def group (ks : List Kind) : Kind :=
  ⟨ks.all sound, false,
    ks.dropLast.all logged && (match ks.getLast? with | some k => k.logged || k.atomic | Option.none => true), true⟩

/-- Several entries in a row. -/
def seq (ks : List Kind) : Kind := ⟨ks.all sound, ks.all logged, false, ks.all uncut⟩

/-- An occurrence. -/
def occur (o : OccurLimit) (k : Kind) : Kind :=
  ⟨k.sound && k.atomic && decide (1 ≤ o.limits.2), k.logged,
    k.atomic && decide (o.limits.1 ≤ 1) && (decide (o.limits.2 ≤ 1) || k.uncut), k.uncut⟩

/-- `k` promises at most what `k'` has. -/
def le (k k' : Kind) : Prop :=
  (k.sound = true → k'.sound = true) ∧ (k.logged = true → k'.logged = true) ∧
  (k.atomic = true → k'.atomic = true) ∧ (k.uncut = true → k'.uncut = true)

end Kind

/-- What is assumed of rule names: as a type, after `&`, as an entry, after `~`. -/
structure Judgement where
  type : String → Bool
  alt : String → Bool
  entry : Place → String → Kind
  unwrap : Place → String → Kind

mutual
/-- The type is sound. -/
def Node.typeOk (J : Judgement) : Node → Bool
  | .literal _ | .prelude _ | .ctlRegexp _ | .range .. | .ctl .. | .keyValue .. | .occur .. | .unwrap .. => true
  | .choice l | .group l => Node.typesOk J l
  | .map l => (Node.kinds J .member l).all Kind.sound
  | .array l => (Node.kinds J .item l).all Kind.sound
  | .rule s as => J.type s && Node.argsOk J as
  | .ctlCbor n => n.typeOk J
  | .choiceify s as => J.alt s && Node.argsOk J as
  | .choiceifyInline l => Node.altsOk J l
/-- All types are sound. -/
def Node.typesOk (J : Judgement) : List Node → Bool
  | [] => true
  | n :: ns => n.typeOk J && Node.typesOk J ns
/-- The alternative made of a group member is sound. -/
def Node.altOk (J : Judgement) : Node → Bool
  | .literal _ | .prelude _ | .ctlRegexp _ | .range .. | .ctl .. | .occur .. | .unwrap .. => true
  | .keyValue _ t _ => t.typeOk J
  | .choice l | .group l => Node.typesOk J l
  | .map l => (Node.kinds J .member l).all Kind.sound
  | .array l => (Node.kinds J .item l).all Kind.sound
  | .rule s as => J.alt s && Node.argsOk J as
  | .ctlCbor n => n.typeOk J
  | .choiceify s as => J.alt s && Node.argsOk J as
  | .choiceifyInline l => Node.altsOk J l
/-- All alternatives are sound. -/
def Node.altsOk (J : Judgement) : List Node → Bool
  | [] => true
  | n :: ns => n.altOk J && Node.altsOk J ns
/-- Generic arguments are sound and atomic wherever they are used. -/
def Node.argsOk (J : Judgement) : List Node → Bool
  | [] => true
  | n :: ns => n.typeOk J && n.kind J .item == Kind.single true && n.kind J .member == Kind.single true &&
      Node.argsOk J ns
/-- What is known of an entry. -/
def Node.kind (J : Judgement) (p : Place) : Node → Kind
  | .literal _ | .prelude _ | .ctlRegexp _ | .range .. | .ctl .. => .single true
  | .map l => .single (p == .member || (Node.kinds J .member l).all Kind.sound)
  | .array l => .single (p == .member || (Node.kinds J .item l).all Kind.sound)
  | .ctlCbor n => .single (p == .member || n.typeOk J)
  | .choiceify s as => if p = .item then .single (J.alt s && Node.argsOk J as) else .none
  | .choiceifyInline l => if p = .item then .single (Node.altsOk J l) else .none
  | .keyValue k t cut => ⟨t.typeOk J && (p == .item || k.typeOk J), true, true, p == .item || !cut⟩
  | .rule s as => if Node.argsOk J as then J.entry p s else .none
  | .unwrap s as => if Node.argsOk J as then { J.unwrap p s with atomic := false } else .none
  | .choice l => .choice (Node.kinds J p l)
  | .group l => .group (Node.kinds J p l)
  | .occur o n => .occur o (n.kind J p)
/-- What is known of the entries of a list. -/
def Node.kinds (J : Judgement) (p : Place) : List Node → List Kind
  | [] => []
  | n :: ns => n.kind J p :: Node.kinds J p ns
end

/-- The body of a rule is as good as assumed of its name. -/
structure Judgement.AgreesAt (J : Judgement) (s : String) (d : RuleDef) : Prop where
  type : J.type s = true → d.node.typeOk J = true
  alt : J.alt s = true → match d.node with
    | .group ms => Node.altsOk J ms = true
    | .rule s' as => (J.alt s' && Node.argsOk J as) = true
    | _ => True
  entry : ∀ p, (J.entry p s).le (d.node.kind J p)
  unwrapArray : ∀ ms, d.node = .array ms → (J.unwrap .item s).le (.seq (Node.kinds J .item ms))
  unwrapMap : ∀ ms, d.node = .map ms → (J.unwrap .member s).le (.seq (Node.kinds J .member ms))
  /-- nothing is assumed of `&T` and `~T` for a parameter `T` -/
  params : ∀ q ∈ d.params, J.alt q = false ∧ J.unwrap .item q = .none ∧ J.unwrap .member q = .none

/-- The assumptions agree with all rules. -/
def Judgement.Agrees (J : Judgement) (env : Env) : Prop := ∀ s d, env.lookup s = .ok d → J.AgreesAt s d

end Cddl
