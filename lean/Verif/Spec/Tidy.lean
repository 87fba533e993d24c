import Verif.Model.Validate

/-! # Schemas in which every name and operator is used as it should be

What may stand where: for each way in which validation looks at a node, the nodes it can look at without running into
an error of the schema.  Names are judged by a `Plan`, which says for what every rule and every parameter is used. -/

namespace Cddl

/-- The kinds of literals. -/
inductive LitKind
  | bool | int | float | text | bytes
  deriving DecidableEq, Repr

/-- The kind of a literal. -/
def Literal.kindOf : Literal → LitKind
  | .bool _ => .bool
  | .int _ => .int
  | .float _ => .float
  | .text _ => .text
  | .bytes _ => .bytes

/-- For what a node is used. -/
inductive Purpose
  /-- as a type -/
  | type
  /-- as an entry of an array -/
  | entry
  /-- as an entry of a map -/
  | member
  /-- as the group behind `&`, for a type -/
  | pick
  /-- as an alternative of such a group -/
  | pickItem
  /-- as the group behind `&`, for entries of a map -/
  | mpick
  /-- as an alternative of such a group -/
  | mpickItem
  /-- as what `~` takes apart in an array -/
  | unwrapArr
  /-- as what `~` takes apart in a map -/
  | unwrapMap
  /-- as the limit of `.lt`, `.le`, `.gt` or `.ge` -/
  | int
  /-- as the type before these -/
  | intTarget
  /-- as the argument of `.size` -/
  | size
  /-- as the type before `.size` -/
  | sizeTarget
  /-- as the end of a range of literals of this kind -/
  | lit (k : LitKind)
  deriving DecidableEq, Repr

/-- What a parameter is used for: `near` outside of arrays and maps of the body of its rule, `far` inside of them. -/
structure ParamUse where
  near : List Purpose
  far : List Purpose
  deriving DecidableEq, Repr

/-- For what the rules and their parameters are used.  `limit`: the recursion limit may be reached; `cbor`: there may be
`.cbor`.  `rank` orders the rules: outside of arrays and maps a rule uses only rules of smaller rank, and inside of them
also those of rank below `slack`. -/
structure Plan where
  rules : String → List Purpose
  params : String → List ParamUse
  rank : String → Nat
  slack : Nat
  limit : Bool
  cbor : Bool

/-- Where a node stands: the parameters of its rule with what they are used for, the rank below which rules may be used,
and whether it is inside of an array or map of the rule. -/
structure Site where
  params : List (String × ParamUse)
  rank : Nat
  inside : Bool

/-- Going into an array or map. -/
def Site.enter (P : Site) (J : Plan) : Site := ⟨P.params, Nat.max P.rank J.slack, true⟩

/-- The last entry for a parameter. -/
def Site.find (s : String) : List (String × ParamUse) → Option ParamUse
  | [] => none
  | (p, us) :: l =>
    match Site.find s l with
    | some x => some x
    | none => if p = s then some us else none

/-- An integer literal that is a `u64`. -/
def Node.isU64 : Node → Bool
  | .literal (.int i) => decide (0 ≤ i ∧ i ≤ 18446744073709551615)
  | _ => false

/-- The kinds, listed. -/
def LitKind.all : List LitKind := [.bool, .int, .float, .text, .bytes]

/-- A name used for `u`: a parameter used for it, or a rule used for it, with the right number of arguments. -/
def nameTidy (J : Plan) (P : Site) (u : Purpose) (s : String) (args : List Node) (argsOk : Bool) : Bool :=
  match Site.find s P.params with
  | some us => us.near.contains u || (P.inside && us.far.contains u)
  | none => (J.rules s).contains u && (J.limit || decide (J.rank s < P.rank)) &&
      decide ((J.params s).length = args.length) && argsOk

mutual

/-- The node can be used for `u`. -/
def Node.tidy (J : Plan) (P : Site) (u : Purpose) : Node → Bool
  | .literal l =>
    match u with
    | .type | .entry | .pickItem | .unwrapArr | .unwrapMap => true
    | .lit k => decide (l.kindOf = k)
    | .int => decide (l.kindOf = .int)
    | .size => (Node.literal l).isU64
    | _ => false
  | .prelude p =>
    match u with
    | .type | .entry | .pickItem | .unwrapArr | .unwrapMap => true
    | .intTarget => decide (p = .uint ∨ p = .nint ∨ p = .int)
    | .sizeTarget => decide (p = .uint ∨ p = .tstr ∨ p = .bstr)
    | _ => false
  | .rule s as =>
    match u with
    | .unwrapArr | .unwrapMap => true
    | .pickItem => nameTidy J P .pick s as (Node.tidyArgs J P (J.params s) as)
    | .mpickItem => nameTidy J P .mpick s as (Node.tidyArgs J P (J.params s) as)
    | u => nameTidy J P u s as (Node.tidyArgs J P (J.params s) as)
  | .choice os =>
    match u with
    | .type | .pickItem => Node.tidyL J P .type os
    | .entry => Node.tidyL J P .entry os
    | .member | .mpickItem => Node.tidyL J P .member os
    | .unwrapArr | .unwrapMap => true
    | _ => false
  | .map ms =>
    match u with
    | .type | .entry | .pickItem => Node.tidyL J (P.enter J) .member ms
    | .unwrapMap => Node.tidyL J P .member ms
    | .unwrapArr => true
    | _ => false
  | .array ms =>
    match u with
    | .type | .entry | .pickItem => Node.tidyL J (P.enter J) .entry ms
    | .unwrapArr => Node.tidyL J P .entry ms
    | .unwrapMap => true
    | _ => false
  | .group ms =>
    match u with
    | .type | .pickItem => decide (ms.length = 1) && Node.tidyL J P .type ms
    | .entry => Node.tidyL J P .entry ms
    | .member | .mpickItem => Node.tidyL J P .member ms
    | .pick => Node.tidyL J P .pickItem ms
    | .mpick => Node.tidyL J P .mpickItem ms
    | .unwrapArr | .unwrapMap => true
    | _ => false
  | .keyValue k v _ =>
    match u with
    | .entry | .pickItem => v.tidy J P .type
    | .member => k.tidy J P .type && v.tidy J P .type
    | .mpickItem => v.tidy J P .member
    | .unwrapArr | .unwrapMap => true
    | _ => false
  | .occur _ n =>
    match u with
    | .entry => n.tidy J P .entry
    | .member | .mpickItem => n.tidy J P .member
    | .unwrapArr | .unwrapMap => true
    | _ => false
  | .unwrap s as =>
    match u with
    | .entry => nameTidy J P .unwrapArr s as (Node.tidyArgs J P (J.params s) as)
    | .member | .mpickItem => nameTidy J P .unwrapMap s as (Node.tidyArgs J P (J.params s) as)
    | .unwrapArr | .unwrapMap => true
    | _ => false
  | .range a b _ =>
    match u with
    | .type | .entry | .pickItem => LitKind.all.any fun k => a.tidy J P (.lit k) && b.tidy J P (.lit k)
    | .size => a.isU64 && b.isU64
    | .unwrapArr | .unwrapMap => true
    | _ => false
  | .ctl op t a =>
    match u with
    | .type | .entry | .pickItem =>
      if op = .size then a.tidy J P .size && t.tidy J P .sizeTarget else a.tidy J P .int && t.tidy J P .intTarget
    | .unwrapArr | .unwrapMap => true
    | _ => false
  | .ctlRegexp _ =>
    match u with
    | .type | .entry | .pickItem | .unwrapArr | .unwrapMap => true
    | _ => false
  | .ctlCbor n =>
    match u with
    | .type | .entry | .pickItem => J.cbor && (J.limit || decide (J.slack = 0)) && n.tidy J P .type
    | .unwrapArr | .unwrapMap => true
    | _ => false
  | .choiceify s as =>
    match u with
    | .type | .entry | .pickItem => nameTidy J P .pick s as (Node.tidyArgs J P (J.params s) as)
    | .member | .mpickItem => nameTidy J P .mpick s as (Node.tidyArgs J P (J.params s) as)
    | .unwrapArr | .unwrapMap => true
    | _ => false
  | .choiceifyInline ms =>
    match u with
    | .type | .entry | .pickItem => Node.tidyL J P .pickItem ms
    | .member | .mpickItem => Node.tidyL J P .member ms
    | .unwrapArr | .unwrapMap => true
    | _ => false

/-- Every node can be used for `u`. -/
def Node.tidyL (J : Plan) (P : Site) (u : Purpose) : List Node → Bool
  | [] => true
  | n :: ns => n.tidy J P u && Node.tidyL J P u ns

/-- Every argument can be used for what its parameter is used for. -/
def Node.tidyArgs (J : Plan) (P : Site) : List ParamUse → List Node → Bool
  | us :: l, n :: ns => (us.near.all fun u => n.tidy J P u) && (us.far.all fun u => n.tidy J (P.enter J) u) &&
      Node.tidyArgs J P l ns
  | _, _ => true

end

mutual
/-- How deeply arrays and maps are nested. -/
def Value.height : Value → Nat
  | .array l => Value.heightL l + 1
  | .map m => Value.heightM m + 1
  | _ => 0
/-- The largest height of elements. -/
def Value.heightL : List Value → Nat
  | [] => 0
  | v :: l => Nat.max v.height (Value.heightL l)
/-- The largest height of keys and values. -/
def Value.heightM : List (Value × Value) → Nat
  | [] => 0
  | (k, v) :: l => Nat.max (Nat.max k.height v.height) (Value.heightM l)
end

/-- Where the body of a rule stands. -/
def Plan.place (J : Plan) (s : String) (d : RuleDef) : Site := ⟨d.params.zip (J.params s), J.rank s, false⟩

/-- The plan fits the rules: whatever a rule is used for, there is such a rule, with so many parameters, and its body
can be used for it. -/
def Plan.Fits (J : Plan) (env : Env) : Prop :=
  ∀ s u, u ∈ J.rules s → ∃ d, env.lookup s = .ok d ∧ d.params.length = (J.params s).length ∧
    d.node.tidy J (J.place s d) u = true

end Cddl
