import Verif.Model.Ast

/-!
# Flattening

Models /repo/src/flatten.rs.  A Rust panic is the outcome `Res.panic`; the outcome `Res.fuel` is never
produced here.
-/

namespace Cddl

open Ast (Ty1 Ty2 MemberKeyVal GrpEntVal GrpEnt RuleVal)

/-- `Iterator::map(f).collect::<Result<Vec<_>, _>>()`: results in order, stopping at the first error. -/
def collectRes {α β : Type} (f : α → Res β) : List α → Res (List β)
  | [] => .ok []
  | a :: as => (f a).bind fun b => (collectRes f as).bind fun bs => .ok (b :: bs)

/-- `num_to_i128`, /repo/src/flatten.rs:586-596. -/
def numToI128 (n : Int) : Res Int :=
  if -170141183460469231731687303715884105728 ≤ n ∧ n ≤ 170141183460469231731687303715884105727 then .ok n
  else .err (.structural ("integer conversion failed: " ++ toString n))

/-- `flatten_value`, /repo/src/flatten.rs:327-341 (`literal_text` etc. are /repo/src/ivt.rs:100-124). -/
def flattenValue : Ast.Value → Res Node
  | .text s => .ok (.literal (.text s))
  | .uint u => (numToI128 u).bind fun v => .ok (.literal (.int v))
  | .nint n => (numToI128 n).bind fun v => .ok (.literal (.int v))
  | .float f => .ok (.literal (.float f))
  | .bytes b => .ok (.literal (.bytes b))

/-- `flatten_typename`, /repo/src/flatten.rs:357-437. -/
def flattenTypename (name : String) : Res Node :=
  if name = "any" then .ok (.prelude .any)
  else if name = "nil" ∨ name = "null" then .ok (.prelude .nil)
  else if name = "bool" then .ok (.prelude .bool)
  else if name = "false" then .ok (.literal (.bool false))
  else if name = "true" then .ok (.literal (.bool true))
  else if name = "int" then .ok (.prelude .int)
  else if name = "uint" then .ok (.prelude .uint)
  else if name = "nint" then .ok (.prelude .nint)
  else if name = "float" then .ok (.prelude .float)
  else if name = "tstr" ∨ name = "text" then .ok (.prelude .tstr)
  else if name = "bstr" ∨ name = "bytes" then .ok (.prelude .bstr)
  else if name = "float16" ∨ name = "float32" ∨ name = "float64" ∨ name = "float16-32" ∨
    name = "float32-64" then .ok (.prelude .float)
  else if name = "tdate" ∨ name = "uri" ∨ name = "b64url" ∨ name = "b64legacy" ∨ name = "regexp" ∨
    name = "mime-message" then .ok (.prelude .tstr)
  else if name = "biguint" ∨ name = "bignint" ∨ name = "encoded-cbor" then .ok (.prelude .bstr)
  else if name = "eb64url" ∨ name = "eb64legacy" ∨ name = "eb16" ∨ name = "cbor-any" then
    .ok (.prelude .any)
  else if name = "time" then .err (.unsupported ("prelude type '" ++ name ++ "'"))
  else if name = "bigint" ∨ name = "integer" ∨ name = "unsigned" ∨ name = "number" then
    .err (.unsupported ("prelude type '" ++ name ++ "'"))
  else if name = "decfrac" ∨ name = "bigfloat" ∨ name = "undefined" then
    .err (.unsupported ("prelude type '" ++ name ++ "'"))
  else .ok (.rule name [])

/-- The end of `flatten_type`, /repo/src/flatten.rs:81-87, on the flattened options.  The `unwrap()` of
`next()` is the panic. -/
def typeOfOptions (options : List Node) : Res Node :=
  if options.length = 0 then .err (.unsupported "flatten type with 0 options")
  else if options.length = 1 then
    match options with
    | n :: _ => .ok n
    | [] => .panic
  else .ok (.choice options)

/-- The checks of `range_point`, /repo/src/flatten.rs:307-312, on the flattened point. -/
def rangePointCheck : Node → Res Node
  | .rule name args => .ok (.rule name args)
  | .literal l => .ok (.literal l)
  | _ => .err (.structural "bad type on range operator")

/-- The end of `flatten_name_generic`, /repo/src/flatten.rs:456-473.  `args` flattens the arguments (called
only in the `Rule` case), `noArgs` is `generic_args.is_empty()`.  A `Rule` made by `flatten_typename` has no
arguments, so pushing the flattened ones makes them its arguments. -/
def nameGeneric (node : Node) (args : Res (List Node)) (noArgs : Bool) : Res Node :=
  match node with
  | .rule name old => args.bind fun as => .ok (.rule name (old ++ as))
  | node => if noArgs = false then .err .genericError else .ok node

/-- `flatten_rule_generic`, /repo/src/flatten.rs:445-451, on the result of `flatten_name_generic`. -/
def ruleGeneric : Res Node → Res (String × List Node)
  | .ok (.rule name args) => .ok (name, args)
  | .panic => .panic
  | .fuel => .fuel
  | _ => .err .genericError

/-- `occur_wrap`, /repo/src/flatten.rs:566-571. -/
def occurWrap (occur : Option OccurLimit) (node : Node) : Node :=
  match occur with
  | some o => .occur o node
  | none => node

/-- `flatten_control` and the functions it calls, /repo/src/flatten.rs:110-289, on the flattened target and
argument (each function flattens both, target first, before it checks anything).  `regexOk` stands for
`RegexBuilder::new(re).size_limit(1 << 20).build()` being `Ok` (l.260-263); the compiled regex is represented
by its text. -/
def controlOf (regexOk : String → Bool) (op : String) (target arg : Node) : Res Node :=
  if op = "size" then
    match arg with
    | .literal (.int _) => .ok (.ctl .size target arg)
    | .range .. => .ok (.ctl .size target arg)
    | .rule .. => .ok (.ctl .size target arg)
    | _ => .err (.unsupported ".size limit type")
  else if op = "lt" then
    match arg with
    | .literal (.int _) => .ok (.ctl .lt target arg)
    | .rule .. => .ok (.ctl .lt target arg)
    | _ => .err (.unsupported ".lt limit type")
  else if op = "le" then
    match arg with
    | .literal (.int _) => .ok (.ctl .le target arg)
    | .rule .. => .ok (.ctl .le target arg)
    | _ => .err (.unsupported ".le limit type")
  else if op = "gt" then
    match arg with
    | .literal (.int _) => .ok (.ctl .gt target arg)
    | .rule .. => .ok (.ctl .gt target arg)
    | _ => .err (.unsupported ".gt limit type")
  else if op = "ge" then
    match arg with
    | .literal (.int _) => .ok (.ctl .ge target arg)
    | .rule .. => .ok (.ctl .ge target arg)
    | _ => .err (.unsupported ".ge limit type")
  else if op = "regexp" then
    match target with
    | .prelude .tstr =>
      match arg with
      | .literal (.text re) =>
        if regexOk re then .ok (.ctlRegexp re) else .err (.structural "malformed regexp")
      | _ => .err (.structural "improper regexp type")
    | _ => .err (.structural "bad regexp target type")
  else
    match target with
    | .prelude .bstr => .ok (.ctlCbor arg)
    | _ => .err (.structural "bad .cbor target type")

/-- The operators of `flatten_control`, /repo/src/flatten.rs:111-119. -/
def knownControl (op : String) : Bool :=
  op == "size" || op == "lt" || op == "le" || op == "gt" || op == "ge" || op == "regexp" || op == "cbor"

mutual
/-- `flatten_type2`, /repo/src/flatten.rs:343-355 (with `flatten_map`, `flatten_array`, `flatten_choiceify`,
`flatten_choiceify_inline`, l.477-486 and 612-620). -/
def flattenTy2 (regexOk : String → Bool) : Ty2 → Res Node
  | .value v => flattenValue v
  | .typename name args =>
    (flattenTypename name).bind fun node => nameGeneric node (flattenTy1s regexOk args) args.isEmpty
  | .parens t => (flattenTy1s regexOk t).bind typeOfOptions
  | .map g => (flattenGroup regexOk g).bind fun kvs => .ok (.map kvs)
  | .array g => (flattenGroup regexOk g).bind fun kvs => .ok (.array kvs)
  | .unwrap name args =>
    (ruleGeneric ((flattenTypename name).bind fun node =>
      nameGeneric node (flattenTy1s regexOk args) args.isEmpty)).bind fun r => .ok (.unwrap r.1 r.2)
  | .choiceifyInline g => (flattenGroup regexOk g).bind fun kvs => .ok (.choiceifyInline kvs)
  | .choiceify name args =>
    (ruleGeneric ((flattenTypename name).bind fun node =>
      nameGeneric node (flattenTy1s regexOk args) args.isEmpty)).bind fun r => .ok (.choiceify r.1 r.2)
/-- `flatten_type1`, /repo/src/flatten.rs:90-97, with `flatten_range` (l.315-325), `range_point` (l.297-313) and
`flatten_control` (l.110-123; an unknown operator is rejected before target and argument are flattened). -/
def flattenTy1 (regexOk : String → Bool) : Ty1 → Res Node
  | .simple t => flattenTy2 regexOk t
  | .range start stop inclusive =>
    (flattenPoint regexOk start).bind fun s =>
      (flattenPoint regexOk stop).bind fun e => .ok (.range s e inclusive)
  | .control target arg op =>
    if knownControl op then
      (flattenTy2 regexOk target).bind fun t =>
        (flattenTy2 regexOk arg).bind fun a => controlOf regexOk op t a
    else .err (.unsupported "control operator")
/-- `range_point`, /repo/src/flatten.rs:297-313. -/
def flattenPoint (regexOk : String → Bool) : Ty2 → Res Node
  | .value v => (flattenValue v).bind rangePointCheck
  | .typename name args =>
    ((flattenTypename name).bind fun node =>
      nameGeneric node (flattenTy1s regexOk args) args.isEmpty).bind rangePointCheck
  | _ => .err (.structural "bad type on range operator")
/-- `iter().map(flatten_type1).collect()`, /repo/src/flatten.rs:78, and the loop of l.459-463. -/
def flattenTy1s (regexOk : String → Bool) : List Ty1 → Res (List Node)
  | [] => .ok []
  | t :: ts =>
    (flattenTy1 regexOk t).bind fun n => (flattenTy1s regexOk ts).bind fun ns => .ok (n :: ns)
/-- `flatten_group`, /repo/src/flatten.rs:489-508.  Written with the first group choice split off (so that the
recursion is structural): with no further one the entries are spliced in, else all are the options. -/
def flattenGroup (regexOk : String → Bool) : List (List GrpEnt) → Res (List Node)
  | [] => .ok [.choice []]
  | gc :: gcs =>
    (flattenGroupchoice regexOk gc).bind fun ns =>
      (flattenGroupOptions regexOk gcs).bind fun rest =>
        if gcs.isEmpty then .ok ns else .ok [.choice (.group ns :: rest)]
/-- The options of a group choice, /repo/src/flatten.rs:496-505. -/
def flattenGroupOptions (regexOk : String → Bool) : List (List GrpEnt) → Res (List Node)
  | [] => .ok []
  | gc :: gcs =>
    (flattenGroupchoice regexOk gc).bind fun ns =>
      (flattenGroupOptions regexOk gcs).bind fun rest => .ok (.group ns :: rest)
/-- `flatten_groupchoice`, /repo/src/flatten.rs:510-514. -/
def flattenGroupchoice (regexOk : String → Bool) : List GrpEnt → Res (List Node)
  | [] => .ok []
  | e :: es =>
    (flattenGroupentry regexOk e).bind fun n =>
      (flattenGroupchoice regexOk es).bind fun ns => .ok (n :: ns)
/-- `flatten_groupentry`, /repo/src/flatten.rs:516-519. -/
def flattenGroupentry (regexOk : String → Bool) : GrpEnt → Res Node
  | .mk occur val => (flattenGroupentryVal regexOk val).bind fun node => .ok (occurWrap occur node)
/-- `flatten_groupentry_val`, /repo/src/flatten.rs:521-532, with `flatten_member` (l.573-583). -/
def flattenGroupentryVal (regexOk : String → Bool) : GrpEntVal → Res Node
  | .member value => (flattenTy1s regexOk value).bind typeOfOptions
  | .keyed key cut value =>
    (flattenMemberkey regexOk key).bind fun k =>
      ((flattenTy1s regexOk value).bind typeOfOptions).bind fun v => .ok (.keyValue k v cut)
  | .groupname s => flattenTypename s
  | .parens g => (flattenGroup regexOk g).bind fun nodes => .ok (.group nodes)
/-- `flatten_memberkey`, /repo/src/flatten.rs:598-610. -/
def flattenMemberkey (regexOk : String → Bool) : MemberKeyVal → Res Node
  | .bareword s => .ok (.literal (.text s))
  | .type1 t => flattenTy1 regexOk t
  | .value v => flattenValue v
end

/-- `flatten_type`, /repo/src/flatten.rs:77-88. -/
def flattenType (regexOk : String → Bool) (t : Ast.Ty) : Res Node :=
  (flattenTy1s regexOk t).bind typeOfOptions

/-- `flatten_rule`, /repo/src/flatten.rs:64-75. -/
def flattenRule (regexOk : String → Bool) (rule : Ast.Rule) : Res (String × RuleDef) :=
  (match rule.val with
    | .assignType t => flattenType regexOk t
    | .assignGroup g => flattenGroupentry regexOk g).bind fun node =>
      .ok (rule.name, { params := rule.params, node := node })

/-- `flatten`, /repo/src/flatten.rs:38-41.  Collecting into the `BTreeMap` inserts the pairs in order. -/
def flatten (regexOk : String → Bool) (cddl : Ast.Cddl) : Res RuleTable :=
  collectRes (flattenRule regexOk) cddl

/-- `slice_flatten`, /repo/src/flatten.rs:47-58; the `BTreeMap` is the list of its insertions as in
`RuleTable`. -/
def sliceFlatten (regexOk : String → Bool) (cddl : Ast.CddlSlice) :
    Res (List (String × RuleDef × String)) :=
  collectRes (fun p => (flattenRule regexOk p.1).bind fun q => .ok (q.1, q.2, p.2)) cddl

end Cddl
