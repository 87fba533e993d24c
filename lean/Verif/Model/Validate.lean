import Verif.Model.Convert

/-!
# The validator

Models /repo/src/validate.rs, /repo/src/normalize.rs and /repo/src/context.rs.

Recursive Rust functions are written in open-recursive style: the body of each function takes a
record `Rec` of the functions it may call recursively.  `fns n` ties the knot with a step budget
`n` (budget 0 answers `fuel`).  Functions that mutate a working copy return it next to their
result, also on failure.
-/

namespace Cddl

/-- What the validator gets from outside: the rule lookup (`LookupContext`, /repo/src/context.rs:21-24) and
library functions left abstract: regex matching (`regex::Regex::is_match`), CBOR decoding
(`ciborium::from_reader`, error text on failure) and printing of floats in messages. -/
structure Env where
  lookup : String → Except Err RuleDef
  regexMatch : String → String → Bool
  cborDecode : List UInt8 → Except String Cbor
  fmtF64 : F64 → String

/-- `BasicContext::lookup_rule`, /repo/src/context.rs:39-46. -/
def RuleTable.lookup (t : RuleTable) (name : String) : Except Err RuleDef :=
  match t.find name with
  | some d => .ok d
  | none => .error (.missingRule name)

/-- `Context` with its `GenericMap`, /repo/src/validate.rs:15-30.  `root` is a context without `past_ctx`
(an empty map when built by `do_validate`), `frame` one made by `derive`.  The map is the zipped
association list; `gmapFind` returns the last binding, as collecting into a `HashMap` does. -/
inductive Ctx
  | root (depth : Nat)
  | frame (gmap : List (String × Node)) (past : Ctx) (depth : Nat)

namespace Ctx

/-- `Context::depth`, /repo/src/validate.rs:29. -/
def depth : Ctx → Nat
  | root d => d
  | frame _ _ d => d

end Ctx

/-- `HashMap::get` on the map collected from `zip(generic_parms, generic_args)`
(/repo/src/validate.rs:75 and 120-125): the last pair with the name. -/
def gmapFind (g : List (String × Node)) (name : String) : Option Node :=
  match g with
  | [] => none
  | (n, a) :: rest =>
    match gmapFind rest name with
    | some x => some x
    | none => if n = name then some a else none

/-- `Context::MAX_DEPTH`, /repo/src/validate.rs:48. -/
def maxDepth : Nat := 50

/-- `Context::inc_depth`, /repo/src/validate.rs:50-56. -/
def Ctx.incDepth (ctx : Ctx) : Except Err Nat :=
  if ctx.depth ≥ maxDepth then .error (.structural "hit recursion limit") else .ok (ctx.depth + 1)

/-- `Context::derive`, /repo/src/validate.rs:108-137 (arity is checked before depth). -/
def Ctx.derive (ctx : Ctx) (rd : RuleDef) (args : List Node) : Except Err Ctx :=
  if rd.params.length ≠ args.length then .error .genericError
  else ctx.incDepth.bind fun d => .ok (.frame (rd.params.zip args) ctx d)

/-- `Context::lookup_rule`, /repo/src/validate.rs:71-96.  A context without `past_ctx` has an empty
parameter map, so the `blank()` branch (l.82, l.99-105) is dead code and not modelled. -/
def Ctx.lookupRule (env : Env) (ctx : Ctx) (name : String) (args : List Node) :
    Except Err (Node × Ctx) :=
  let viaRules : Except Err (Node × Ctx) :=
    (env.lookup name).bind fun rd => (ctx.derive rd args).bind fun c => .ok (rd.node, c)
  match ctx with
  | .root _ => viaRules
  | .frame g past _ =>
    match gmapFind g name with
    | some node => .ok (node, past)
    | none => viaRules

/-- Outcome of a function that mutates a working copy of type `σ`: the copy is returned next to
`Ok`/`Err`, and lost after a panic (or when the budget runs out). -/
inductive SRes (σ : Type)
  | ok (w : σ)
  | err (e : Err) (w : σ)
  | panic
  | fuel
  deriving DecidableEq, Repr

/-- A result obtained without touching the working copy `w`. -/
@[simp] def SRes.ofRes {σ : Type} (r : Res Unit) (w : σ) : SRes σ :=
  match r with
  | .ok () => .ok w
  | .err e => .err e w
  | .panic => .panic
  | .fuel => .fuel

/-- `WorkingArray`, /repo/src/validate.rs:239-244.  The innermost snapshot is the head of `snaps`; each
snapshot lists popped elements in pop order. -/
structure WArr where
  array : List Value
  snaps : List (List Value)

namespace WArr

/-- `WorkingArray::new`, /repo/src/validate.rs:248-254. -/
def new (a : List Value) : WArr := ⟨a, []⟩

/-- `WorkingArray::snapshot`, /repo/src/validate.rs:265-268. -/
def snapshot (w : WArr) : WArr := ⟨w.array, [] :: w.snaps⟩

/-- `WorkingArray::rewind`, /repo/src/validate.rs:271-280; panics without a snapshot. -/
def rewind (w : WArr) : SRes WArr :=
  match w.snaps with
  | [] => .panic
  | s :: ss => .ok ⟨s ++ w.array, ss⟩

/-- `WorkingArray::commit`, /repo/src/validate.rs:283-289; panics without a snapshot. -/
def commit (w : WArr) : SRes WArr :=
  match w.snaps with
  | [] => .panic
  | _ :: ss => .ok ⟨w.array, ss⟩

/-- `WorkingArray::pop_front`, /repo/src/validate.rs:299-309; panics on an empty array. -/
def popFront (w : WArr) : SRes WArr :=
  match w.array with
  | [] => .panic
  | x :: xs =>
    match w.snaps with
    | [] => .ok ⟨xs, []⟩
    | s :: ss => .ok ⟨xs, (s ++ [x]) :: ss⟩

end WArr

/-- `WorkingMap`, /repo/src/validate.rs:167-172. -/
structure WMap where
  map : VMap
  snaps : List (List (Value × Value))

namespace WMap

/-- `WorkingMap::new`, /repo/src/validate.rs:176-181. -/
def new (m : VMap) : WMap := ⟨m, []⟩

/-- `WorkingMap::snapshot`, /repo/src/validate.rs:192-194. -/
def snapshot (w : WMap) : WMap := ⟨w.map, [] :: w.snaps⟩

/-- `WorkingMap::rewind`, /repo/src/validate.rs:197-204; panics without a snapshot. -/
def rewind (w : WMap) : SRes WMap :=
  match w.snaps with
  | [] => .panic
  | s :: ss => .ok ⟨VMap.extend w.map s, ss⟩

/-- `WorkingMap::commit`, /repo/src/validate.rs:207-213; panics without a snapshot. -/
def commit (w : WMap) : SRes WMap :=
  match w.snaps with
  | [] => .panic
  | _ :: ss => .ok ⟨w.map, ss⟩

/-- `WorkingMap::remove`, /repo/src/validate.rs:223-233; panics if the key is absent. -/
def remove (w : WMap) (key : Value) : SRes WMap :=
  match VMap.remove w.map key with
  | none => .panic
  | some (v, m) =>
    match w.snaps with
    | [] => .ok ⟨m, []⟩
    | s :: ss => .ok ⟨m, (s ++ [(key, v)]) :: ss⟩

end WMap

/-- The recursive functions of /repo/src/validate.rs, as values to be called by the bodies. -/
structure Rec where
  /-- `validate` -/
  val : Value → Node → Ctx → Res Unit
  /-- `validate_choiceify` -/
  chf : String → List Node → Value → Ctx → Res Unit
  /-- `validate_array_member` -/
  arr : Node → WArr → Ctx → SRes WArr
  /-- `validate_map_member` -/
  map : Node → WMap → Ctx → SRes WMap
  /-- `validate_map_choiceify` -/
  mchf : String → List Node → WMap → Ctx → SRes WMap
  /-- `deref_range_rule` -/
  deref : Node → Ctx → Res Literal
  /-- `chase_rules` -/
  chase : Node → Ctx → Res Node

/-- Answers `fuel` to everything. -/
def Rec.bot : Rec where
  val _ _ _ := .fuel
  chf _ _ _ _ := .fuel
  arr _ _ _ := .fuel
  map _ _ _ := .fuel
  mchf _ _ _ _ := .fuel
  deref _ _ := .fuel
  chase _ _ := .fuel

/-! ## Loops -/

/-- The loop over options shared by `validate_choice` (/repo/src/validate.rs:355-370) and
`validate_choiceify_members` (l.1584-1620): first success wins, fatal errors abort, otherwise a
mismatch with message `msg`. -/
def choiceLoop (f : Node → Res Unit) (msg : String) : List Node → Res Unit
  | [] => .err (.mismatch msg)
  | n :: ns =>
    match f n with
    | .ok () => .ok ()
    | .err e => if e.isFatal then .err e else choiceLoop f msg ns
    | .panic => .panic
    | .fuel => .fuel

/-- The loop over options on a working copy: `stop e` says that error `e` ends the loop
(`is_fatal` in arrays, /repo/src/validate.rs:535-551; `!is_mismatch` in maps, l.773-790 and l.804-842). -/
def choiceLoopS {σ : Type} (f : Node → σ → SRes σ) (stop : Err → Bool) (msg : String) :
    List Node → σ → SRes σ
  | [], w => .err (.mismatch msg) w
  | n :: ns, w =>
    match f n w with
    | .ok w' => .ok w'
    | .err e w' => if stop e then .err e w' else choiceLoopS f stop msg ns w'
    | .panic => .panic
    | .fuel => .fuel

/-- Matching members one after the other with `?`, e.g. /repo/src/validate.rs:485-487. -/
def seqLoopS {σ : Type} (f : Node → σ → SRes σ) : List Node → σ → SRes σ
  | [], w => .ok w
  | n :: ns, w =>
    match f n w with
    | .ok w' => seqLoopS f ns w'
    | r => r

/-- The `loop` of `validate_array_occur`/`validate_map_occur` (/repo/src/validate.rs:612-638 and 886-914).
`count` is the Rust counter; `k` bounds the remaining iterations for Lean's termination check and
starts at `upper + 1`, which the loop cannot reach (the loop leaves at `count >= upper`). -/
def occurLoopS {σ : Type} (f : σ → SRes σ) (lower upper : Nat) (msg : String) :
    Nat → Nat → σ → SRes σ
  | 0, _, _ => .fuel
  | k + 1, count, w =>
    match f w with
    | .ok w' =>
      let count := count + 1
      if count ≥ upper then
        if count < lower then .err (.mismatch msg) w' else .ok w'
      else occurLoopS f lower upper msg k count w'
    | .err e w' =>
      if e.isMismatch then if count < lower then .err (.mismatch msg) w' else .ok w'
      else .err e w'
    | .panic => .panic
    | .fuel => .fuel

/-! ## Single values -/

/-- `validate_literal`, /repo/src/validate.rs:394-399. -/
def validateLiteral (env : Env) (l : Literal) (v : Value) : Res Unit :=
  if v.beq l.toValue then .ok () else .err (.mismatch (l.display env.fmtF64))

/-- `validate_prelude_type`, /repo/src/validate.rs:435-455. -/
def validatePreludeType (ty : PreludeType) (v : Value) : Res Unit :=
  match ty, v with
  | .any, _ => .ok ()
  | .nil, .null => .ok ()
  | .nil, _ => .err (.mismatch "nil")
  | .bool, .bool _ => .ok ()
  | .bool, _ => .err (.mismatch "bool")
  | .int, .integer _ => .ok ()
  | .int, _ => .err (.mismatch "int")
  | .uint, .integer x => if x ≥ 0 then .ok () else .err (.mismatch "uint")
  | .uint, _ => .err (.mismatch "uint")
  | .nint, .integer x => if x < 0 then .ok () else .err (.mismatch "nint")
  | .nint, _ => .err (.mismatch "nint")
  | .float, .float _ => .ok ()
  | .float, _ => .err (.mismatch "float")
  | .tstr, .text _ => .ok ()
  | .tstr, _ => .err (.mismatch "tstr")
  | .bstr, .bytes _ => .ok ()
  | .bstr, _ => .err (.mismatch "bstr")

/-- `validate_choice`, /repo/src/validate.rs:354-371. -/
def validateChoice (self : Rec) (options : List Node) (v : Value) (ctx : Ctx) : Res Unit :=
  choiceLoop (fun n => self.val v n ctx) ("choice of " ++ toString options.length) options

/-- `validate_rule`, /repo/src/validate.rs:376-379. -/
def validateRule (env : Env) (self : Rec) (name : String) (args : List Node) (v : Value)
    (ctx : Ctx) : Res Unit :=
  (Res.ofExcept (ctx.lookupRule env name args)).bind fun a => self.val v a.1 a.2

/-- `validate_standalone_group`, /repo/src/validate.rs:960-971. -/
def validateStandaloneGroup (self : Rec) (members : List Node) (v : Value) (ctx : Ctx) : Res Unit :=
  match members with
  | [m] => self.val v m ctx
  | _ => .err (.unsupported "standalone group")

/-! ## Ranges and control operators -/

/-- `deref_range_rule`, /repo/src/validate.rs:973-984. -/
def derefBody (env : Env) (self : Rec) (node : Node) (ctx : Ctx) : Res Literal :=
  match node with
  | .literal l => .ok l
  | .rule name args => (Res.ofExcept (ctx.lookupRule env name args)).bind fun a => self.deref a.1 a.2
  | _ => .err (.structural "confusing type on range operator")

/-- `check_range` on integers, /repo/src/validate.rs:987-996. -/
def checkRangeInt (start stop value : Int) (inclusive : Bool) : Bool :=
  if value < start then false
  else if inclusive then decide (value ≤ stop) else decide (value < stop)

/-- `check_range` on floats, /repo/src/validate.rs:987-996. -/
def checkRangeFloat (start stop value : F64) (inclusive : Bool) : Bool :=
  if value.lt start then false
  else if inclusive then value.le stop else value.lt stop

/-- `discriminant(&start) == discriminant(&end)`, /repo/src/validate.rs:1019. -/
def sameKind : Literal → Literal → Bool
  | .bool _, .bool _ => true
  | .int _, .int _ => true
  | .float _, .float _ => true
  | .text _, .text _ => true
  | .bytes _, .bytes _ => true
  | _, _ => false

/-- The final match of `validate_range`, /repo/src/validate.rs:1003-1030; `shown` is the printed range. -/
def rangeMatch (shown : String) (start stop : Literal) (v : Value) (inclusive : Bool) : Res Unit :=
  match start, stop, v with
  | .int i1, .int i2, .integer x =>
    if checkRangeInt i1 i2 x inclusive then .ok () else .err (.mismatch shown)
  | .float f1, .float f2, .float x =>
    if checkRangeFloat f1 f2 x inclusive then .ok () else .err (.mismatch shown)
  | s, e, _ =>
    if sameKind s e then .err (.mismatch shown)
    else .err (.structural "mismatched types on range operator")

/-- `validate_range`, /repo/src/validate.rs:998-1031. -/
def validateRange (env : Env) (self : Rec) (start stop : Node) (inclusive : Bool) (v : Value)
    (ctx : Ctx) : Res Unit :=
  (self.deref start ctx).bind fun s =>
    (self.deref stop ctx).bind fun e =>
      rangeMatch (rangeDisplay env.fmtF64 start stop inclusive) s e v inclusive

/-- `chase_rules`, /repo/src/validate.rs:1034-1045.  The Rust function applies a closure to the final
node; here the final node is returned and the caller applies the closure with `bind`. -/
def chaseBody (env : Env) (self : Rec) (node : Node) (ctx : Ctx) : Res Node :=
  match node with
  | .rule name args => (Res.ofExcept (ctx.lookupRule env name args)).bind fun a => self.chase a.1 a.2
  | n => .ok n

/-- `i128::try_into::<u64>()` with the error of /repo/src/normalize.rs:12-14. -/
def toU64 (i : Int) : Res Nat :=
  if 0 ≤ i ∧ i ≤ 18446744073709551615 then .ok i.toNat
  else .err (.structural ("bad .size limit " ++ toString i))

/-- `normalize_size_range`, /repo/src/normalize.rs:9-55; the resulting `Range` as its three fields. -/
def normalizeSizeRange (env : Env) (n : Node) : Res (Node × Node × Bool) :=
  match n with
  | .literal (.int i) =>
    (toU64 i).bind fun _ => .ok (.literal (.int i), .literal (.int i), true)
  | .range start stop inclusive =>
    (match start with
      | .literal (.int i) => Res.ok i
      | other => .err (.structural ("bad .size range start type (" ++ other.display env.fmtF64 ++ ")"))).bind
      fun startI =>
    (match stop with
      | .literal (.int i) => Res.ok i
      | other => .err (.structural ("bad .size range end type (" ++ other.display env.fmtF64 ++ ")"))).bind
      fun endI =>
    (toU64 startI).bind fun _ => (toU64 endI).bind fun _ => .ok (start, stop, inclusive)
  | n => .err (.structural ("bad .size argument type (" ++ n.display env.fmtF64 ++ ")"))

/-- The endpoints of a normalized size range as `u64`s: /repo/src/validate.rs:1229-1243, 1311-1325, 1356-1370
(`kind` is `uint`, `tstr` or `bstr`). -/
def sizeEndpoints (kind : String) (size : Node × Node × Bool) : Res (Nat × Nat) :=
  match size.1, size.2.1 with
  | .literal (.int a), .literal (.int b) =>
    (toU64 a).bind fun s => (toU64 b).bind fun e => .ok (s, e)
  | _, _ => .err (.structural ("bad .size range endpoints for " ++ kind))

/-- `1i128 << s`, /repo/src/validate.rs:1266; overflows (panics in debug builds) for `s >= 128`. -/
def shl1 (s : Nat) : Res Int := if s < 128 then .ok (2 ^ s) else .panic

/-- `validate_size_uint`, /repo/src/validate.rs:1228-1307.  `128 - leading_zeros(v)` is `log2 v + 1`
for `0 < v < 2^128`. -/
def validateSizeUint (size : Node × Node × Bool) (v : Value) : Res Unit :=
  (sizeEndpoints "uint" size).bind fun se =>
    let startU := se.1
    let endU := se.2
    let inclusive := size.2.2
    if startU > endU ∨ (startU = endU ∧ inclusive = false) then
      .err (.mismatch "uint over .size limit")
    else
      match v with
      | .integer x =>
        if x < 0 then .err (.mismatch ".size on negative integer")
        else if startU = endU ∧ inclusive = true then
          if endU ≥ 16 then .ok ()
          else (shl1 (endU * 8)).bind fun limit =>
            if x < limit then .ok () else .err (.mismatch "uint over .size limit")
        else
          let n := x.toNat
          let needed := if n = 0 then 0 else (Nat.log2 n + 1 + 7) / 8
          if needed < startU then .err (.mismatch "uint under .size limit")
          else if (if inclusive then decide (needed ≤ endU) else decide (needed < endU)) then .ok ()
          else .err (.mismatch "uint over .size limit")
      | _ => .err (.mismatch "uint")

/-- `validate_size_tstr`, /repo/src/validate.rs:1310-1352 (length in UTF-8 bytes). -/
def validateSizeTstr (size : Node × Node × Bool) (v : Value) : Res Unit :=
  (sizeEndpoints "tstr" size).bind fun se =>
    let minU := se.1
    let maxU := se.2
    let inclusive := size.2.2
    if minU > maxU ∨ (minU = maxU ∧ inclusive = false) then
      .err (.mismatch "tstr over .size limit")
    else
      match v with
      | .text s =>
        let len := s.utf8ByteSize
        if len < minU then .err (.mismatch "tstr under .size limit")
        else if (if inclusive then decide (len ≤ maxU) else decide (len < maxU)) then .ok ()
        else .err (.mismatch "tstr over .size limit")
      | _ => .err (.mismatch "tstr")

/-- `validate_size_bstr`, /repo/src/validate.rs:1355-1397. -/
def validateSizeBstr (size : Node × Node × Bool) (v : Value) : Res Unit :=
  (sizeEndpoints "bstr" size).bind fun se =>
    let minU := se.1
    let maxU := se.2
    let inclusive := size.2.2
    if minU > maxU ∨ (minU = maxU ∧ inclusive = false) then
      .err (.mismatch "bstr over .size limit")
    else
      match v with
      | .bytes b =>
        let len := b.length
        if len < minU then .err (.mismatch "bstr under .size limit")
        else if (if inclusive then decide (len ≤ maxU) else decide (len < maxU)) then .ok ()
        else .err (.mismatch "bstr over .size limit")
      | _ => .err (.mismatch "bstr")

/-- `validate_control_size`, /repo/src/validate.rs:1084-1101. -/
def validateControlSize (env : Env) (self : Rec) (target size : Node) (v : Value) (ctx : Ctx) :
    Res Unit :=
  (self.chase size ctx).bind fun sizeNode =>
    (normalizeSizeRange env sizeNode).bind fun sz =>
      (self.chase target ctx).bind fun targetNode =>
        match targetNode with
        | .prelude .uint => validateSizeUint sz v
        | .prelude .tstr => validateSizeTstr sz v
        | .prelude .bstr => validateSizeBstr sz v
        | t => .err (.structural ("bad .size target type (" ++ t.display env.fmtF64 ++ ")"))

/-- `validate_lt_uint`, /repo/src/validate.rs:1399-1413. -/
def validateLtUint (lt : Int) : Value → Res Unit
  | .integer x =>
    if x < 0 then .err (.mismatch "uint")
    else if x < lt then .ok () else .err (.mismatch "uint over .lt limit")
  | _ => .err (.mismatch "uint")

/-- `validate_lt_nint`, /repo/src/validate.rs:1415-1429. -/
def validateLtNint (lt : Int) : Value → Res Unit
  | .integer x =>
    if x ≥ 0 then .err (.mismatch "nint")
    else if x < lt then .ok () else .err (.mismatch "nint over .lt limit")
  | _ => .err (.mismatch "nint")

/-- `validate_lt_int`, /repo/src/validate.rs:1431-1442. -/
def validateLtInt (lt : Int) : Value → Res Unit
  | .integer x => if x < lt then .ok () else .err (.mismatch "int over .lt limit")
  | _ => .err (.mismatch "int")

/-- `validate_le_uint`, /repo/src/validate.rs:1444-1458. -/
def validateLeUint (lt : Int) : Value → Res Unit
  | .integer x =>
    if x < 0 then .err (.mismatch "uint")
    else if x ≤ lt then .ok () else .err (.mismatch "uint over .le limit")
  | _ => .err (.mismatch "uint")

/-- `validate_le_nint`, /repo/src/validate.rs:1460-1474 (the message really says `.lt`). -/
def validateLeNint (lt : Int) : Value → Res Unit
  | .integer x =>
    if x ≥ 0 then .err (.mismatch "nint")
    else if x ≤ lt then .ok () else .err (.mismatch "nint over .lt limit")
  | _ => .err (.mismatch "nint")

/-- `validate_le_int`, /repo/src/validate.rs:1476-1487. -/
def validateLeInt (lt : Int) : Value → Res Unit
  | .integer x => if x ≤ lt then .ok () else .err (.mismatch "int over .le limit")
  | _ => .err (.mismatch "int")

/-- `validate_gt_uint`, /repo/src/validate.rs:1489-1503. -/
def validateGtUint (lt : Int) : Value → Res Unit
  | .integer x =>
    if x < 0 then .err (.mismatch "uint")
    else if x > lt then .ok () else .err (.mismatch "uint under .gt limit")
  | _ => .err (.mismatch "uint")

/-- `validate_gt_nint`, /repo/src/validate.rs:1505-1519. -/
def validateGtNint (lt : Int) : Value → Res Unit
  | .integer x =>
    if x ≥ 0 then .err (.mismatch "nint")
    else if x > lt then .ok () else .err (.mismatch "nint over .gt limit")
  | _ => .err (.mismatch "nint")

/-- `validate_gt_int`, /repo/src/validate.rs:1521-1532 (the message really says `.ge`). -/
def validateGtInt (lt : Int) : Value → Res Unit
  | .integer x => if x > lt then .ok () else .err (.mismatch "int over .ge limit")
  | _ => .err (.mismatch "int")

/-- `validate_ge_uint`, /repo/src/validate.rs:1534-1548. -/
def validateGeUint (lt : Int) : Value → Res Unit
  | .integer x =>
    if x < 0 then .err (.mismatch "uint")
    else if x ≥ lt then .ok () else .err (.mismatch "uint under .ge limit")
  | _ => .err (.mismatch "uint")

/-- `validate_ge_nint`, /repo/src/validate.rs:1550-1564. -/
def validateGeNint (lt : Int) : Value → Res Unit
  | .integer x =>
    if x ≥ 0 then .err (.mismatch "nint")
    else if x ≥ lt then .ok () else .err (.mismatch "nint over .ge limit")
  | _ => .err (.mismatch "nint")

/-- `validate_ge_int`, /repo/src/validate.rs:1566-1577. -/
def validateGeInt (lt : Int) : Value → Res Unit
  | .integer x => if x ≥ lt then .ok () else .err (.mismatch "int over .ge limit")
  | _ => .err (.mismatch "int")

/-- The closure that extracts the integer limit, /repo/src/validate.rs:1105-1111 (also 1132-1138,
1159-1165, 1186-1192); `op` is the operator text. -/
def limitOf (env : Env) (op : String) : Node → Res Int
  | .literal (.int i) => .ok i
  | n => .err (.structural ("bad ." ++ op ++ " argument type (" ++ n.display env.fmtF64 ++ ")"))

/-- `validate_control_lt`, /repo/src/validate.rs:1103-1128. -/
def validateControlLt (env : Env) (self : Rec) (target arg : Node) (v : Value) (ctx : Ctx) : Res Unit :=
  (self.chase arg ctx).bind fun argNode =>
    (limitOf env "lt" argNode).bind fun lt =>
      (self.chase target ctx).bind fun targetNode =>
        match targetNode with
        | .prelude .uint => validateLtUint lt v
        | .prelude .nint => validateLtNint lt v
        | .prelude .int => validateLtInt lt v
        | .prelude .float => .err (.structural ".lt for float is not supported yet")
        | t => .err (.structural ("bad .lt target type (" ++ t.display env.fmtF64 ++ ")"))

/-- `validate_control_le`, /repo/src/validate.rs:1130-1155. -/
def validateControlLe (env : Env) (self : Rec) (target arg : Node) (v : Value) (ctx : Ctx) : Res Unit :=
  (self.chase arg ctx).bind fun argNode =>
    (limitOf env "le" argNode).bind fun le =>
      (self.chase target ctx).bind fun targetNode =>
        match targetNode with
        | .prelude .uint => validateLeUint le v
        | .prelude .nint => validateLeNint le v
        | .prelude .int => validateLeInt le v
        | .prelude .float => .err (.structural ".le for float is not supported yet")
        | t => .err (.structural ("bad .le target type (" ++ t.display env.fmtF64 ++ ")"))

/-- `validate_control_gt`, /repo/src/validate.rs:1157-1182. -/
def validateControlGt (env : Env) (self : Rec) (target arg : Node) (v : Value) (ctx : Ctx) : Res Unit :=
  (self.chase arg ctx).bind fun argNode =>
    (limitOf env "gt" argNode).bind fun gt =>
      (self.chase target ctx).bind fun targetNode =>
        match targetNode with
        | .prelude .uint => validateGtUint gt v
        | .prelude .nint => validateGtNint gt v
        | .prelude .int => validateGtInt gt v
        | .prelude .float => .err (.structural ".gt for float is not supported yet")
        | t => .err (.structural ("bad .gt target type (" ++ t.display env.fmtF64 ++ ")"))

/-- `validate_control_ge`, /repo/src/validate.rs:1184-1209. -/
def validateControlGe (env : Env) (self : Rec) (target arg : Node) (v : Value) (ctx : Ctx) : Res Unit :=
  (self.chase arg ctx).bind fun argNode =>
    (limitOf env "ge" argNode).bind fun ge =>
      (self.chase target ctx).bind fun targetNode =>
        match targetNode with
        | .prelude .uint => validateGeUint ge v
        | .prelude .nint => validateGeNint ge v
        | .prelude .int => validateGeInt ge v
        | .prelude .float => .err (.structural ".ge for float is not supported yet")
        | t => .err (.structural ("bad .ge target type (" ++ t.display env.fmtF64 ++ ")"))

/-- `validate_control` on the operators with target and argument, /repo/src/validate.rs:1047-1053. -/
def validateControl (env : Env) (self : Rec) (op : CtlOp) (target arg : Node) (v : Value)
    (ctx : Ctx) : Res Unit :=
  match op with
  | .size => validateControlSize env self target arg v ctx
  | .lt => validateControlLt env self target arg v ctx
  | .le => validateControlLe env self target arg v ctx
  | .gt => validateControlGt env self target arg v ctx
  | .ge => validateControlGe env self target arg v ctx

/-- `validate_control_regexp`, /repo/src/validate.rs:1215-1226. -/
def validateControlRegexp (env : Env) (pattern : String) : Value → Res Unit
  | .text t => if env.regexMatch pattern t then .ok () else .err (.mismatch "regex mismatch")
  | _ => .err (.mismatch "tstr")

/-- `validate_control_cbor`, /repo/src/validate.rs:1066-1082 (default feature `ciborium` enabled). -/
def validateControlCbor (env : Env) (self : Rec) (node : Node) (v : Value) (ctx : Ctx) : Res Unit :=
  match v with
  | .bytes bytes =>
    match env.cborDecode bytes with
    | .error msg => .err (.valueError msg)
    | .ok c => (Res.ofExcept c.toValue).bind fun nested => self.val nested node ctx
  | _ => .err (.mismatch "Bytes")

/-! ## Group-to-choice -/

/-- One item of `validate_choiceify_members`, /repo/src/validate.rs:1585-1601. -/
def choiceifyItem (self : Rec) (v : Value) (ctx : Ctx) (item : Node) : Res Unit :=
  match item with
  | .keyValue _ value _ => self.val v value ctx
  | .rule name args => self.chf name args v ctx
  | item => self.val v item ctx

/-- `validate_choiceify_members`, /repo/src/validate.rs:1579-1621 (and `validate_choiceify_inline`, l.1640-1642). -/
def validateChoiceifyMembers (self : Rec) (choices : List Node) (v : Value) (ctx : Ctx) : Res Unit :=
  choiceLoop (choiceifyItem self v ctx)
    ("choiceified group of " ++ toString choices.length) choices

/-- `validate_choiceify`, /repo/src/validate.rs:1626-1635. -/
def chfBody (env : Env) (self : Rec) (name : String) (args : List Node) (v : Value) (ctx : Ctx) :
    Res Unit :=
  (Res.ofExcept (ctx.lookupRule env name args)).bind fun a =>
    match a.1 with
    | .group members => validateChoiceifyMembers self members v a.2
    | .rule name' args' => self.chf name' args' v a.2
    | _ => .err (.structural "improper choiceify target")

/-! ## Arrays -/

/-- `validate_array_value`, /repo/src/validate.rs:641-655. -/
def validateArrayValue (env : Env) (self : Rec) (node : Node) (w : WArr) (ctx : Ctx) :
    SRes WArr :=
  match w.array with
  | val :: _ =>
    match self.val val node ctx with
    | .ok () => w.popFront
    | r => SRes.ofRes r w
  | [] => .err (.mismatch ("array element " ++ node.display env.fmtF64)) w

/-- `validate_array_occur`, /repo/src/validate.rs:606-638. -/
def validateArrayOccur (env : Env) (self : Rec) (limit : OccurLimit) (node : Node) (w : WArr)
    (ctx : Ctx) : SRes WArr :=
  occurLoopS (fun w => self.arr node w ctx) limit.limits.1 limit.limits.2
    ("more array element [" ++ occurDisplay env.fmtF64 limit node ++ "]")
    (limit.limits.2 + 1) 0 w

/-- The `Group` arm of `validate_array_member`, /repo/src/validate.rs:553-579. -/
def validateArrayGroup (self : Rec) (members : List Node) (w : WArr) (ctx : Ctx) : SRes WArr :=
  match seqLoopS (fun m w => self.arr m w ctx) members w.snapshot with
  | .ok w' => w'.commit
  | .err e w' =>
    match w'.rewind with
    | .ok w'' => .err e w''
    | r => r
  | r => r

/-- `validate_array_unwrap`, /repo/src/validate.rs:584-602. -/
def validateArrayUnwrap (self : Rec) (node : Node) (w : WArr) (ctx : Ctx) : SRes WArr :=
  match node with
  | .array members => seqLoopS (fun m w => self.arr m w ctx) members w
  | _ => .err (.mismatch "unwrap array") w

/-- `validate_array_member`, /repo/src/validate.rs:498-582. -/
def arrBody (env : Env) (self : Rec) (member : Node) (w : WArr) (ctx : Ctx) : SRes WArr :=
  match member with
  | .occur limit node => validateArrayOccur env self limit node w ctx
  | .keyValue _ value _ => validateArrayValue env self value w ctx
  | .rule name args =>
    match ctx.lookupRule env name args with
    | .ok a => self.arr a.1 w a.2
    | .error e => .err e w
  | .unwrap name args =>
    match ctx.lookupRule env name args with
    | .ok a => validateArrayUnwrap self a.1 w a.2
    | .error e => .err e w
  | .choice options =>
    choiceLoopS (fun m w => self.arr m w ctx) Err.isFatal
      ("choice of " ++ toString options.length) options w
  | .group members => validateArrayGroup self members w ctx
  | m => validateArrayValue env self m w ctx

/-- `validate_array` and `validate_array_part2`, /repo/src/validate.rs:458-496. -/
def validateArray (self : Rec) (members : List Node) (v : Value) (ctx : Ctx) : Res Unit :=
  match v with
  | .array a =>
    match seqLoopS (fun m w => self.arr m w ctx) members (WArr.new a) with
    | .ok w => if w.array.isEmpty then .ok () else .err (.mismatch "shorter array")
    | .err e _ => .err e
    | .panic => .panic
    | .fuel => .fuel
  | _ => .err (.mismatch "array")

/-! ## Maps -/

/-- `map_search_literal`, /repo/src/validate.rs:402-414. -/
def mapSearchLiteral (env : Env) (l : Literal) (w : WMap) : Res (Value × Value) :=
  match VMap.get w.map l.toValue with
  | some v => .ok (l.toValue, v)
  | none => .err (.mismatch ("map{" ++ l.display env.fmtF64 ++ "}"))

/-- The loop of `map_search`, /repo/src/validate.rs:424-431: the first key for which the attempt is
`Ok`; every error of an attempt is ignored. -/
def mapSearchLoop (f : Value → Res Unit) (msg : String) : VMap → Res (Value × Value)
  | [] => .err (.mismatch msg)
  | (key, value) :: t =>
    match f key with
    | .ok () => .ok (key, value)
    | .err _ => mapSearchLoop f msg t
    | .panic => .panic
    | .fuel => .fuel

/-- `map_search`, /repo/src/validate.rs:419-432. -/
def mapSearch (env : Env) (self : Rec) (node : Node) (w : WMap) (ctx : Ctx) : Res (Value × Value) :=
  mapSearchLoop (fun key => self.val key node ctx) ("map{" ++ node.display env.fmtF64 ++ "}") w.map

/-- `validate_map_key`, /repo/src/validate.rs:340-349. -/
def validateMapKey (env : Env) (self : Rec) (node : Node) (w : WMap) (ctx : Ctx) :
    Res (Value × Value) :=
  match node with
  | .literal l => mapSearchLiteral env l w
  | n => mapSearch env self n w ctx

/-- `validate_map_keyvalue`, /repo/src/validate.rs:918-958. -/
def validateMapKeyvalue (env : Env) (self : Rec) (key value : Node) (cut : Bool) (w : WMap)
    (ctx : Ctx) : SRes WMap :=
  match validateMapKey env self key w ctx with
  | .ok (workingKey, workingVal) =>
    match self.val workingVal value ctx with
    | .ok () => w.remove workingKey
    | .err e =>
      match cut, e with
      | true, .mismatch m => .err (.mapCut m) w
      | _, x => .err x w
    | .panic => .panic
    | .fuel => .fuel
  | .err e => .err e w
  | .panic => .panic
  | .fuel => .fuel

/-- `validate_map_occur`, /repo/src/validate.rs:880-915 (the message really ends in `}]`). -/
def validateMapOccur (env : Env) (self : Rec) (limit : OccurLimit) (node : Node) (w : WMap)
    (ctx : Ctx) : SRes WMap :=
  occurLoopS (fun w => self.map node w ctx) limit.limits.1 limit.limits.2
    ("map{" ++ occurDisplay env.fmtF64 limit node ++ "}]")
    (limit.limits.2 + 1) 0 w

/-- The `Group` arm of `validate_map_member`, /repo/src/validate.rs:722-752. -/
def validateMapGroup (self : Rec) (members : List Node) (w : WMap) (ctx : Ctx) : SRes WMap :=
  match seqLoopS (fun m w => self.map m w ctx) members w.snapshot with
  | .ok w' => w'.commit
  | .err e w' =>
    match w'.rewind with
    | .ok w'' => .err e.eraseMapcut w''
    | r => r
  | r => r

/-- `validate_map_unwrap`, /repo/src/validate.rs:863-877. -/
def validateMapUnwrap (self : Rec) (node : Node) (w : WMap) (ctx : Ctx) : SRes WMap :=
  match node with
  | .map members => seqLoopS (fun m w => self.map m w ctx) members w
  | _ => .err (.mismatch "unwrap map") w

/-- `validate_map_choice`, /repo/src/validate.rs:767-791. -/
def validateMapChoice (self : Rec) (options : List Node) (w : WMap) (ctx : Ctx) : SRes WMap :=
  choiceLoopS (fun m w => self.map m w ctx) (fun e => !e.isMismatch)
    ("choice of " ++ toString options.length) options w

/-- One item of `validate_map_choiceify_members`, /repo/src/validate.rs:805-822. -/
def mapChoiceifyItem (self : Rec) (ctx : Ctx) (item : Node) (w : WMap) : SRes WMap :=
  match item with
  | .keyValue _ value _ => self.map value w ctx
  | .rule name args => self.mchf name args w ctx
  | item => self.map item w ctx

/-- `validate_map_choiceify_members`, /repo/src/validate.rs:794-843. -/
def validateMapChoiceifyMembers (self : Rec) (choices : List Node) (w : WMap) (ctx : Ctx) :
    SRes WMap :=
  choiceLoopS (mapChoiceifyItem self ctx) (fun e => !e.isMismatch)
    ("choiceified group of " ++ toString choices.length) choices w

/-- `validate_map_choiceify`, /repo/src/validate.rs:848-861. -/
def mchfBody (env : Env) (self : Rec) (name : String) (args : List Node) (w : WMap) (ctx : Ctx) :
    SRes WMap :=
  match ctx.lookupRule env name args with
  | .ok a =>
    match a.1 with
    | .group members => validateMapChoiceifyMembers self members w a.2
    | .rule name' args' => self.mchf name' args' w a.2
    | _ => .err (.structural "improper map choiceify target") w
  | .error e => .err e w

/-- `validate_map_member`, /repo/src/validate.rs:698-765. -/
def mapBody (env : Env) (self : Rec) (member : Node) (w : WMap) (ctx : Ctx) : SRes WMap :=
  match member with
  | .occur limit node => validateMapOccur env self limit node w ctx
  | .keyValue key value cut => validateMapKeyvalue env self key value cut w ctx
  | .rule name args =>
    match ctx.lookupRule env name args with
    | .ok a => self.map a.1 w a.2
    | .error e => .err e w
  | .unwrap name args =>
    match ctx.lookupRule env name args with
    | .ok a => validateMapUnwrap self a.1 w a.2
    | .error e => .err e w
  | .group members => validateMapGroup self members w ctx
  | .choice options => validateMapChoice self options w ctx
  | .choiceify name args => self.mchf name args w ctx
  | .choiceifyInline members => validateMapChoice self members w ctx
  | .literal _ => .err (.structural "literal map member") w
  | .prelude _ => .err (.structural "prelude type map member") w
  | .map _ => .err (.structural "map as map member") w
  | .array _ => .err (.structural "array as map member") w
  | .range .. => .err (.structural "range as map member") w
  | .ctl .. => .err (.structural "control op as map member") w
  | .ctlRegexp _ => .err (.structural "control op as map member") w
  | .ctlCbor _ => .err (.structural "control op as map member") w

/-- `validate_map` and `validate_map_part2`, /repo/src/validate.rs:657-696. -/
def validateMap (self : Rec) (members : List Node) (v : Value) (ctx : Ctx) : Res Unit :=
  match v with
  | .map m =>
    match seqLoopS (fun mem w => self.map mem w ctx) members (WMap.new m) with
    | .ok w => if w.map.isEmpty then .ok () else .err (.mismatch "shorter map")
    | .err e _ => .err e.eraseMapcut
    | .panic => .panic
    | .fuel => .fuel
  | _ => .err (.mismatch "map")

/-! ## Dispatch -/

/-- `validate`, /repo/src/validate.rs:318-335. -/
def valBody (env : Env) (self : Rec) (v : Value) (node : Node) (ctx : Ctx) : Res Unit :=
  match node with
  | .literal l => validateLiteral env l v
  | .prelude p => validatePreludeType p v
  | .choice options => validateChoice self options v ctx
  | .map members => validateMap self members v ctx
  | .array members => validateArray self members v ctx
  | .rule name args => validateRule env self name args v ctx
  | .group members => validateStandaloneGroup self members v ctx
  | .keyValue .. => .err (.structural "unexpected KeyValue")
  | .occur .. => .err (.structural "unexpected Occur")
  | .unwrap .. => .err (.structural "unexpected Unwrap")
  | .range start stop inclusive => validateRange env self start stop inclusive v ctx
  | .ctl op target arg => validateControl env self op target arg v ctx
  | .ctlRegexp pattern => validateControlRegexp env pattern v
  | .ctlCbor n => validateControlCbor env self n v ctx
  | .choiceify name args => self.chf name args v ctx
  | .choiceifyInline members => validateChoiceifyMembers self members v ctx

/-- All recursive functions with their recursive calls answered by `self`. -/
def step (env : Env) (self : Rec) : Rec where
  val := valBody env self
  chf := chfBody env self
  arr := arrBody env self
  map := mapBody env self
  mchf := mchfBody env self
  deref := derefBody env self
  chase := chaseBody env self

/-- The validator with step budget `n`. -/
def fns (env : Env) : Nat → Rec
  | 0 => Rec.bot
  | n + 1 => step env (fns env n)

/-- `do_validate`, /repo/src/validate.rs:141-159, with a step budget. -/
def doValidateF (env : Env) (n : Nat) (v : Value) (rd : RuleDef) : Res Unit :=
  if rd.params ≠ [] then .err .genericError
  else (fns env n).val v rd.node (.root 0)

end Cddl
