import Verif.Model.Validate

/-!
# The validator, counting its calls

How many calls of its seven recursive functions (`validate`, `validate_choiceify`, `validate_array_member`,
`validate_map_member`, `validate_map_choiceify`, `deref_range_rule`, `chase_rules`) the validator of
Model/Validate.lean makes.  Each definition here follows the one of the same name there, with the order of
evaluation of /repo/src/validate.rs: after a call that ends a loop no further calls are counted.
-/

namespace Cddl

/-- How many calls the recursive functions of /repo/src/validate.rs lead to, each counting itself. -/
structure Costs where
  /-- `validate` -/
  val : Value → Node → Ctx → Nat
  /-- `validate_choiceify` -/
  chf : String → List Node → Value → Ctx → Nat
  /-- `validate_array_member` -/
  arr : Node → WArr → Ctx → Nat
  /-- `validate_map_member` -/
  map : Node → WMap → Ctx → Nat
  /-- `validate_map_choiceify` -/
  mchf : String → List Node → WMap → Ctx → Nat
  /-- `deref_range_rule` -/
  deref : Node → Ctx → Nat
  /-- `chase_rules` -/
  chase : Node → Ctx → Nat

/-- Nothing is called. -/
def Costs.zero : Costs where
  val _ _ _ := 0
  chf _ _ _ _ := 0
  arr _ _ _ := 0
  map _ _ _ := 0
  mchf _ _ _ _ := 0
  deref _ _ := 0
  chase _ _ := 0

/-! ## Loops -/

/-- Calls of `choiceLoop` (/repo/src/validate.rs:355-370, l.1584-1620): options are tried until one succeeds or fails
fatally. -/
def choiceLoopN (f : Node → Res Unit) (g : Node → Nat) : List Node → Nat
  | [] => 0
  | n :: ns =>
    g n + match f n with
      | .err e => if e.isFatal then 0 else choiceLoopN f g ns
      | _ => 0

/-- Calls of `choiceLoopS` (/repo/src/validate.rs:535-551, l.773-790 and l.804-842). -/
def choiceLoopSN {σ : Type} (f : Node → σ → SRes σ) (g : Node → σ → Nat) (stop : Err → Bool) : List Node → σ → Nat
  | [], _ => 0
  | n :: ns, w =>
    g n w + match f n w with
      | .err e w' => if stop e then 0 else choiceLoopSN f g stop ns w'
      | _ => 0

/-- Calls of `seqLoopS`, e.g. /repo/src/validate.rs:485-487. -/
def seqLoopSN {σ : Type} (f : Node → σ → SRes σ) (g : Node → σ → Nat) : List Node → σ → Nat
  | [], _ => 0
  | n :: ns, w =>
    g n w + match f n w with
      | .ok w' => seqLoopSN f g ns w'
      | _ => 0

/-- Calls of `occurLoopS` (/repo/src/validate.rs:612-638 and 886-914). -/
def occurLoopSN {σ : Type} (f : σ → SRes σ) (g : σ → Nat) (upper : Nat) : Nat → Nat → σ → Nat
  | 0, _, _ => 0
  | k + 1, count, w =>
    g w + match f w with
      | .ok w' => if count + 1 ≥ upper then 0 else occurLoopSN f g upper k (count + 1) w'
      | _ => 0

/-- Calls of `mapSearchLoop`, /repo/src/validate.rs:424-431. -/
def mapSearchLoopN (f : Value → Res Unit) (g : Value → Nat) : VMap → Nat
  | [] => 0
  | (key, _) :: t =>
    g key + match f key with
      | .err _ => mapSearchLoopN f g t
      | _ => 0

/-! ## Bodies -/

/-- Calls after a look-up, `ctx.lookup_rule(rule)?` (e.g. /repo/src/validate.rs:377). -/
def afterLookup (r : Except Err (Node × Ctx)) (g : Node → Ctx → Nat) : Nat :=
  match r with
  | .ok a => g a.1 a.2
  | .error _ => 0

/-- `deref_range_rule`, /repo/src/validate.rs:973-984. -/
def derefN (env : Env) (cost : Costs) (node : Node) (ctx : Ctx) : Nat :=
  1 + match node with
    | .rule name args => afterLookup (ctx.lookupRule env name args) cost.deref
    | _ => 0

/-- `chase_rules`, /repo/src/validate.rs:1034-1045. -/
def chaseN (env : Env) (cost : Costs) (node : Node) (ctx : Ctx) : Nat :=
  1 + match node with
    | .rule name args => afterLookup (ctx.lookupRule env name args) cost.chase
    | _ => 0

/-- `validate_range`, /repo/src/validate.rs:998-1031: the end is looked at after the start. -/
def validateRangeN (self : Rec) (cost : Costs) (start stop : Node) (ctx : Ctx) : Nat :=
  cost.deref start ctx + match self.deref start ctx with
    | .ok _ => cost.deref stop ctx
    | _ => 0

/-- `validate_control_size`, /repo/src/validate.rs:1084-1101, and `validate_control_lt` and its like, l.1103-1209: the
target is looked at after the argument, if that makes sense. -/
def validateControlN (env : Env) (self : Rec) (cost : Costs) (op : CtlOp) (target arg : Node) (ctx : Ctx) : Nat :=
  cost.chase arg ctx + match self.chase arg ctx with
    | .ok a =>
      let sensible := match op with
        | .size => match normalizeSizeRange env a with | .ok _ => true | _ => false
        | _ => match limitOf env "" a with | .ok _ => true | _ => false
      if sensible then cost.chase target ctx else 0
    | _ => 0

/-- `validate_control_cbor`, /repo/src/validate.rs:1066-1082. -/
def validateControlCborN (env : Env) (cost : Costs) (node : Node) (v : Value) (ctx : Ctx) : Nat :=
  match v with
  | .bytes bytes =>
    match env.cborDecode bytes with
    | .error _ => 0
    | .ok c => match c.toValue with
      | .ok nested => cost.val nested node ctx
      | .error _ => 0
  | _ => 0

/-- One item of `validate_choiceify_members`, /repo/src/validate.rs:1585-1601. -/
def choiceifyItemN (cost : Costs) (v : Value) (ctx : Ctx) (item : Node) : Nat :=
  match item with
  | .keyValue _ value _ => cost.val v value ctx
  | .rule name args => cost.chf name args v ctx
  | item => cost.val v item ctx

/-- `validate_choiceify_members`, /repo/src/validate.rs:1579-1621. -/
def choiceifyMembersN (self : Rec) (cost : Costs) (choices : List Node) (v : Value) (ctx : Ctx) : Nat :=
  choiceLoopN (choiceifyItem self v ctx) (choiceifyItemN cost v ctx) choices

/-- `validate_choiceify`, /repo/src/validate.rs:1626-1635. -/
def chfN (env : Env) (self : Rec) (cost : Costs) (name : String) (args : List Node) (v : Value) (ctx : Ctx) : Nat :=
  1 + afterLookup (ctx.lookupRule env name args) fun n c =>
    match n with
    | .group members => choiceifyMembersN self cost members v c
    | .rule name' args' => cost.chf name' args' v c
    | _ => 0

/-- `validate_array_value`, /repo/src/validate.rs:641-655. -/
def arrayValueN (cost : Costs) (node : Node) (w : WArr) (ctx : Ctx) : Nat :=
  match w.array with
  | val :: _ => cost.val val node ctx
  | [] => 0

/-- Members one after the other on a working array. -/
def arraySeqN (self : Rec) (cost : Costs) (members : List Node) (w : WArr) (ctx : Ctx) : Nat :=
  seqLoopSN (fun m w => self.arr m w ctx) (fun m w => cost.arr m w ctx) members w

/-- `validate_array_member`, /repo/src/validate.rs:498-582. -/
def arrN (env : Env) (self : Rec) (cost : Costs) (member : Node) (w : WArr) (ctx : Ctx) : Nat :=
  1 + match member with
    | .occur limit node =>
      occurLoopSN (fun w => self.arr node w ctx) (fun w => cost.arr node w ctx) limit.limits.2 (limit.limits.2 + 1) 0 w
    | .keyValue _ value _ => arrayValueN cost value w ctx
    | .rule name args => afterLookup (ctx.lookupRule env name args) fun n c => cost.arr n w c
    | .unwrap name args => afterLookup (ctx.lookupRule env name args) fun n c =>
      match n with
      | .array members => arraySeqN self cost members w c
      | _ => 0
    | .choice options =>
      choiceLoopSN (fun m w => self.arr m w ctx) (fun m w => cost.arr m w ctx) Err.isFatal options w
    | .group members => arraySeqN self cost members w.snapshot ctx
    | m => arrayValueN cost m w ctx

/-- `map_search`, /repo/src/validate.rs:419-432; a literal key is looked up without calls (l.402-414). -/
def mapKeyN (self : Rec) (cost : Costs) (node : Node) (w : WMap) (ctx : Ctx) : Nat :=
  match node with
  | .literal _ => 0
  | n => mapSearchLoopN (fun key => self.val key n ctx) (fun key => cost.val key n ctx) w.map

/-- `validate_map_keyvalue`, /repo/src/validate.rs:918-958. -/
def mapKeyvalueN (env : Env) (self : Rec) (cost : Costs) (key value : Node) (w : WMap) (ctx : Ctx) : Nat :=
  mapKeyN self cost key w ctx + match validateMapKey env self key w ctx with
    | .ok kv => cost.val kv.2 value ctx
    | _ => 0

/-- Members one after the other on a working map. -/
def mapSeqN (self : Rec) (cost : Costs) (members : List Node) (w : WMap) (ctx : Ctx) : Nat :=
  seqLoopSN (fun m w => self.map m w ctx) (fun m w => cost.map m w ctx) members w

/-- `validate_map_choice`, /repo/src/validate.rs:767-791. -/
def mapChoiceN (self : Rec) (cost : Costs) (options : List Node) (w : WMap) (ctx : Ctx) : Nat :=
  choiceLoopSN (fun m w => self.map m w ctx) (fun m w => cost.map m w ctx) (fun e => !e.isMismatch) options w

/-- One item of `validate_map_choiceify_members`, /repo/src/validate.rs:805-822. -/
def mapChoiceifyItemN (cost : Costs) (ctx : Ctx) (item : Node) (w : WMap) : Nat :=
  match item with
  | .keyValue _ value _ => cost.map value w ctx
  | .rule name args => cost.mchf name args w ctx
  | item => cost.map item w ctx

/-- `validate_map_choiceify`, /repo/src/validate.rs:848-861, with `validate_map_choiceify_members`, l.794-843. -/
def mchfN (env : Env) (self : Rec) (cost : Costs) (name : String) (args : List Node) (w : WMap) (ctx : Ctx) : Nat :=
  1 + afterLookup (ctx.lookupRule env name args) fun n c =>
    match n with
    | .group members =>
      choiceLoopSN (mapChoiceifyItem self c) (mapChoiceifyItemN cost c) (fun e => !e.isMismatch) members w
    | .rule name' args' => cost.mchf name' args' w c
    | _ => 0

/-- `validate_map_member`, /repo/src/validate.rs:698-765. -/
def mapN (env : Env) (self : Rec) (cost : Costs) (member : Node) (w : WMap) (ctx : Ctx) : Nat :=
  1 + match member with
    | .occur limit node =>
      occurLoopSN (fun w => self.map node w ctx) (fun w => cost.map node w ctx) limit.limits.2 (limit.limits.2 + 1) 0 w
    | .keyValue key value _ => mapKeyvalueN env self cost key value w ctx
    | .rule name args => afterLookup (ctx.lookupRule env name args) fun n c => cost.map n w c
    | .unwrap name args => afterLookup (ctx.lookupRule env name args) fun n c =>
      match n with
      | .map members => mapSeqN self cost members w c
      | _ => 0
    | .group members => mapSeqN self cost members w.snapshot ctx
    | .choice options => mapChoiceN self cost options w ctx
    | .choiceify name args => cost.mchf name args w ctx
    | .choiceifyInline members => mapChoiceN self cost members w ctx
    | _ => 0

/-- `validate`, /repo/src/validate.rs:318-335. -/
def valN (env : Env) (self : Rec) (cost : Costs) (v : Value) (node : Node) (ctx : Ctx) : Nat :=
  1 + match node with
    | .choice options => choiceLoopN (fun n => self.val v n ctx) (fun n => cost.val v n ctx) options
    | .map members => match v with
      | .map m => mapSeqN self cost members (WMap.new m) ctx
      | _ => 0
    | .array members => match v with
      | .array a => arraySeqN self cost members (WArr.new a) ctx
      | _ => 0
    | .rule name args => afterLookup (ctx.lookupRule env name args) (cost.val v)
    | .group [m] => cost.val v m ctx
    | .range start stop _ => validateRangeN self cost start stop ctx
    | .ctl op target arg => validateControlN env self cost op target arg ctx
    | .ctlCbor n => validateControlCborN env cost n v ctx
    | .choiceify name args => cost.chf name args v ctx
    | .choiceifyInline members => choiceifyMembersN self cost members v ctx
    | _ => 0

/-- All of them. -/
def stepN (env : Env) (self : Rec) (cost : Costs) : Costs where
  val := valN env self cost
  chf := chfN env self cost
  arr := arrN env self cost
  map := mapN env self cost
  mchf := mchfN env self cost
  deref := derefN env cost
  chase := chaseN env cost

/-- The calls made with step budget `n`. -/
def costs (env : Env) : Nat → Costs
  | 0 => Costs.zero
  | n + 1 => stepN env (fns env n) (costs env n)

/-- Validation of `v` under `n` takes `m` calls: counted with a step budget with which validation returns. -/
def CallsMade (env : Env) (v : Value) (n : Node) (c : Ctx) (m : Nat) : Prop :=
  ∃ k, (fns env k).val v n c ≠ .fuel ∧ (costs env k).val v n c = m

end Cddl
