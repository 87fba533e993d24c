import Verif.Spec.Print
import Verif.Model.Ivt

/-! # The schema of one datum -/

namespace Cddl

open Ast (Ty1 Ty2 GrpEnt)

mutual
/-- The type that describes just this datum. -/
def Value.own : Value → Node
  | .null => .prelude .nil
  | .bool b => .literal (.bool b)
  | .integer i => .literal (.int i)
  | .float f => .literal (.float f)
  | .bytes b => .literal (.bytes b)
  | .text s => .literal (.text s)
  | .array xs => .array (Value.ownL xs)
  | .map m => .map (Value.ownM m)
/-- The members of an array. -/
def Value.ownL : List Value → List Node
  | [] => []
  | x :: xs => x.own :: Value.ownL xs
/-- The members of a map. -/
def Value.ownM : List (Value × Value) → List Node
  | [] => []
  | (k, v) :: m => .keyValue k.own v.own false :: Value.ownM m
end

mutual
/-- The same as a syntax tree. -/
def Value.ownTy : Value → Ty2
  | .null => .typename "nil" []
  | .bool true => .typename "true" []
  | .bool false => .typename "false" []
  | .integer i => .value (if 0 ≤ i then .uint i.toNat else .nint i)
  | .float f => .value (.float f)
  | .bytes b => .value (.bytes b)
  | .text s => .value (.text s)
  | .array xs => .array [Value.ownTyL xs]
  | .map m => .map [Value.ownTyM m]
/-- The members of an array. -/
def Value.ownTyL : List Value → List GrpEnt
  | [] => []
  | x :: xs => .mk none (.member [.simple x.ownTy]) :: Value.ownTyL xs
/-- The members of a map. -/
def Value.ownTyM : List (Value × Value) → List GrpEnt
  | [] => []
  | (k, v) :: m => .mk none (.keyed (.type1 (.simple k.ownTy)) false [.simple v.ownTy]) :: Value.ownTyM m
end

/-- The schema with that type as its only rule. -/
def Value.ownSchema (name : String) (v : Value) : Ast.Cddl := [⟨name, [], .assignType [.simple v.ownTy]⟩]

/-- The schema with the types of several data as the options of its only rule. -/
def Value.ownChoice (name : String) (vs : List Value) : Ast.Cddl := [⟨name, [], .assignType (vs.map fun v => .simple v.ownTy)⟩]

mutual
/-- The numbers and texts in the datum can be written in a schema. -/
def Value.Spelled (x : ParseExt) (p : PrintExt) : Value → Prop
  | .null => True
  | .bool _ => True
  | .integer i => -2 ^ 63 < i ∧ i < 2 ^ 64
  | .float f => OkValue x p (.float f)
  | .bytes _ => True
  | .text s => OkValue x p (.text s)
  | .array xs => Value.SpelledL x p xs
  | .map m => Value.SpelledM x p m
/-- The same for the elements of an array. -/
def Value.SpelledL (x : ParseExt) (p : PrintExt) : List Value → Prop
  | [] => True
  | v :: vs => v.Spelled x p ∧ Value.SpelledL x p vs
/-- The same for the entries of a map. -/
def Value.SpelledM (x : ParseExt) (p : PrintExt) : List (Value × Value) → Prop
  | [] => True
  | (k, v) :: m => k.Spelled x p ∧ v.Spelled x p ∧ Value.SpelledM x p m
end

end Cddl
