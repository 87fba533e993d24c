import Verif.Spec.Demo
import Verif.Proofs.Safe

/-! # C02  Validation never panics -/

namespace Cddl

/-- C02.  The validator never panics, for every schema and every value whose maps are sorted, which
is what a `BTreeMap` always is. -/
theorem C02_no_panic (env : Env) (v : Value) (rd : RuleDef) (hv : v.WF) :
    doValidate env v rd ≠ .panic := by
  unfold doValidate
  split
  · simp
  · intro h
    have := (lim_good (OkErr.triv env)).val v rd.node (.root 0) hv
    rw [h] at this
    exact this

/-- C02 for converted CBOR data: no side condition is left. -/
theorem C02_no_panic_cbor (env : Env) (d : Cbor) (v : Value) (rd : RuleDef) (h : d.toValue = .ok v) :
    doValidate env v rd ≠ .panic := C02_no_panic env v rd (d.toValue_WF v h)

/-- C02 for converted JSON data. -/
theorem C02_no_panic_json (env : Env) (d : Json) (v : Value) (rd : RuleDef) (h : d.toValue = .ok v) :
    doValidate env v rd ≠ .panic := C02_no_panic env v rd (d.toValue_WF v h)

/-- A case that takes and rewinds snapshots: `[ (int, tstr) / int, int ]` on `[1, 2]`. -/
example : doValidate (demoEnv []) (.array [.integer 1, .integer 2])
    ⟨[], .array [.choice [.group [.prelude .int, .prelude .tstr], .prelude .int], .prelude .int]⟩ =
    .ok () :=
  doValidate_of_fuel (k := 60) (by decide) (by decide)

example : (Value.map [(.text "a", .integer 1), (.text "b", .null)]).WF := by
  simp [Value.WF, VMap.Sorted, Value.WFMap]; decide

end Cddl
