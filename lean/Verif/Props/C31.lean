import Verif.Spec.Convert
import Verif.Proofs.VMap
import Verif.Proofs.ValueOrder

/-! # C31  Data order is lawful -/

namespace Cddl

/-- `Ord` on data is a total order: equal only on identical values, antisymmetric, transitive. -/
theorem C31_total_order :
    (∀ a b : Value, Value.cmp a b = .eq ↔ a = b) ∧
    (∀ a b : Value, Value.cmp a b = .lt ↔ Value.cmp b a = .gt) ∧
    (∀ a b c : Value, Value.cmp a b = .lt → Value.cmp b c = .lt → Value.cmp a c = .lt) := by
  refine ⟨Value.cmp_eq, fun a b => ?_, lawful_valueCmp.trans⟩
  rw [← Value.cmp_swap a b]
  cases Value.cmp a b <;> simp [Ordering.swap]

/-- `==` on data holds of identical values only. -/
theorem C31_equality (a b : Value) : Value.beq a b = true ↔ a = b := Value.beq_iff a b

theorem wf_inside {a b : Value} (h : a.Inside b) (hb : b.WF) : a.WF := by
  induction h with
  | refl => exact hb
  | elem hx _ ih => exact ih ((Value.WFArr_iff _).mp hb _ hx)
  | key hx _ ih => exact ih ((Value.WFMap_iff _).mp hb.2 _ hx).1
  | val hx _ ih => exact ih ((Value.WFMap_iff _).mp hb.2 _ hx).2

theorem wf_keys {m : VMap} (h : (Value.map m).WF) :
    (m.map (·.1)).Nodup ∧ ∀ k v, VMap.get m k = some v ↔ (k, v) ∈ m := by
  have hs := (VMap.sorted_iff _).mp h.1
  refine ⟨?_, fun k v => VMap.get_some hs⟩
  refine List.Pairwise.map _ (fun a b hab heq => ?_) hs
  rw [heq, (Value.cmp_eq _ _).mpr rfl] at hab
  cases hab

/-- No map anywhere in data read from CBOR holds two equal keys, and lookup finds exactly the pairs
that are present. -/
theorem C31_cbor_maps (c : Cbor) (v : Value) (h : c.toValue = .ok v) (m : VMap)
    (hm : (Value.map m).Inside v) :
    (m.map (·.1)).Nodup ∧ ∀ k x, VMap.get m k = some x ↔ (k, x) ∈ m :=
  wf_keys (wf_inside hm (Cbor.toValue_WF c v h))

/-- The same for data read from JSON. -/
theorem C31_json_maps (j : Json) (v : Value) (h : j.toValue = .ok v) (m : VMap)
    (hm : (Value.map m).Inside v) :
    (m.map (·.1)).Nodup ∧ ∀ k x, VMap.get m k = some x ↔ (k, x) ∈ m :=
  wf_keys (wf_inside hm (Json.toValue_WF j v h))

/-- C31.  The order is the one of Spec/ValueOrder.lean: kind by kind, numbers by size, lists in lexicographic order. -/
theorem C31_order (a b : Value) : Value.cmp a b = .lt ↔ Value.Before a b := Value.cmp_lt a b

theorem wf_order {m : VMap} (h : (Value.map m).WF) : m.Pairwise fun p q => Value.Before p.1 q.1 :=
  ((VMap.sorted_iff _).mp h.1).imp fun h => (C31_order _ _).mp h

/-- C31.  In data read from CBOR or JSON, the pairs of every map are in this order. -/
theorem C31_in_order (v : Value) (h : (∃ c : Cbor, c.toValue = .ok v) ∨ ∃ j : Json, j.toValue = .ok v) (m : VMap)
    (hm : (Value.map m).Inside v) : m.Pairwise fun p q => Value.Before p.1 q.1 := by
  refine wf_order (wf_inside hm ?_)
  rcases h with ⟨c, h⟩ | ⟨j, h⟩
  · exact Cbor.toValue_WF c v h
  · exact Json.toValue_WF j v h

/-! Examples: the map inside `[{1: 0, -1: 0, 1: 2}]`. -/

example : Cbor.toValue (.array [.map [(.integer 1, .integer 0), (.integer (-1), .integer 0), (.integer 1, .integer 2)]]) =
    .ok (.array [.map [(.integer (-1), .integer 0), (.integer 1, .integer 2)]]) := rfl

example : VMap.get [(.integer (-1), .integer 0), (.integer 1, .integer 2)] (.integer 1) = some (.integer 2) :=
  ((C31_cbor_maps
    (.array [.map [(.integer 1, .integer 0), (.integer (-1), .integer 0), (.integer 1, .integer 2)]])
    (.array [.map [(.integer (-1), .integer 0), (.integer 1, .integer 2)]]) rfl _
    (.elem (.head _) .refl)).2 _ _).mpr (.tail _ (.head _))

/-- The two zeros and the two signs of NaN are distinct keys. -/
example : Value.cmp (.float ⟨0x8000000000000000⟩) (.float ⟨0⟩) = .lt := by decide

/-- `true`, -1, 2.5, h'ff', "Z", "a", "aa", "é", `[]`, `{}` in this order. -/
example : [Value.bool true, .integer (-1), .float ⟨0x4004000000000000⟩, .bytes [255], .text "Z", .text "a", .text "aa", .text "é",
    .array [], .map []].Pairwise Value.Before :=
  List.Pairwise.imp (R := fun a b => Value.cmp a b = .lt) (fun h => (C31_order _ _).mp h) (by decide)

/-- -∞ < -2.5 < -1.5 < -0 < 0 < 1.5 < NaN. -/
example : [F64.mk 0xFFF0000000000000, ⟨0xC004000000000000⟩, ⟨0xBFF8000000000000⟩, ⟨0x8000000000000000⟩, ⟨0⟩, ⟨0x3FF8000000000000⟩,
    ⟨0x7FF8000000000000⟩].Pairwise fun f g => Value.Before (.float f) (.float g) := by
  simp only [← C31_order]
  decide

end Cddl
