import Verif.Proofs.Field

/-! # C18  Closed records in maps -/

namespace Cddl

/-- C18.  A map schema made of fields with pairwise distinct literal keys, some optional, accepts exactly
the maps that have all required keys, no unknown keys, and accepted values. -/
theorem C18_record (env : Env) (c : Ctx) (fs : List Field) (v : Value) (hv : v.WF)
    (hd : (fs.map fun f => f.key.toValue).Nodup) :
    Accepts env c (.map (fs.map Field.node)) v ↔ ∃ m, v = .map m ∧ RecordSat env c fs m := by
  rw [map_accepts]
  constructor
  · rintro ⟨m, rfl, h⟩
    exact ⟨m, rfl, (record_map_seq fs hd (WMap.new m) ((VMap.sorted_iff _).mp hv.1)).mp h⟩
  · rintro ⟨m, rfl, h⟩
    exact ⟨m, rfl, (record_map_seq fs hd (WMap.new m) ((VMap.sorted_iff _).mp hv.1)).mpr h⟩

/-- The fields of `{ name: tstr, ? "age" => uint, ? 7: nil }`. -/
def personFields : List Field :=
  [⟨.text "name", .prelude .tstr, false, true⟩, ⟨.text "age", .prelude .uint, true, false⟩,
   ⟨.int 7, .prelude .nil, true, true⟩]

example : (personFields.map fun f => f.key.toValue).Nodup := by
  simp [personFields, Literal.toValue]

example : Accepts (demoEnv []) top (.map (personFields.map Field.node))
    (.map [(.text "age", .integer 3), (.text "name", .text "x")]) := by
  have hwf : (Value.map [(.text "age", .integer 3), (.text "name", .text "x")]).WF :=
    ⟨⟨by decide, trivial⟩, trivial, trivial, trivial, trivial, trivial⟩
  refine (C18_record _ _ _ _ hwf
    (by simp [personFields, Literal.toValue])).mpr ⟨_, rfl, ?_, ?_, ?_⟩
  · intro f hf ho
    simp only [personFields, List.mem_cons, List.not_mem_nil, or_false] at hf
    rcases hf with rfl | rfl | rfl
    · exact ⟨.text "x", by simp [Literal.toValue]⟩
    · cases ho
    · cases ho
  · intro f hf u hu
    simp only [personFields, List.mem_cons, List.not_mem_nil, or_false] at hf
    rcases hf with rfl | rfl | rfl
    · simp [Literal.toValue] at hu; subst hu; exact accepts_of_fuel 60 (by decide)
    · simp [Literal.toValue] at hu; subst hu; exact accepts_of_fuel 60 (by decide)
    · simp [Literal.toValue] at hu
  · intro k u hu
    simp only [List.mem_cons, Prod.mk.injEq, List.not_mem_nil, or_false] at hu
    rcases hu with ⟨rfl, -⟩ | ⟨rfl, -⟩
    · exact ⟨_, .tail _ (.head _), rfl⟩
    · exact ⟨_, .head _, rfl⟩

/-- C18.  Other data than maps is a mismatch. -/
theorem C18_not_map (env : Env) (c : Ctx) (ms : List Node) (v : Value) (h : ∀ m, v ≠ .map m) :
    ∃ m, validate env v (.map ms) c = .err (.mismatch m) := by
  unfold validate
  rw [val_eq]
  cases v with
  | map m => exact absurd rfl (h m)
  | _ => exact ⟨_, rfl⟩

example : ∃ m, validate (demoEnv []) (.array []) (.map (personFields.map Field.node)) top = .err (.mismatch m) :=
  C18_not_map _ _ _ _ (by simp)

end Cddl
