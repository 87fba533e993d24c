import Verif.Props.C18

/-! # C19  Member order of literal-key maps is irrelevant -/

namespace Cddl

/-- C19.  Reordering the fields of a map schema with distinct literal keys does not change which data is
accepted. -/
theorem C19_order (env : Env) (c : Ctx) (fs gs : List Field) (v : Value) (hv : v.WF) (hp : fs.Perm gs)
    (hd : (fs.map fun f => f.key.toValue).Nodup) :
    Accepts env c (.map (fs.map Field.node)) v ↔ Accepts env c (.map (gs.map Field.node)) v := by
  rw [C18_record env c fs v hv hd, C18_record env c gs v hv ((hp.map _).nodup_iff.mp hd)]
  simp only [RecordSat, hp.mem_iff]

/-- Without distinct keys the order matters: `{ "a" => int, * "a" => any }` accepts `{"a": 1}`, but
`{ * "a" => any, "a" => int }` does not. -/
example : Accepts (demoEnv []) top (.map [.keyValue (.literal (.text "a")) (.prelude .int) false,
      .occur .zeroOrMore (.keyValue (.literal (.text "a")) (.prelude .any) false)]) (.map [(.text "a", .integer 1)]) ∧
    ¬ Accepts (demoEnv []) top (.map [.occur .zeroOrMore (.keyValue (.literal (.text "a")) (.prelude .any) false),
      .keyValue (.literal (.text "a")) (.prelude .int) false]) (.map [(.text "a", .integer 1)]) := by
  refine ⟨accepts_of_fuel 60 (by decide), fun h => ?_⟩
  have : validate (demoEnv []) (.map [(.text "a", .integer 1)]) (.map [.occur .zeroOrMore (.keyValue (.literal (.text "a")) (.prelude .any) false),
      .keyValue (.literal (.text "a")) (.prelude .int) false]) top = .err (.mismatch "map{\"a\"}") :=
    validate_of_fuel 60 (by decide)
  unfold Accepts at h
  rw [this] at h
  cases h

example : personFields.Perm personFields.reverse := (List.reverse_perm _).symm

end Cddl
