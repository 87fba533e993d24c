import Verif.Spec.Entry
import Verif.Proofs.Collect

/-! # C29  JSON conversion -/

namespace Cddl

mutual
theorem json_ok : ∀ c : Json, ∃ v, c.toValue = .ok v ∧ JsonIs c v
  | .null => ⟨_, rfl, .null⟩
  | .bool b => ⟨_, rfl, .bool b⟩
  | .number (.posInt n) => ⟨_, rfl, .nat n⟩
  | .number (.negInt i) => ⟨_, rfl, .negative i⟩
  | .number (.float f) => ⟨_, rfl, .float f⟩
  | .string s => ⟨_, rfl, .string s⟩
  | .array xs => by
    obtain ⟨vs, h1, h2⟩ := jsons_ok xs
    exact ⟨_, by rw [Json.toValue, h1]; rfl, .array h2⟩
  | .object m => by
    obtain ⟨vs, h1, h2⟩ := jsonPairs_ok m
    exact ⟨_, by rw [Json.toValue, h1]; rfl, .object h2 (collect_sorted vs) fun _ _ => mem_collect⟩
theorem jsons_ok : ∀ c : List Json, ∃ v, Json.toValues c = .ok v ∧ JsonsAre c v
  | [] => ⟨_, rfl, .nil⟩
  | x :: xs => by
    obtain ⟨v, h1, h2⟩ := json_ok x
    obtain ⟨vs, h3, h4⟩ := jsons_ok xs
    exact ⟨_, by rw [Json.toValues, h1, h3]; rfl, .cons h2 h4⟩
theorem jsonPairs_ok : ∀ c : List (String × Json), ∃ v, Json.toPairs c = .ok v ∧ JsonPairsAre c v
  | [] => ⟨_, rfl, .nil⟩
  | (k, x) :: xs => by
    obtain ⟨v, h1, h2⟩ := json_ok x
    obtain ⟨vs, h3, h4⟩ := jsonPairs_ok xs
    exact ⟨_, by rw [Json.toPairs, h1, h3]; rfl, .cons h2 h4⟩
end

mutual
theorem jsonIs_unique : ∀ {c : Json} {v w : Value}, JsonIs c v → JsonIs c w → v = w
  | _, _, _, .null, .null | _, _, _, .bool _, .bool _ | _, _, _, .nat _, .nat _
  | _, _, _, .negative _, .negative _ | _, _, _, .float _, .float _ | _, _, _, .string _, .string _ => rfl
  | _, _, _, .array h, .array h' => by rw [jsonsAre_unique h h']
  | _, _, _, .object h hs hm, .object h' hs' hm' => by
    rw [collect_unique hs hm, collect_unique hs' hm', jsonPairsAre_unique h h']
theorem jsonsAre_unique : ∀ {c : List Json} {v w : List Value}, JsonsAre c v → JsonsAre c w → v = w
  | _, _, _, .nil, .nil => rfl
  | _, _, _, .cons h t, .cons h' t' => by rw [jsonIs_unique h h', jsonsAre_unique t t']
theorem jsonPairsAre_unique : ∀ {c : List (String × Json)} {v w : List (Value × Value)},
    JsonPairsAre c v → JsonPairsAre c w → v = w
  | _, _, _, .nil, .nil => rfl
  | _, _, _, .cons h t, .cons h' t' => by rw [jsonIs_unique h h', jsonPairsAre_unique t t']
end

/-- Every JSON value converts, to exactly the value it stands for (see `JsonIs`: whole numbers that
serde_json keeps as `u64` or `i64` become integers, all other numbers floats), and `validate_json` is
validation of that value. -/
theorem C29_conversion (env : Env) (rd : RuleDef) (j : Json) :
    ∃ v, JsonIs j v ∧ (∀ w, JsonIs j w → w = v) ∧ j.toValue = .ok v ∧
      validateJson env rd j = doValidate env v rd := by
  obtain ⟨v, h1, h2⟩ := json_ok j
  exact ⟨v, h2, fun w hw => jsonIs_unique hw h2, h1, by unfold validateJson; rw [h1]; rfl⟩

/-- An integer comes only from a number that serde_json keeps as an integer, a float only from one
that it keeps as a float. -/
theorem C29_numbers (j : Json) :
    (∀ i, j.toValue = .ok (.integer i) ↔
      (∃ n : Nat, j = .number (.posInt n) ∧ i = n) ∨ j = .number (.negInt i)) ∧
    (∀ f, j.toValue = .ok (.float f) ↔ j = .number (.float f)) := by
  have key : ∀ v, j.toValue = .ok v ↔ JsonIs j v := fun v => by
    obtain ⟨w, h1, h2⟩ := json_ok j
    rw [h1]
    exact ⟨fun h => by cases h; exact h2, fun h => by rw [jsonIs_unique h h2]⟩
  constructor
  · intro i
    rw [key]
    constructor
    · intro h; cases h with
      | nat n => exact .inl ⟨n, rfl, rfl⟩
      | negative => exact .inr rfl
    · rintro (⟨n, rfl, rfl⟩ | rfl)
      · exact .nat n
      · exact .negative i
  · intro f
    rw [key]
    constructor
    · intro h; cases h; rfl
    · rintro rfl; exact .float f

/-- The members of an object, whose names are distinct, may be listed in any order. -/
theorem C29_object_order (env : Env) (rd : RuleDef) (xs ys : List (String × Json)) (hp : xs.Perm ys)
    (hd : (xs.map (·.1)).Nodup) : validateJson env rd (.object xs) = validateJson env rd (.object ys) := by
  obtain ⟨ps, h1, hx⟩ := jsonPairs_ok xs
  have hkeys : ∀ {l : List (String × Json)} {p}, JsonPairsAre l p → p.map (·.1) = (l.map (·.1)).map Value.text := by
    intro l
    induction l with
    | nil => intro p h; cases h; rfl
    | cons a l ih => intro p h; cases h with | cons h t => simp [ih t]
  have : ∃ qs, ps.Perm qs ∧ JsonPairsAre ys qs := by
    clear hd h1
    induction hp generalizing ps with
    | nil => exact ⟨ps, .refl _, hx⟩
    | cons x _ ih =>
      cases hx with
      | cons h2 h3 => obtain ⟨qs, hq, h⟩ := ih _ h3; exact ⟨_, hq.cons _, .cons h2 h⟩
    | swap x y l =>
      cases hx with
      | cons h2 h3 => cases h3 with | cons h5 h6 => exact ⟨_, .swap .., .cons h5 (.cons h2 h6)⟩
    | trans _ _ ih1 ih2 =>
      obtain ⟨q, h1, h2⟩ := ih1 _ hx
      obtain ⟨r, h3, h4⟩ := ih2 _ h2
      exact ⟨r, h1.trans h3, h4⟩
  obtain ⟨qs, hq, hy⟩ := this
  obtain ⟨qs', h2, hy'⟩ := jsonPairs_ok ys
  obtain rfl := jsonPairsAre_unique hy hy'
  unfold validateJson Json.toValue
  rw [h1, h2]
  show doValidate env (.map (VMap.extend [] ps)) rd = doValidate env (.map (VMap.extend [] qs)) rd
  rw [collect_perm hq]
  rw [hkeys hx]
  refine List.Pairwise.map _ (fun a b h => ?_) hd
  simpa using h

/-! Examples. -/

example : JsonIs (.object [("b", .number (.posInt 3)), ("a", .array [.number (.negInt (-2)), .null])])
    (.map [(.text "a", .array [.integer (-2), .null]), (.text "b", .integer 3)]) := by
  obtain ⟨v, h1, h2⟩ := json_ok (.object [("b", .number (.posInt 3)), ("a", .array [.number (.negInt (-2)), .null])])
  cases h1
  exact h2

example (env : Env) (rd : RuleDef) :
    validateJson env rd (.object [("b", .null), ("a", .bool true)]) =
    validateJson env rd (.object [("a", .bool true), ("b", .null)]) :=
  C29_object_order env rd _ _ (.swap ..) (by decide)

/-- 1.0 is a float, not an integer: `int` rejects it, `float` accepts it. -/
example : validateJson (demoEnv []) ⟨[], .prelude .float⟩ (.number (.float ⟨0x3FF0000000000000⟩)) = .ok () := by
  obtain ⟨v, hv, hu, -, h⟩ := C29_conversion (demoEnv []) ⟨[], .prelude .float⟩ (.number (.float ⟨0x3FF0000000000000⟩))
  rw [h, ← hu _ (.float _)]
  exact doValidate_of_fuel (k := 60) (by decide) (by decide)

end Cddl
