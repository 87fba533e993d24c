import Verif.Spec.Entry
import Verif.Proofs.Collect

/-! # C28  CBOR conversion -/

namespace Cddl

theorem except_bind_ok {ε α β : Type} {x : Except ε α} {f : α → Except ε β} {b : β} :
    x.bind f = .ok b ↔ ∃ a, x = .ok a ∧ f a = .ok b := by
  cases x <;> simp [Except.bind]

theorem except_bind_error {ε α β : Type} {x : Except ε α} {f : α → Except ε β} {e : ε} :
    x.bind f = .error e ↔ x = .error e ∨ ∃ a, x = .ok a ∧ f a = .error e := by
  cases x <;> simp [Except.bind]

mutual
theorem cbor_ok : ∀ (c : Cbor) (v : Value), c.toValue = .ok v ↔ CborIs c v
  | .null, v | .bool _, v | .integer _, v | .float _, v | .bytes _, v | .text _, v => by
    simp only [Cbor.toValue, Except.ok.injEq]
    exact ⟨fun h => h ▸ by constructor, fun h => by cases h; rfl⟩
  | .tag _ _, v => by
    simp only [Cbor.toValue, reduceCtorEq, false_iff]
    exact fun h => by cases h
  | .array xs, v => by
    simp only [Cbor.toValue, except_bind_ok, Except.ok.injEq]
    constructor
    · rintro ⟨vs, h, rfl⟩; exact .array ((cbors_ok xs vs).mp h)
    · intro h; cases h with | array h => exact ⟨_, (cbors_ok xs _).mpr h, rfl⟩
  | .map m, v => by
    simp only [Cbor.toValue, except_bind_ok, Except.ok.injEq]
    constructor
    · rintro ⟨ps, h, rfl⟩
      exact .map ((cborPairs_ok m ps).mp h) (collect_sorted ps) fun _ _ => mem_collect
    · intro h
      cases h with
      | map h hs hm => exact ⟨_, (cborPairs_ok m _).mpr h, by rw [collect_unique hs hm]⟩
theorem cbors_ok : ∀ (c : List Cbor) (v : List Value), Cbor.toValues c = .ok v ↔ CborsAre c v
  | [], v => by
    simp only [Cbor.toValues, Except.ok.injEq]
    exact ⟨fun h => h ▸ by constructor, fun h => by cases h; rfl⟩
  | x :: xs, v => by
    simp only [Cbor.toValues, except_bind_ok, Except.ok.injEq]
    constructor
    · rintro ⟨a, h, as, h', rfl⟩; exact .cons ((cbor_ok x a).mp h) ((cbors_ok xs as).mp h')
    · intro h; cases h with | cons h h' => exact ⟨_, (cbor_ok x _).mpr h, _, (cbors_ok xs _).mpr h', rfl⟩
theorem cborPairs_ok : ∀ (c : List (Cbor × Cbor)) (v : List (Value × Value)),
    Cbor.toPairs c = .ok v ↔ CborPairsAre c v
  | [], v => by
    simp only [Cbor.toPairs, Except.ok.injEq]
    exact ⟨fun h => h ▸ by constructor, fun h => by cases h; rfl⟩
  | (k, x) :: xs, v => by
    simp only [Cbor.toPairs, except_bind_ok, Except.ok.injEq]
    constructor
    · rintro ⟨a, h, b, h1, as, h', rfl⟩
      exact .cons ((cbor_ok k a).mp h) ((cbor_ok x b).mp h1) ((cborPairs_ok xs as).mp h')
    · intro h
      cases h with
      | cons h h1 h' => exact ⟨_, (cbor_ok k _).mpr h, _, (cbor_ok x _).mpr h1, _, (cborPairs_ok xs _).mpr h', rfl⟩
end

/-- The error of the catch-all arm. -/
abbrev tagError : Err := .valueError "can't handle hidden cbor Value"

mutual
theorem cbor_err : ∀ (c : Cbor), (c.hasTag = true → c.toValue = .error tagError) ∧
    (c.hasTag = false → ∃ v, c.toValue = .ok v)
  | .null | .bool _ | .integer _ | .float _ | .bytes _ | .text _ | .tag _ _ => by
    simp [Cbor.hasTag, Cbor.toValue]
  | .array xs => by
    have := cbors_err xs
    simp only [Cbor.hasTag, Cbor.toValue]
    constructor
    · intro h; rw [this.1 h]; rfl
    · intro h; obtain ⟨v, hv⟩ := this.2 h; exact ⟨.array v, by rw [hv]; rfl⟩
  | .map xs => by
    have := cborPairs_err xs
    simp only [Cbor.hasTag, Cbor.toValue]
    constructor
    · intro h; rw [this.1 h]; rfl
    · intro h; obtain ⟨v, hv⟩ := this.2 h; exact ⟨.map (VMap.extend [] v), by rw [hv]; rfl⟩
theorem cbors_err : ∀ (c : List Cbor), (Cbor.hasTags c = true → Cbor.toValues c = .error tagError) ∧
    (Cbor.hasTags c = false → ∃ v, Cbor.toValues c = .ok v)
  | [] => by simp [Cbor.hasTags, Cbor.toValues]
  | x :: xs => by
    have h1 := cbor_err x
    have h2 := cbors_err xs
    simp only [Cbor.hasTags, Cbor.toValues]
    cases hx : x.hasTag with
    | true => rw [h1.1 hx]; exact ⟨fun _ => rfl, fun h => by simp at h⟩
    | false =>
      obtain ⟨v, hv⟩ := h1.2 hx
      rw [hv, Bool.false_or]
      constructor
      · intro h; show (Cbor.toValues xs).bind _ = _; rw [h2.1 h]; rfl
      · intro h; obtain ⟨w, hw⟩ := h2.2 h; exact ⟨v :: w, by show (Cbor.toValues xs).bind _ = _; rw [hw]; rfl⟩
theorem cborPairs_err : ∀ (c : List (Cbor × Cbor)), (Cbor.hasTagPairs c = true → Cbor.toPairs c = .error tagError) ∧
    (Cbor.hasTagPairs c = false → ∃ v, Cbor.toPairs c = .ok v)
  | [] => by simp [Cbor.hasTagPairs, Cbor.toPairs]
  | (k, x) :: xs => by
    have h0 := cbor_err k
    have h1 := cbor_err x
    have h2 := cborPairs_err xs
    simp only [Cbor.hasTagPairs, Cbor.toPairs]
    cases hk : k.hasTag with
    | true => rw [h0.1 hk]; exact ⟨fun _ => rfl, fun h => by simp at h⟩
    | false =>
      obtain ⟨u, hu⟩ := h0.2 hk
      rw [hu, Bool.false_or]
      show (_ → x.toValue.bind _ = _) ∧ (_ → ∃ v, x.toValue.bind _ = _)
      cases hx : x.hasTag with
      | true => rw [h1.1 hx]; exact ⟨fun _ => rfl, fun h => by simp at h⟩
      | false =>
        obtain ⟨v, hv⟩ := h1.2 hx
        rw [hv, Bool.false_or]
        show (_ → (Cbor.toPairs xs).bind _ = _) ∧ (_ → ∃ v, (Cbor.toPairs xs).bind _ = _)
        constructor
        · intro h; rw [h2.1 h]; rfl
        · intro h; obtain ⟨w, hw⟩ := h2.2 h; rw [hw]; exact ⟨_, rfl⟩
end

/-- The conversion of `validate_cbor` gives exactly the value the data stands for. -/
theorem C28_conversion (c : Cbor) (v : Value) : c.toValue = .ok v ↔ CborIs c v := cbor_ok c v

/-- CBOR data without tags stands for exactly one value, and is validated as that value. -/
theorem C28_untagged (env : Env) (rd : RuleDef) (c : Cbor) (h : c.hasTag = false) :
    ∃ v, CborIs c v ∧ (∀ w, CborIs c w → w = v) ∧ validateCbor env rd c = doValidate env v rd := by
  obtain ⟨v, hv⟩ := (cbor_err c).2 h
  refine ⟨v, (cbor_ok c v).mp hv, fun w hw => ?_, by unfold validateCbor; rw [hv]; rfl⟩
  have := (cbor_ok c w).mpr hw
  rw [hv] at this
  exact (Except.ok.inj this).symm

/-- CBOR data with a tag anywhere is reported as a `ValueError` by `validate_cbor`, whatever the
schema and the rules. -/
theorem C28_tagged (env : Env) (rd : RuleDef) (c : Cbor) (h : c.hasTag = true) :
    validateCbor env rd c = .err (.valueError "can't handle hidden cbor Value") := by
  unfold validateCbor
  rw [(cbor_err c).1 h]
  rfl

theorem cborPairs_append {xs ys : List (Cbor × Cbor)} {vs : List (Value × Value)} :
    CborPairsAre (xs ++ ys) vs ↔ ∃ a b, vs = a ++ b ∧ CborPairsAre xs a ∧ CborPairsAre ys b := by
  induction xs generalizing vs with
  | nil =>
    constructor
    · intro h; exact ⟨[], vs, rfl, .nil, h⟩
    · rintro ⟨a, b, rfl, h1, h2⟩; cases h1; exact h2
  | cons p xs ih =>
    constructor
    · intro h
      cases h with
      | cons hk hv h =>
        obtain ⟨a, b, rfl, h1, h2⟩ := ih.mp h
        exact ⟨_ :: a, b, rfl, .cons hk hv h1, h2⟩
    · rintro ⟨a, b, rfl, h1, h2⟩
      cases h1 with
      | cons hk hv h1 => exact .cons hk hv (ih.mpr ⟨_, b, rfl, h1, h2⟩)

/-- A pair of a CBOR map followed later by a pair with the same key can be left out: the result of
validation is the same. -/
theorem C28_duplicate_keys (env : Env) (rd : RuleDef) (xs ys zs : List (Cbor × Cbor)) (k k2 a b : Cbor)
    (key : Value) (hk : CborIs k key) (hk2 : CborIs k2 key) (ha : a.hasTag = false) :
    validateCbor env rd (.map (xs ++ (k, a) :: ys ++ (k2, b) :: zs)) =
    validateCbor env rd (.map (xs ++ ys ++ (k2, b) :: zs)) := by
  have hkT : k.hasTag = false := by
    have := cbor_err k
    rw [(cbor_ok _ _).mpr hk] at this
    cases h : k.hasTag <;> simp_all
  have tagApp : ∀ p q : List (Cbor × Cbor), Cbor.hasTagPairs (p ++ q) = (Cbor.hasTagPairs p || Cbor.hasTagPairs q) := by
    intro p q
    induction p with
    | nil => rfl
    | cons x p ih => simp [Cbor.hasTagPairs, ih, Bool.or_assoc]
  have htag : (Cbor.map (xs ++ (k, a) :: ys ++ (k2, b) :: zs)).hasTag =
      (Cbor.map (xs ++ ys ++ (k2, b) :: zs)).hasTag := by
    simp only [Cbor.hasTag, tagApp, Cbor.hasTagPairs, hkT, ha, Bool.false_or]
  cases hT : (Cbor.map (xs ++ ys ++ (k2, b) :: zs)).hasTag with
  | true => rw [C28_tagged _ _ _ hT, C28_tagged _ _ _ (htag.trans hT)]
  | false =>
    obtain ⟨v, hv, -, hvr⟩ := C28_untagged env rd _ hT
    obtain ⟨w, hw, -, hwr⟩ := C28_untagged env rd _ (htag.trans hT)
    rw [hvr, hwr]
    congr 1
    cases hv with
    | map hp hs hm =>
      cases hw with
      | map hp' hs' hm' =>
        rw [collect_unique hs hm, collect_unique hs' hm']
        congr 1
        obtain ⟨pxy, pz, rfl, h1, h2⟩ := cborPairs_append.mp hp
        obtain ⟨px, py, rfl, h3, h4⟩ := cborPairs_append.mp h1
        obtain ⟨qxy, qz, rfl, g1, g2⟩ := cborPairs_append.mp hp'
        obtain ⟨qx, qay, rfl, g3, g4⟩ := cborPairs_append.mp g1
        cases g4 with
        | cons gk ga g4 =>
        have uniq : ∀ {c v w}, CborIs c v → CborIs c w → v = w := fun {c v w} h h' => by
          have h := (cbor_ok c v).mpr h
          have h' := (cbor_ok c w).mpr h'
          rw [h] at h'
          exact Except.ok.inj h'
        have uniqP : ∀ {c v w}, CborPairsAre c v → CborPairsAre c w → v = w := fun {c v w} h h' => by
          have h := (cborPairs_ok c v).mpr h
          have h' := (cborPairs_ok c w).mpr h'
          rw [h] at h'
          exact Except.ok.inj h'
        obtain rfl := uniqP h3 g3
        obtain rfl := uniqP h4 g4
        obtain rfl := uniqP h2 g2
        obtain rfl := uniq gk hk
        cases h2 with
        | cons e1 e2 e3 =>
        obtain rfl := uniq e1 hk2
        exact collect_drop _ _ _ _ _ _

/-- The order of the pairs of a CBOR map does not matter if the keys are distinct. -/
theorem C28_order (env : Env) (rd : RuleDef) (xs ys : List (Cbor × Cbor)) (ps : List (Value × Value))
    (hp : xs.Perm ys) (hx : CborPairsAre xs ps) (hd : (ps.map (·.1)).Nodup) :
    validateCbor env rd (.map xs) = validateCbor env rd (.map ys) := by
  have : ∃ qs, ps.Perm qs ∧ CborPairsAre ys qs := by
    clear hd
    induction hp generalizing ps with
    | nil => exact ⟨ps, .refl _, hx⟩
    | cons x _ ih =>
      cases hx with
      | cons h1 h2 h3 => obtain ⟨qs, hq, h⟩ := ih _ h3; exact ⟨_, hq.cons _, .cons h1 h2 h⟩
    | swap x y l =>
      cases hx with
      | cons h1 h2 h3 => cases h3 with | cons h4 h5 h6 => exact ⟨_, .swap .., .cons h4 h5 (.cons h1 h2 h6)⟩
    | trans _ _ ih1 ih2 =>
      obtain ⟨q, h1, h2⟩ := ih1 _ hx
      obtain ⟨r, h3, h4⟩ := ih2 _ h2
      exact ⟨r, h1.trans h3, h4⟩
  obtain ⟨qs, hq, hy⟩ := this
  unfold validateCbor Cbor.toValue
  rw [(cborPairs_ok _ _).mpr hx, (cborPairs_ok _ _).mpr hy]
  show doValidate env (.map (VMap.extend [] ps)) rd = doValidate env (.map (VMap.extend [] qs)) rd
  rw [collect_perm hq hd]

/-! Examples: a map with the key 1 twice, and a tag inside a map inside an array. -/

example : CborIs (.map [(.integer 1, .text "a"), (.null, .null), (.integer 1, .text "b")])
    (.map [(.null, .null), (.integer 1, .text "b")]) :=
  (C28_conversion _ _).mp rfl

example (env : Env) (rd : RuleDef) :
    validateCbor env rd (.map [(.integer 1, .text "a"), (.null, .null), (.integer 1, .text "b")]) =
    validateCbor env rd (.map [(.null, .null), (.integer 1, .text "b")]) :=
  C28_duplicate_keys env rd [] [(.null, .null)] [] (.integer 1) (.integer 1) (.text "a") (.text "b")
    (.integer 1) (.integer 1) (.integer 1) rfl

example (env : Env) (rd : RuleDef) :
    validateCbor env rd (.array [.map [(.text "t", .tag 0 (.text "2020"))]]) = .err tagError :=
  C28_tagged env rd _ rfl

/-- `[* tstr]` accepts `["a"]` read from CBOR. -/
example : validateCbor (demoEnv []) ⟨[], .array [.occur .zeroOrMore (.prelude .tstr)]⟩ (.array [.text "a"]) = .ok () := by
  obtain ⟨v, hv, hu, h⟩ := C28_untagged (demoEnv []) ⟨[], .array [.occur .zeroOrMore (.prelude .tstr)]⟩
    (.array [.text "a"]) rfl
  rw [h, ← hu (.array [.text "a"]) (.array (.cons (.text "a") .nil))]
  exact doValidate_of_fuel (k := 60) (by decide) (by decide)

end Cddl
