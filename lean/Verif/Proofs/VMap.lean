import Verif.Proofs.Order
import Verif.Model.Convert

/-! # Sorted association lists behave like finite maps -/

namespace Cddl

namespace VMap

/-- Sortedness, pairwise. -/
def PW (m : VMap) : Prop := m.Pairwise fun a b => Value.cmp a.1 b.1 = .lt

theorem sorted_iff : ∀ m : VMap, Sorted m ↔ PW m
  | [] => by simp [Sorted, PW]
  | [_] => by simp [Sorted, PW]
  | (k, v) :: (k', v') :: t => by
    have ih := sorted_iff ((k', v') :: t)
    simp only [Sorted, ih]
    unfold PW
    rw [List.pairwise_cons (a := (k, v))]
    constructor
    · rintro ⟨h1, h2⟩
      refine ⟨fun p hp => ?_, h2⟩
      rcases List.mem_cons.mp hp with rfl | hp
      · exact h1
      · exact Value.cmp_trans _ _ _ h1 ((List.pairwise_cons.mp h2).1 p hp)
    · rintro ⟨h1, h2⟩
      exact ⟨h1 (k', v') (by simp), h2⟩

theorem PW.tail {p : Value × Value} {m : VMap} (h : PW (p :: m)) : PW m :=
  (List.pairwise_cons.mp h).2

theorem PW.head {p q : Value × Value} {m : VMap} (h : PW (p :: m)) (hq : q ∈ m) :
    Value.cmp p.1 q.1 = .lt := (List.pairwise_cons.mp h).1 q hq

theorem PW.key_unique {m : VMap} (h : PW m) {k v v' : Value} (h1 : (k, v) ∈ m) (h2 : (k, v') ∈ m) :
    v = v' := by
  induction m with
  | nil => cases h1
  | cons p t ih =>
    rcases List.mem_cons.mp h1 with rfl | h1 <;> rcases List.mem_cons.mp h2 with h2 | h2
    · cases h2; rfl
    · exact absurd (h.head h2) (Value.cmp_lt_irrefl _)
    · subst h2; exact absurd (PW.head (q := (k, v)) h ‹(k, v) ∈ t›) (Value.cmp_lt_irrefl _)
    · exact ih h.tail h1 h2

theorem PW.ext {m m' : VMap} (h : PW m) (h' : PW m') (hm : ∀ p, p ∈ m ↔ p ∈ m') : m = m' := by
  induction m generalizing m' with
  | nil =>
    cases m' with
    | nil => rfl
    | cons p t => exact absurd ((hm p).mpr (by simp)) (by simp)
  | cons p t ih =>
    cases m' with
    | nil => exact absurd ((hm p).mp (by simp)) (by simp)
    | cons q s =>
      have hpq : p = q := by
        rcases List.mem_cons.mp ((hm p).mp (by simp)) with hp | hp
        · exact hp
        · rcases List.mem_cons.mp ((hm q).mpr (by simp)) with hq | hq
          · exact hq.symm
          · have h1 := h'.head hp
            have h2 := h.head hq
            exact absurd (Value.cmp_trans _ _ _ h1 h2) (Value.cmp_lt_irrefl _)
      subst hpq
      congr 1
      refine ih h.tail h'.tail fun r => ?_
      have := hm r
      simp only [List.mem_cons] at this
      constructor
      · intro hr
        rcases this.mp (Or.inr hr) with rfl | h3
        · exact absurd (h.head hr) (Value.cmp_lt_irrefl _)
        · exact h3
      · intro hr
        rcases this.mpr (Or.inr hr) with rfl | h3
        · exact absurd (h'.head hr) (Value.cmp_lt_irrefl _)
        · exact h3

theorem get_some {m : VMap} (h : PW m) {k v : Value} : get m k = some v ↔ (k, v) ∈ m := by
  induction m with
  | nil => simp [get]
  | cons p t ih =>
    obtain ⟨k', v'⟩ := p
    simp only [get]
    cases hc : Value.cmp k k' with
    | lt =>
      simp only [reduceCtorEq, false_iff, List.mem_cons, Prod.mk.injEq, not_or]
      refine ⟨fun hk => ?_, fun hk => ?_⟩
      · rw [hk.1, Value.cmp_refl] at hc; cases hc
      · exact Value.cmp_lt_irrefl _ (Value.cmp_trans _ _ _ hc (h.head hk))
    | eq =>
      have := (Value.cmp_eq _ _).mp hc; subst this
      simp only [Option.some.injEq, List.mem_cons, Prod.mk.injEq, true_and]
      refine ⟨fun hv => Or.inl hv.symm, fun hv => ?_⟩
      rcases hv with hv | hv
      · exact hv.symm
      · exact absurd (h.head hv) (Value.cmp_lt_irrefl _)
    | gt =>
      dsimp only
      rw [ih h.tail]
      simp only [List.mem_cons, Prod.mk.injEq]
      refine ⟨Or.inr, fun hv => ?_⟩
      rcases hv with hv | hv
      · rw [hv.1, Value.cmp_refl] at hc; cases hc
      · exact hv

theorem get_none {m : VMap} (h : PW m) {k : Value} : get m k = none ↔ ∀ v, (k, v) ∉ m := by
  constructor
  · intro hn v hv
    rw [(get_some h).mpr hv] at hn; cases hn
  · intro hn
    cases hg : get m k with
    | none => rfl
    | some v => exact absurd ((get_some h).mp hg) (hn v)

/-- The map without a key. -/
def without (m : VMap) (k : Value) : VMap := m.filter fun p => decide (p.1 ≠ k)

theorem mem_without {m : VMap} {k : Value} {p : Value × Value} :
    p ∈ without m k ↔ p ∈ m ∧ p.1 ≠ k := by simp [without]

theorem PW.without {m : VMap} (h : PW m) (k : Value) : PW (m.without k) := List.Pairwise.filter _ h

theorem without_eq_self {m : VMap} {k : Value} (h : ∀ v, (k, v) ∉ m) : m.without k = m := by
  refine List.filter_eq_self.mpr fun p hp => ?_
  simp only [decide_eq_true_eq]
  rintro rfl
  exact h p.2 hp

theorem remove_some {m : VMap} (h : PW m) {k v : Value} (hk : (k, v) ∈ m) :
    remove m k = some (v, m.without k) := by
  induction m with
  | nil => cases hk
  | cons p t ih =>
    obtain ⟨k', v'⟩ := p
    simp only [remove]
    rcases List.mem_cons.mp hk with hk | hk
    · cases hk
      rw [Value.cmp_refl]
      dsimp only
      have : ∀ v, (k, v) ∉ t := fun v hv => Value.cmp_lt_irrefl k (PW.head h hv)
      simp [VMap.without]
      symm
      refine List.filter_eq_self.mpr fun p hp => ?_
      simp only [Bool.not_eq_true', decide_eq_false_iff_not]
      rintro rfl
      exact this p.2 hp
    · have hlt : Value.cmp k' k = .lt := h.head hk
      have : Value.cmp k k' = .gt := Value.cmp_gt.mpr hlt
      rw [this]
      dsimp only
      rw [ih h.tail hk]
      have hne : k' ≠ k := by rintro rfl; exact Value.cmp_lt_irrefl _ hlt
      simp [VMap.without, hne]

theorem remove_none {m : VMap} (h : PW m) {k : Value} (hk : ∀ v, (k, v) ∉ m) :
    remove m k = none := by
  induction m with
  | nil => rfl
  | cons p t ih =>
    obtain ⟨k', v'⟩ := p
    simp only [remove]
    have ht := ih h.tail fun v hv => hk v (by simp [hv])
    cases hc : Value.cmp k k' with
    | lt => rfl
    | eq =>
      have := (Value.cmp_eq _ _).mp hc; subst this
      exact absurd (by simp) (hk v')
    | gt => simp [ht]

theorem mem_insert {m : VMap} (h : PW m) {k v : Value} {p : Value × Value} :
    p ∈ insert m k v ↔ p = (k, v) ∨ (p ∈ m ∧ p.1 ≠ k) := by
  induction m with
  | nil => simp [insert]
  | cons q t ih =>
    obtain ⟨k', v'⟩ := q
    simp only [insert]
    cases hc : Value.cmp k k' with
    | lt =>
      dsimp only
      rw [List.mem_cons]
      constructor
      · rintro (hp | hp)
        · exact Or.inl hp
        · refine Or.inr ⟨hp, ?_⟩
          rintro rfl
          rcases List.mem_cons.mp hp with rfl | hp
          · exact Value.cmp_lt_irrefl _ hc
          · exact Value.cmp_lt_irrefl _ (Value.cmp_trans _ _ _ hc (h.head hp))
      · rintro (hp | hp)
        · exact Or.inl hp
        · exact Or.inr hp.1
    | eq =>
      have := (Value.cmp_eq _ _).mp hc; subst this
      dsimp only
      rw [List.mem_cons, List.mem_cons]
      constructor
      · rintro (hp | hp)
        · exact Or.inl hp
        · refine Or.inr ⟨Or.inr hp, ?_⟩
          intro he
          have := PW.head (q := p) h hp
          rw [he] at this
          exact Value.cmp_lt_irrefl _ this
      · rintro (hp | ⟨rfl | hp, hne⟩)
        · exact Or.inl hp
        · exact absurd rfl hne
        · exact Or.inr hp
    | gt =>
      dsimp only
      rw [List.mem_cons, List.mem_cons, ih h.tail]
      constructor
      · rintro (rfl | rfl | hp)
        · refine Or.inr ⟨Or.inl rfl, ?_⟩
          rintro rfl
          rw [Value.cmp_refl] at hc; cases hc
        · exact Or.inl rfl
        · exact Or.inr ⟨Or.inr hp.1, hp.2⟩
      · rintro (hp | ⟨rfl | hp, hne⟩)
        · exact Or.inr (Or.inl hp)
        · exact Or.inl rfl
        · exact Or.inr (Or.inr ⟨hp, hne⟩)

theorem PW.insert {m : VMap} (h : PW m) (k v : Value) : PW (m.insert k v) := by
  induction m with
  | nil => simp [VMap.insert, PW]
  | cons q t ih =>
    obtain ⟨k', v'⟩ := q
    simp only [VMap.insert]
    cases hc : Value.cmp k k' with
    | lt =>
      refine List.pairwise_cons.mpr ⟨fun p hp => ?_, h⟩
      rcases List.mem_cons.mp hp with rfl | hp
      · exact hc
      · exact Value.cmp_trans _ _ _ hc (h.head hp)
    | eq =>
      refine List.pairwise_cons.mpr ⟨fun p hp => h.head hp, h.tail⟩
    | gt =>
      refine List.pairwise_cons.mpr ⟨fun p hp => ?_, ih h.tail⟩
      rcases (mem_insert h.tail).mp hp with rfl | hp
      · exact Value.cmp_gt.mp hc
      · exact h.head hp.1

theorem PW.extend {m : VMap} (h : PW m) (l : List (Value × Value)) : PW (m.extend l) := by
  induction l generalizing m with
  | nil => exact h
  | cons p t ih => exact ih (h.insert p.1 p.2)

/-- Last value bound to a key in a list of pairs. -/
def last (l : List (Value × Value)) (k : Value) : Option Value :=
  match l with
  | [] => none
  | (k', v) :: t =>
    match last t k with
    | some x => some x
    | none => if k' = k then some v else none

theorem get_insert {m : VMap} (h : PW m) (k v k' : Value) :
    get (insert m k v) k' = if k' = k then some v else get m k' := by
  have hi := h.insert k v
  split
  · rename_i hk; subst hk
    exact (get_some hi).mpr ((mem_insert h).mpr (Or.inl rfl))
  · rename_i hk
    cases hg : get m k' with
    | some x =>
      exact (get_some hi).mpr ((mem_insert h).mpr (Or.inr ⟨(get_some h).mp hg, hk⟩))
    | none =>
      refine (get_none hi).mpr fun x hx => ?_
      rcases (mem_insert h).mp hx with hx | hx
      · cases hx; exact hk rfl
      · exact (get_none h).mp hg x hx.1

theorem get_extend {m : VMap} (h : PW m) (l : List (Value × Value)) (k : Value) :
    get (extend m l) k = match last l k with | some v => some v | none => get m k := by
  induction l generalizing m with
  | nil => rfl
  | cons p t ih =>
    obtain ⟨k', v'⟩ := p
    show get (extend (insert m k' v') t) k = _
    rw [ih (h.insert _ _)]
    simp only [last]
    cases last t k with
    | some x => rfl
    | none =>
      dsimp only
      rw [get_insert h]
      by_cases hk : k = k'
      · subst hk; simp
      · rw [if_neg hk, if_neg (Ne.symm hk)]

theorem PW.ext_get {m m' : VMap} (h : PW m) (h' : PW m') (hm : ∀ k, get m k = get m' k) :
    m = m' := by
  refine h.ext h' fun p => ?_
  obtain ⟨k, v⟩ := p
  rw [← get_some h, ← get_some h', hm]

theorem mem_extend {m : VMap} {l : List (Value × Value)} {p : Value × Value} (h : PW m)
    (hp : p ∈ extend m l) : p ∈ m ∨ p ∈ l := by
  induction l generalizing m with
  | nil => exact Or.inl hp
  | cons q t ih =>
    rcases ih (h.insert q.1 q.2) hp with hp | hp
    · rcases (mem_insert h).mp hp with rfl | hp
      · exact Or.inr (by simp)
      · exact Or.inl hp.1
    · exact Or.inr (by simp [hp])

/-- Putting back a removed pair restores the map. -/
theorem insert_without {m : VMap} (h : PW m) {k v : Value} (hk : (k, v) ∈ m) :
    (m.without k).insert k v = m := by
  refine ((h.without k).insert k v).ext h fun p => ?_
  rw [mem_insert (h.without k), mem_without]
  constructor
  · rintro (rfl | hp)
    · exact hk
    · exact hp.1.1
  · intro hp
    by_cases hpk : p.1 = k
    · obtain ⟨a, b⟩ := p
      dsimp only at hpk; subst hpk
      exact Or.inl (by rw [h.key_unique hp hk])
    · exact Or.inr ⟨⟨hp, hpk⟩, hpk⟩

/-- Insertions of different keys commute. -/
theorem insert_comm {m : VMap} (h : PW m) {k v k' v' : Value} (hne : k ≠ k') :
    (m.insert k v).insert k' v' = (m.insert k' v').insert k v := by
  refine PW.ext_get ((h.insert _ _).insert _ _) ((h.insert _ _).insert _ _) fun x => ?_
  rw [get_insert (h.insert _ _), get_insert h, get_insert (h.insert _ _), get_insert h]
  split
  · split
    · simp_all
    · rfl
  · rfl

end VMap

theorem Value.WFArr_iff : ∀ l : List Value, Value.WFArr l ↔ ∀ v ∈ l, v.WF
  | [] => by simp [Value.WFArr]
  | x :: xs => by simp [Value.WFArr, Value.WFArr_iff xs]

theorem Value.WFMap_iff : ∀ l : List (Value × Value), Value.WFMap l ↔ ∀ p ∈ l, p.1.WF ∧ p.2.WF
  | [] => by simp [Value.WFMap]
  | (k, v) :: xs => by simp [Value.WFMap, Value.WFMap_iff xs, and_assoc]

/-- A converted map: sorted, and its contents well formed. -/
theorem Value.WF_map_extend {l : List (Value × Value)} (h : Value.WFMap l) :
    (Value.map (VMap.extend [] l)).WF := by
  have h0 : VMap.PW [] := List.Pairwise.nil
  refine ⟨(VMap.sorted_iff _).mpr (h0.extend l), (Value.WFMap_iff _).mpr fun p hp => ?_⟩
  rcases VMap.mem_extend h0 hp with hp | hp
  · cases hp
  · exact (Value.WFMap_iff _).mp h p hp

mutual
theorem Cbor.toValue_WF : ∀ (c : Cbor) (v : Value), c.toValue = .ok v → v.WF
  | .null, v, h => by cases h; trivial
  | .bool b, v, h => by cases h; trivial
  | .integer i, v, h => by cases h; trivial
  | .float f, v, h => by cases h; trivial
  | .bytes b, v, h => by cases h; trivial
  | .text s, v, h => by cases h; trivial
  | .array xs, v, h => by
    simp only [Cbor.toValue] at h
    cases hx : Cbor.toValues xs with
    | error e => rw [hx] at h; cases h
    | ok vs => rw [hx] at h; cases h; exact Cbor.toValues_WF xs vs hx
  | .map m, v, h => by
    simp only [Cbor.toValue] at h
    cases hx : Cbor.toPairs m with
    | error e => rw [hx] at h; cases h
    | ok vs => rw [hx] at h; cases h; exact Value.WF_map_extend (Cbor.toPairs_WF m vs hx)
  | .tag _ _, v, h => by cases h
theorem Cbor.toValues_WF : ∀ (c : List Cbor) (v : List Value), Cbor.toValues c = .ok v → Value.WFArr v
  | [], v, h => by cases h; trivial
  | x :: xs, v, h => by
    simp only [Cbor.toValues] at h
    cases hx : Cbor.toValue x with
    | error e => rw [hx] at h; cases h
    | ok y =>
      cases hy : Cbor.toValues xs with
      | error e => rw [hx, hy] at h; cases h
      | ok ys =>
        rw [hx, hy] at h; cases h
        exact ⟨Cbor.toValue_WF x y hx, Cbor.toValues_WF xs ys hy⟩
theorem Cbor.toPairs_WF : ∀ (c : List (Cbor × Cbor)) (v : List (Value × Value)),
    Cbor.toPairs c = .ok v → Value.WFMap v
  | [], v, h => by cases h; trivial
  | (k, x) :: xs, v, h => by
    simp only [Cbor.toPairs] at h
    cases hk : Cbor.toValue k with
    | error e => rw [hk] at h; cases h
    | ok k' =>
      cases hx : Cbor.toValue x with
      | error e => rw [hk, hx] at h; cases h
      | ok y =>
        cases hy : Cbor.toPairs xs with
        | error e => rw [hk, hx, hy] at h; cases h
        | ok ys =>
          rw [hk, hx, hy] at h; cases h
          exact ⟨Cbor.toValue_WF k k' hk, Cbor.toValue_WF x y hx, Cbor.toPairs_WF xs ys hy⟩
end

mutual
theorem Cbor.toValue_notCut : ∀ (c : Cbor) (m : String), c.toValue ≠ .error (.mapCut m)
  | .null, m => by simp [Cbor.toValue]
  | .bool b, m => by simp [Cbor.toValue]
  | .integer i, m => by simp [Cbor.toValue]
  | .float f, m => by simp [Cbor.toValue]
  | .bytes b, m => by simp [Cbor.toValue]
  | .text s, m => by simp [Cbor.toValue]
  | .array xs, m => by
    have := Cbor.toValues_notCut xs m
    simp only [Cbor.toValue]
    cases hx : Cbor.toValues xs <;> simp_all [Except.bind]
  | .map xs, m => by
    have := Cbor.toPairs_notCut xs m
    simp only [Cbor.toValue]
    cases hx : Cbor.toPairs xs <;> simp_all [Except.bind]
  | .tag _ _, m => by simp [Cbor.toValue]
theorem Cbor.toValues_notCut : ∀ (c : List Cbor) (m : String), Cbor.toValues c ≠ .error (.mapCut m)
  | [], m => by simp [Cbor.toValues]
  | x :: xs, m => by
    have h1 := Cbor.toValue_notCut x m
    have h2 := Cbor.toValues_notCut xs m
    simp only [Cbor.toValues]
    cases hx : Cbor.toValue x <;> cases hy : Cbor.toValues xs <;> simp_all [Except.bind]
theorem Cbor.toPairs_notCut : ∀ (c : List (Cbor × Cbor)) (m : String),
    Cbor.toPairs c ≠ .error (.mapCut m)
  | [], m => by simp [Cbor.toPairs]
  | (k, x) :: xs, m => by
    have h0 := Cbor.toValue_notCut k m
    have h1 := Cbor.toValue_notCut x m
    have h2 := Cbor.toPairs_notCut xs m
    simp only [Cbor.toPairs]
    cases hk : Cbor.toValue k <;> cases hx : Cbor.toValue x <;> cases hy : Cbor.toPairs xs <;>
      simp_all [Except.bind]
end

theorem JsonNumber.toValue_WF (n : JsonNumber) (v : Value) (h : n.toValue = .ok v) : v.WF := by
  cases n <;> simp only [JsonNumber.toValue, JsonNumber.asU64, JsonNumber.asI64, JsonNumber.asF64] at h <;>
    cases h <;> trivial

mutual
theorem Json.toValue_WF : ∀ (c : Json) (v : Value), c.toValue = .ok v → v.WF
  | .null, v, h => by cases h; trivial
  | .bool b, v, h => by cases h; trivial
  | .number n, v, h => JsonNumber.toValue_WF n v h
  | .string s, v, h => by cases h; trivial
  | .array xs, v, h => by
    simp only [Json.toValue] at h
    cases hx : Json.toValues xs with
    | error e => rw [hx] at h; cases h
    | ok vs => rw [hx] at h; cases h; exact Json.toValues_WF xs vs hx
  | .object m, v, h => by
    simp only [Json.toValue] at h
    cases hx : Json.toPairs m with
    | error e => rw [hx] at h; cases h
    | ok vs => rw [hx] at h; cases h; exact Value.WF_map_extend (Json.toPairs_WF m vs hx)
theorem Json.toValues_WF : ∀ (c : List Json) (v : List Value), Json.toValues c = .ok v → Value.WFArr v
  | [], v, h => by cases h; trivial
  | x :: xs, v, h => by
    simp only [Json.toValues] at h
    cases hx : Json.toValue x with
    | error e => rw [hx] at h; cases h
    | ok y =>
      cases hy : Json.toValues xs with
      | error e => rw [hx, hy] at h; cases h
      | ok ys =>
        rw [hx, hy] at h; cases h
        exact ⟨Json.toValue_WF x y hx, Json.toValues_WF xs ys hy⟩
theorem Json.toPairs_WF : ∀ (c : List (String × Json)) (v : List (Value × Value)),
    Json.toPairs c = .ok v → Value.WFMap v
  | [], v, h => by cases h; trivial
  | (k, x) :: xs, v, h => by
    simp only [Json.toPairs] at h
    cases hx : Json.toValue x with
    | error e => rw [hx] at h; cases h
    | ok y =>
      cases hy : Json.toPairs xs with
      | error e => rw [hx, hy] at h; cases h
      | ok ys =>
        rw [hx, hy] at h; cases h
        exact ⟨trivial, Json.toValue_WF x y hx, Json.toPairs_WF xs ys hy⟩
end

end Cddl
