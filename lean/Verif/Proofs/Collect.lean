import Verif.Spec.Convert
import Verif.Proofs.VMap

/-! # Collecting pairs into a map -/

namespace Cddl

theorem last_cons (p : Value × Value) (t : List (Value × Value)) (k : Value) :
    VMap.last (p :: t) k = match VMap.last t k with
      | some x => some x
      | none => if p.1 = k then some p.2 else none := rfl

theorem last_none {ps : List (Value × Value)} {k : Value} : VMap.last ps k = none ↔ ∀ p ∈ ps, p.1 ≠ k := by
  induction ps with
  | nil => simp [VMap.last]
  | cons p t ih =>
    rw [last_cons]
    cases hl : VMap.last t k with
    | some x =>
      have := mt ih.mpr (by simp [hl])
      simp only [reduceCtorEq, false_iff]
      exact fun h => this fun q hq => h q (by simp [hq])
    | none =>
      have := ih.mp hl
      by_cases h : p.1 = k
      · simp [h]
      · simp only [h, if_false, true_iff]
        intro q hq
        rcases List.mem_cons.mp hq with rfl | hq
        · exact h
        · exact this q hq

theorem last_iff {ps : List (Value × Value)} {k v : Value} : VMap.last ps k = some v ↔ LastPair ps k v := by
  constructor
  · induction ps with
    | nil => simp [VMap.last]
    | cons p t ih =>
      rw [last_cons]
      cases hl : VMap.last t k with
      | some x =>
        intro h
        obtain ⟨pre, post, rfl, h2⟩ := ih (hl.trans h)
        exact ⟨p :: pre, post, rfl, h2⟩
      | none =>
        intro h
        dsimp only at h
        split at h
        · rename_i hk
          injection h with h
          exact ⟨[], t, by rw [← hk, ← h]; rfl, last_none.mp hl⟩
        · cases h
  · rintro ⟨pre, post, rfl, h⟩
    induction pre with
    | nil => rw [List.nil_append, last_cons, last_none.mpr h]; simp
    | cons q pre ih => rw [List.cons_append, last_cons, ih]

theorem last_append (s t : List (Value × Value)) (q : Value) :
    VMap.last (s ++ t) q = (VMap.last t q).or (VMap.last s q) := by
  induction s with
  | nil => rw [List.nil_append]; cases VMap.last t q <;> rfl
  | cons x s ih => rw [List.cons_append, last_cons, ih, last_cons]; cases VMap.last t q <;> rfl

/-- A pair followed by one with the same key can be left out. -/
theorem collect_drop (xs ys zs : List (Value × Value)) (k a b : Value) :
    VMap.extend [] (xs ++ (k, a) :: ys ++ (k, b) :: zs) = VMap.extend [] (xs ++ ys ++ (k, b) :: zs) := by
  have h0 : VMap.PW [] := List.Pairwise.nil
  refine (h0.extend _).ext_get (h0.extend _) fun q => ?_
  rw [VMap.get_extend h0, VMap.get_extend h0]
  simp only [last_append, last_cons]
  cases VMap.last zs q with
  | some x => rfl
  | none =>
    by_cases h : k = q
    · simp [h]
    · simp only [h, if_false]
      cases VMap.last ys q <;> rfl

/-- Pairs with distinct keys may be exchanged. -/
theorem collect_perm {xs ys : List (Value × Value)} (h : xs.Perm ys) (hd : (xs.map (·.1)).Nodup) :
    VMap.extend [] xs = VMap.extend [] ys := by
  have h0 : VMap.PW [] := List.Pairwise.nil
  refine (h0.extend _).ext_get (h0.extend _) fun q => ?_
  rw [VMap.get_extend h0, VMap.get_extend h0]
  congr 1
  have key : ∀ {l : List (Value × Value)}, (l.map (·.1)).Nodup → ∀ {v}, VMap.last l q = some v ↔ (q, v) ∈ l := by
    intro l hl v
    rw [last_iff]
    constructor
    · rintro ⟨pre, post, rfl, -⟩; simp
    · intro hm
      obtain ⟨pre, post, rfl⟩ := List.append_of_mem hm
      refine ⟨pre, post, rfl, fun p hp hq => ?_⟩
      rw [List.map_append, List.nodup_append] at hl
      have := hl.2.1
      rw [List.map_cons, List.nodup_cons] at this
      exact this.1 (List.mem_map.mpr ⟨p, hp, hq⟩)
  have hd' : (ys.map (·.1)).Nodup := (h.map (·.1)).nodup_iff.mp hd
  apply Option.ext
  intro v
  rw [key hd, key hd']
  exact h.mem_iff

theorem mem_collect {ps : List (Value × Value)} {k v : Value} :
    (k, v) ∈ VMap.extend [] ps ↔ LastPair ps k v := by
  have h0 : VMap.PW [] := List.Pairwise.nil
  rw [← VMap.get_some (h0.extend ps), VMap.get_extend h0, ← last_iff]
  cases VMap.last ps k <;> simp [VMap.get]

theorem collect_sorted (ps : List (Value × Value)) : VMap.Sorted (VMap.extend [] ps) :=
  (VMap.sorted_iff _).mpr (VMap.PW.extend List.Pairwise.nil ps)

theorem collect_unique {ps : List (Value × Value)} {m : VMap} (hs : VMap.Sorted m)
    (h : ∀ k v, (k, v) ∈ m ↔ LastPair ps k v) : m = VMap.extend [] ps :=
  ((VMap.sorted_iff _).mp hs).ext ((VMap.sorted_iff _).mp (collect_sorted ps))
    fun p => (h p.1 p.2).trans mem_collect.symm

end Cddl
