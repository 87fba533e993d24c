import Verif.Model.Value

/-! Lemmas: `Value.cmp` is a lawful total order. -/

namespace Cddl

theorem ord_then_eq {a b : Ordering} : a.then b = .eq ↔ a = .eq ∧ b = .eq := by
  cases a <;> simp [Ordering.then]

theorem ord_then_lt {a b : Ordering} : a.then b = .lt ↔ a = .lt ∨ (a = .eq ∧ b = .lt) := by
  cases a <;> simp [Ordering.then]

theorem ord_then_swap {a b : Ordering} : (a.then b).swap = a.swap.then b.swap := by
  cases a <;> simp [Ordering.then, Ordering.swap]

theorem natCmp_eq {a b : Nat} : compare a b = .eq ↔ a = b := Nat.compare_eq_eq
theorem natCmp_swap {a b : Nat} : (compare a b).swap = compare b a := Nat.compare_swap a b
theorem natCmp_lt {a b : Nat} : compare a b = .lt ↔ a < b := Nat.compare_eq_lt
theorem intCmp_eq {a b : Int} : compare a b = .eq ↔ a = b := by
  simp only [compare, compareOfLessAndEq]; split <;> (try split) <;> simp_all <;> omega
theorem intCmp_lt {a b : Int} : compare a b = .lt ↔ a < b := by
  simp only [compare, compareOfLessAndEq]; split <;> (try split) <;> simp_all
theorem intCmp_swap {a b : Int} : (compare a b).swap = compare b a := by
  simp only [compare, compareOfLessAndEq]
  split <;> split <;> (try split) <;> simp_all [Ordering.swap] <;> (try split) <;> (try simp) <;> omega

theorem F64.ordKey_inj {a b : F64} (h : a.ordKey = b.ordKey) : a = b := by
  cases a with | mk a => cases b with | mk b =>
  simp only [F64.ordKey, F64.neg, decide_eq_true_eq] at h
  have ha := a.toNat_lt; have hb := b.toNat_lt
  congr 1
  apply UInt64.toNat_inj.mp
  split at h <;> split at h <;> omega

/-- A comparison function that is a lawful strict total order. -/
structure LawfulCmp {α : Type} (c : α → α → Ordering) : Prop where
  eq_iff : ∀ a b, c a b = .eq ↔ a = b
  swap : ∀ a b, (c a b).swap = c b a
  trans : ∀ x y z, c x y = .lt → c y z = .lt → c x z = .lt

theorem LawfulCmp.of_key {α : Type} {f : α → Nat} (hf : ∀ a b, f a = f b → a = b) :
    LawfulCmp (fun a b => compare (f a) (f b)) where
  eq_iff a b := ⟨fun h => hf _ _ (natCmp_eq.mp h), fun h => h ▸ natCmp_eq.mpr rfl⟩
  swap a b := natCmp_swap
  trans a b c h1 h2 := natCmp_lt.mpr (Nat.lt_trans (natCmp_lt.mp h1) (natCmp_lt.mp h2))

theorem LawfulCmp.list {α : Type} {c : α → α → Ordering} (h : LawfulCmp c) :
    LawfulCmp (cmpList c) where
  eq_iff a := by
    induction a with
    | nil => intro b; cases b <;> simp [cmpList]
    | cons x xs ih => intro b; cases b <;> simp [cmpList, ord_then_eq, h.eq_iff, ih]
  swap a := by
    induction a with
    | nil => intro b; cases b <;> simp [cmpList, Ordering.swap]
    | cons x xs ih =>
      intro b
      cases b with
      | nil => rfl
      | cons y ys => simp only [cmpList, ord_then_swap, h.swap, ih]
  trans a := by
    induction a with
    | nil => intro b c; cases b <;> cases c <;> simp [cmpList]
    | cons x xs ih =>
      intro b c
      cases b with
      | nil => simp [cmpList]
      | cons y ys =>
        cases c with
        | nil => simp [cmpList]
        | cons z zs =>
          simp only [cmpList, ord_then_lt, h.eq_iff]
          rintro (h1 | ⟨rfl, h1⟩) (h2 | ⟨rfl, h2⟩)
          · exact .inl (h.trans _ _ _ h1 h2)
          · exact .inl h1
          · exact .inl h2
          · exact .inr ⟨rfl, ih _ _ h1 h2⟩

theorem lawful_charCmp : LawfulCmp (fun (x y : Char) => compare x.toNat y.toNat) :=
  LawfulCmp.of_key fun _ _ h => Char.toNat_inj.mp h

theorem lawful_byteCmp : LawfulCmp (fun (x y : UInt8) => compare x.toNat y.toNat) :=
  LawfulCmp.of_key fun _ _ h => UInt8.toNat_inj.mp h

theorem lawful_cmpString : LawfulCmp cmpString where
  eq_iff a b := by
    unfold cmpString
    rw [(lawful_charCmp.list).eq_iff]
    exact String.toList_inj
  swap a b := (lawful_charCmp.list).swap _ _
  trans a b c := (lawful_charCmp.list).trans _ _ _

theorem lawful_boolCmp : LawfulCmp (fun (x y : Bool) => compare x.toNat y.toNat) :=
  LawfulCmp.of_key fun a b h => by cases a <;> cases b <;> simp_all

theorem lawful_floatCmp : LawfulCmp (fun (x y : F64) => compare x.ordKey y.ordKey) :=
  LawfulCmp.of_key fun _ _ h => F64.ordKey_inj h

theorem lawful_intCmp : LawfulCmp (fun (x y : Int) => compare x y) where
  eq_iff _ _ := intCmp_eq
  swap _ _ := intCmp_swap
  trans _ _ _ h1 h2 := intCmp_lt.mpr (Int.lt_trans (intCmp_lt.mp h1) (intCmp_lt.mp h2))

mutual
theorem Value.cmp_eq : ∀ a b : Value, Value.cmp a b = .eq ↔ a = b := by
  intro a b
  cases a <;> cases b <;> simp only [Value.cmp] <;> first
    | exact lawful_boolCmp.eq_iff _ _ |>.trans (by simp)
    | exact intCmp_eq.trans (by simp)
    | exact lawful_floatCmp.eq_iff _ _ |>.trans (by simp)
    | exact (lawful_byteCmp.list).eq_iff _ _ |>.trans (by simp)
    | exact lawful_cmpString.eq_iff _ _ |>.trans (by simp)
    | exact Value.cmpArr_eq _ _ |>.trans (by simp)
    | exact Value.cmpMap_eq _ _ |>.trans (by simp)
    | simp [Value.tag]
theorem Value.cmpArr_eq : ∀ a b : List Value, Value.cmpArr a b = .eq ↔ a = b
  | [], b => by cases b <;> simp [Value.cmpArr]
  | x :: xs, [] => by simp [Value.cmpArr]
  | x :: xs, y :: ys => by
    simp [Value.cmpArr, Value.cmp_eq x y, Value.cmpArr_eq xs ys]
theorem Value.cmpMap_eq : ∀ a b : List (Value × Value), Value.cmpMap a b = .eq ↔ a = b
  | [], b => by cases b <;> simp [Value.cmpMap]
  | (k, v) :: xs, [] => by simp [Value.cmpMap]
  | (k, v) :: xs, (k', v') :: ys => by
    simp [Value.cmpMap, Value.cmp_eq k k', Value.cmp_eq v v', Value.cmpMap_eq xs ys]
end

mutual
theorem Value.cmp_swap : ∀ a b : Value, (Value.cmp a b).swap = Value.cmp b a := by
  intro a b
  cases a <;> cases b <;> simp only [Value.cmp, Value.tag, natCmp_swap]
  · exact intCmp_swap
  · exact (lawful_byteCmp.list).swap _ _
  · exact lawful_cmpString.swap _ _
  · exact Value.cmpArr_swap _ _
  · exact Value.cmpMap_swap _ _
theorem Value.cmpArr_swap : ∀ a b : List Value, (Value.cmpArr a b).swap = Value.cmpArr b a
  | [], b => by cases b <;> simp [Value.cmpArr, Ordering.swap]
  | x :: xs, [] => by simp [Value.cmpArr, Ordering.swap]
  | x :: xs, y :: ys => by
    simp [Value.cmpArr, ord_then_swap, Value.cmp_swap x y, Value.cmpArr_swap xs ys]
theorem Value.cmpMap_swap : ∀ a b : List (Value × Value), (Value.cmpMap a b).swap = Value.cmpMap b a
  | [], b => by cases b <;> simp [Value.cmpMap, Ordering.swap]
  | (k, v) :: xs, [] => by simp [Value.cmpMap, Ordering.swap]
  | (k, v) :: xs, (k', v') :: ys => by
    simp [Value.cmpMap, ord_then_swap, Value.cmp_swap k k', Value.cmp_swap v v',
      Value.cmpMap_swap xs ys]
end

theorem Value.cmp_lt_tag {a b : Value} (h : Value.cmp a b = .lt) : a.tag ≤ b.tag := by
  cases a <;> cases b <;> simp_all [Value.cmp, Value.tag, natCmp_lt]

mutual
theorem Value.cmp_trans : ∀ x y z : Value,
    Value.cmp x y = .lt → Value.cmp y z = .lt → Value.cmp x z = .lt := by
  intro x y z h1 h2
  have t1 := Value.cmp_lt_tag h1
  have t2 := Value.cmp_lt_tag h2
  by_cases hxz : x.tag = z.tag
  · have hxy : x.tag = y.tag := by omega
    cases x <;> cases y <;> simp [Value.tag] at hxy <;> cases z <;> simp [Value.tag] at hxz <;>
      simp only [Value.cmp] at h1 h2 ⊢
    · simp [Value.tag] at h1
    · exact lawful_boolCmp.trans _ _ _ h1 h2
    · exact lawful_intCmp.trans _ _ _ h1 h2
    · exact lawful_floatCmp.trans _ _ _ h1 h2
    · exact (lawful_byteCmp.list).trans _ _ _ h1 h2
    · exact lawful_cmpString.trans _ _ _ h1 h2
    · exact Value.cmpArr_trans _ _ _ h1 h2
    · exact Value.cmpMap_trans _ _ _ h1 h2
  · have hlt : x.tag < z.tag := by omega
    cases x <;> cases z <;> simp_all [Value.tag, Value.cmp, natCmp_lt]
theorem Value.cmpArr_trans : ∀ x y z : List Value,
    Value.cmpArr x y = .lt → Value.cmpArr y z = .lt → Value.cmpArr x z = .lt
  | [], y, z => by cases y <;> cases z <;> simp [Value.cmpArr]
  | x :: xs, [], z => by simp [Value.cmpArr]
  | x :: xs, y :: ys, [] => by simp [Value.cmpArr]
  | x :: xs, y :: ys, z :: zs => by
    simp only [Value.cmpArr, ord_then_lt, Value.cmp_eq]
    rintro (h1 | ⟨rfl, h1⟩) (h2 | ⟨rfl, h2⟩)
    · exact .inl (Value.cmp_trans _ _ _ h1 h2)
    · exact .inl h1
    · exact .inl h2
    · exact .inr ⟨rfl, Value.cmpArr_trans _ _ _ h1 h2⟩
theorem Value.cmpMap_trans : ∀ x y z : List (Value × Value),
    Value.cmpMap x y = .lt → Value.cmpMap y z = .lt → Value.cmpMap x z = .lt
  | [], y, z => by cases y <;> cases z <;> simp [Value.cmpMap]
  | (_, _) :: xs, [], z => by simp [Value.cmpMap]
  | (_, _) :: xs, (_, _) :: ys, [] => by simp [Value.cmpMap]
  | (k1, v1) :: xs, (k2, v2) :: ys, (k3, v3) :: zs => by
    simp only [Value.cmpMap, ord_then_lt, ord_then_eq, Value.cmp_eq]
    rintro ((h1 | ⟨rfl, h1⟩) | ⟨⟨rfl, rfl⟩, h1⟩) ((h2 | ⟨rfl, h2⟩) | ⟨⟨rfl, rfl⟩, h2⟩)
    · exact .inl (.inl (Value.cmp_trans _ _ _ h1 h2))
    · exact .inl (.inl h1)
    · exact .inl (.inl h1)
    · exact .inl (.inl h2)
    · exact .inl (.inr ⟨rfl, Value.cmp_trans _ _ _ h1 h2⟩)
    · exact .inl (.inr ⟨rfl, h1⟩)
    · exact .inl (.inl h2)
    · exact .inl (.inr ⟨rfl, h2⟩)
    · exact .inr ⟨⟨rfl, rfl⟩, Value.cmpMap_trans _ _ _ h1 h2⟩
end

theorem lawful_valueCmp : LawfulCmp Value.cmp :=
  ⟨Value.cmp_eq, Value.cmp_swap, Value.cmp_trans⟩

theorem Value.cmp_refl (a : Value) : Value.cmp a a = .eq := (Value.cmp_eq a a).mpr rfl

theorem Value.cmp_gt {a b : Value} : Value.cmp a b = .gt ↔ Value.cmp b a = .lt := by
  rw [← Value.cmp_swap b a]; cases Value.cmp b a <;> simp [Ordering.swap]

theorem Value.cmp_lt_irrefl (a : Value) : Value.cmp a a ≠ .lt := by simp [Value.cmp_refl]

instance : DecidableEq Value := fun a b =>
  if h : Value.cmp a b = .eq then .isTrue ((Value.cmp_eq a b).mp h)
  else .isFalse fun e => h ((Value.cmp_eq a b).mpr e)

theorem Value.beq_iff (a b : Value) : a.beq b = true ↔ a = b := by
  simp [Value.beq, Value.cmp_eq]

end Cddl
