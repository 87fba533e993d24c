import Verif.Proofs.AtMost
import Verif.Proofs.Twice
import Verif.Spec.Kinds

/-! # Elements and keys of a kind -/

namespace Cddl

variable {q : Value → Bool}

theorem remove_count_le {k v : Value} {m m' : VMap} (h : VMap.remove m k = some (v, m')) :
    keyCount q m ≤ keyCount q m' + if q k = true then 1 else 0 := Nat.le_of_eq (remove_count h).symm

theorem insert_count_ge {k v : Value} : ∀ {m : VMap}, keyCount q m ≤ keyCount q (VMap.insert m k v)
  | [] => Nat.zero_le _
  | (k', v') :: t => by
    simp only [VMap.insert]
    split
    · rw [keyCount_cons (k, v)]; omega
    · rw [keyCount_cons, keyCount_cons]; exact Nat.le_refl _
    · have := insert_count_ge (k := k) (v := v) (m := t)
      rw [keyCount_cons, keyCount_cons]
      dsimp only
      omega

theorem extend_count_ge : ∀ {l w : VMap}, keyCount q w ≤ keyCount q (VMap.extend w l)
  | [], _ => Nat.le_refl _
  | p :: l, w => Nat.le_trans insert_count_ge (extend_count_ge (l := l) (w := VMap.insert w p.1 p.2))

/-- Pairs whose keys are among `q`. -/
abbrev kleft (q : Value → Bool) (w : WMap) : Nat := keyCount q w.map

variable {env : Env}

theorem keys_by_body {n : Node} {c : Ctx} {k : Nat}
    (h : ∀ (j : Nat) (w : WMap), LosesAtMost (kleft q) (kleft q w) k (mapBody env (fns env j) n w c)) :
    ∀ (j : Nat) (w : WMap), LosesAtMost (kleft q) (kleft q w) k ((fns env j).map n w c)
  | 0, _ => trivial
  | j + 1, w => h j w

theorem keysKeyvalue_keeps {j : Nat} {k t : Node} {x : Bool} {c : Ctx} {d : Nat} (hd : d = 1 ∨ ∀ a, Accepts env c k a → q a = false)
    (w : WMap) : LosesAtMost (kleft q) (kleft q w) d (validateMapKeyvalue env (fns env j) k t x w c) := by
  have same : kleft q w ≤ kleft q w + d := Nat.le_add_right ..
  unfold validateMapKeyvalue
  cases hk : validateMapKey env (fns env j) k w c with
  | ok p =>
    obtain ⟨h1, _⟩ := mapKey_fits (P := fun v n c => Accepts env c n v) (fun _ _ _ hr => lim_val_of_fns hr (by simp)) literal_itself hk
    obtain ⟨a, b⟩ := p
    simp only
    cases (fns env j).val b t c with
    | ok u =>
      simp only [WMap.remove]
      cases hr : VMap.remove w.map a with
      | none => trivial
      | some p =>
        obtain ⟨v, m'⟩ := p
        have e : kleft q w ≤ keyCount q m' + d := by
          refine Nat.le_trans (remove_count_le hr) (Nat.add_le_add_left ?_ _)
          rcases hd with rfl | hd
          · split <;> omega
          · have := hd a h1
            simp [this]
        simp only
        cases w.snaps with
        | nil => exact e
        | cons q qs => exact e
    | err e => simp only; split <;> exact same
    | panic => trivial
    | fuel => trivial
  | err e => exact same
  | panic => trivial
  | fuel => trivial

theorem keysGroup_keeps {s : Rec} {l : List Node} {c : Ctx} {k : Nat}
    (hs : ∀ w, LosesAtMost (kleft q) (kleft q w) k (seqLoopS (fun m w => s.map m w c) l w)) (w : WMap) :
    LosesAtMost (kleft q) (kleft q w) k (validateMapGroup s l w c) := by
  have h := hs w.snapshot
  unfold validateMapGroup
  cases hr : seqLoopS (fun m w => s.map m w c) l w.snapshot with
  | ok w1 =>
    rw [hr] at h
    simp only [WMap.commit]
    cases w1.snaps with
    | nil => trivial
    | cons q qs => exact h
  | err e w1 =>
    rw [hr] at h
    have h : keyCount q w.map ≤ keyCount q w1.map + k := h
    simp only [WMap.rewind]
    cases w1.snaps with
    | nil => trivial
    | cons p ps => exact Nat.le_trans h (Nat.add_le_add_right extend_count_ge _)
  | panic => trivial
  | fuel => trivial

/-- What is to be shown of an entry. -/
def KeepsK (env : Env) (q : Value → Bool) (c : Ctx) (n : Node) (k : Nat) : Prop :=
  ∀ (j : Nat) (w : WMap), LosesAtMost (kleft q) (kleft q w) k ((fns env j).map n w c)

/-- What is to be shown of a list of entries. -/
def KeepsKL (env : Env) (q : Value → Bool) (c : Ctx) (l : List Node) (k : Nat) : Prop :=
  (∀ (j : Nat) (w : WMap), LosesAtMost (kleft q) (kleft q w) k (seqLoopS (fun m w => (fns env j).map m w c) l w)) ∧
  ∀ (stop : Err → Bool) (msg : String) (j : Nat) (w : WMap),
    LosesAtMost (kleft q) (kleft q w) k (choiceLoopS (fun m w => (fns env j).map m w c) stop msg l w)

theorem keepsK_never {c : Ctx} {n : Node} (he : n.isNoPair = true) : KeepsK env q c n 0 := by
  refine keys_by_body fun j w => ?_
  cases n <;> first | exact Nat.le_refl (kleft q w) | cases he

theorem keepsK_rule {c c' : Ctx} {s : String} {as : List Node} {n : Node} {k : Nat}
    (hl : c.lookupRule env s as = .ok (n, c')) (ih : KeepsK env q c' n k) : KeepsK env q c (.rule s as) k := by
  refine keys_by_body fun j w => ?_
  simp only [mapBody, hl]
  exact ih j w

theorem keepsK_unwrap {c c' : Ctx} {s : String} {as l : List Node} {k : Nat}
    (hl : c.lookupRule env s as = .ok (.map l, c')) (ih : KeepsKL env q c' l k) : KeepsK env q c (.unwrap s as) k := by
  refine keys_by_body fun j w => ?_
  simp only [mapBody, hl, validateMapUnwrap]
  exact ih.1 j w

theorem keepsK_occur {c : Ctx} {o : OccurLimit} {n : Node} {k : Nat} (ih : KeepsK env q c n k) :
    KeepsK env q c (.occur o n) (max 1 o.limits.2 * k) := by
  refine keys_by_body fun j w => ?_
  simp only [mapBody, validateMapOccur]
  exact keeps_occur (ih j) _ 0 w

theorem keepsK_cons {c : Ctx} {n : Node} {l : List Node} {k k' : Nat} (h : KeepsK env q c n k) (hs : KeepsKL env q c l k') :
    KeepsKL env q c (n :: l) (k + k') :=
  ⟨fun j w => keeps_seq (f := fun m w => (fns env j).map m w c) (h j) (hs.1 j) w,
    fun stop msg j w => keeps_choice (f := fun m w => (fns env j).map m w c) (h j) (hs.2 stop msg j) w⟩

mutual
theorem KeysAtMost.keeps : ∀ {c : Ctx} {n : Node} {k : Nat}, KeysAtMost env q c n k → KeepsK env q c n k
  | _, _, _, .pair .. => keys_by_body fun _ w => keysKeyvalue_keeps (.inl rfl) w
  | _, _, _, .other h => keys_by_body fun _ w => keysKeyvalue_keeps (.inr h) w
  | _, _, _, .never _ he => keepsK_never he
  | _, _, _, .rule hl h => keepsK_rule hl h.keeps
  | _, _, _, .unwrap hl h => keepsK_unwrap hl h.keeps
  | _, _, _, .choice h => keys_by_body fun j w => h.keeps.2 _ _ j w
  | _, _, _, .inline h => keys_by_body fun j w => h.keeps.2 _ _ j w
  | _, _, _, .group h => keys_by_body fun j w => keysGroup_keeps (h.keeps.1 j) w
  | _, _, _, .occur h => keepsK_occur h.keeps
theorem KeysAtMostL.keeps : ∀ {c : Ctx} {l : List Node} {k : Nat}, KeysAtMostL env q c l k → KeepsKL env q c l k
  | _, _, _, .nil _ => ⟨fun _ _ => Nat.le_refl _, fun _ _ _ _ => Nat.le_refl _⟩
  | _, _, _, .cons h hs => keepsK_cons h.keeps hs.keeps
end

/-! ## Arrays -/

/-- How many elements are among `q`. -/
def elemCount (q : Value → Bool) (xs : List Value) : Nat := xs.countP q

theorem elemCount_cons (x : Value) (xs : List Value) : elemCount q (x :: xs) = elemCount q xs + if q x = true then 1 else 0 := by
  simp only [elemCount, List.countP_cons]

theorem elemCount_append (xs ys : List Value) : elemCount q (xs ++ ys) = elemCount q xs + elemCount q ys := by
  simp only [elemCount, List.countP_append]

/-- Elements among `q`. -/
abbrev eleft (q : Value → Bool) (w : WArr) : Nat := elemCount q w.array

theorem elemValue_keeps {j : Nat} {t : Node} {c : Ctx} {d : Nat} (hd : d = 1 ∨ ∀ a, Accepts env c t a → q a = false) (w : WArr) :
    LosesAtMost (eleft q) (eleft q w) d (validateArrayValue env (fns env j) t w c) := by
  have same : eleft q w ≤ eleft q w + d := Nat.le_add_right ..
  unfold validateArrayValue
  split
  · rename_i x rest ha
    cases hr : (fns env j).val x t c with
    | ok u =>
      have h1 : Accepts env c t x := lim_val_of_fns hr (by simp)
      simp only
      unfold WArr.popFront
      rw [ha]
      have e : eleft q w ≤ elemCount q rest + d := by
        simp only [eleft, ha, elemCount_cons]
        refine Nat.add_le_add_left ?_ _
        rcases hd with rfl | hd
        · split <;> omega
        · have := hd x h1
          simp [this]
      cases w.snaps with
      | nil => exact e
      | cons q qs => exact e
    | err e => exact same
    | panic => trivial
    | fuel => trivial
  · exact same

theorem elemGroup_keeps {s : Rec} {l : List Node} {c : Ctx} {k : Nat}
    (hs : ∀ w, LosesAtMost (eleft q) (eleft q w) k (seqLoopS (fun m w => s.arr m w c) l w)) (w : WArr) :
    LosesAtMost (eleft q) (eleft q w) k (validateArrayGroup s l w c) := by
  have h := hs w.snapshot
  unfold validateArrayGroup
  cases hr : seqLoopS (fun m w => s.arr m w c) l w.snapshot with
  | ok w1 =>
    rw [hr] at h
    simp only [WArr.commit]
    cases w1.snaps with
    | nil => trivial
    | cons q qs => exact h
  | err e w1 =>
    rw [hr] at h
    have h : elemCount q w.array ≤ elemCount q w1.array + k := h
    simp only [WArr.rewind]
    cases w1.snaps with
    | nil => trivial
    | cons p ps =>
      show elemCount q w.array ≤ elemCount q (p ++ w1.array) + k
      rw [elemCount_append]
      omega
  | panic => trivial
  | fuel => trivial

theorem elem_by_body {n : Node} {c : Ctx} {k : Nat}
    (h : ∀ (j : Nat) (w : WArr), LosesAtMost (eleft q) (eleft q w) k (arrBody env (fns env j) n w c)) :
    ∀ (j : Nat) (w : WArr), LosesAtMost (eleft q) (eleft q w) k ((fns env j).arr n w c)
  | 0, _ => trivial
  | j + 1, w => h j w

/-- What is to be shown of an entry. -/
def KeepsE (env : Env) (q : Value → Bool) (c : Ctx) (n : Node) (k : Nat) : Prop :=
  ∀ (j : Nat) (w : WArr), LosesAtMost (eleft q) (eleft q w) k ((fns env j).arr n w c)

/-- What is to be shown of a list of entries. -/
def KeepsEL (env : Env) (q : Value → Bool) (c : Ctx) (l : List Node) (k : Nat) : Prop :=
  (∀ (j : Nat) (w : WArr), LosesAtMost (eleft q) (eleft q w) k (seqLoopS (fun m w => (fns env j).arr m w c) l w)) ∧
  ∀ (stop : Err → Bool) (msg : String) (j : Nat) (w : WArr),
    LosesAtMost (eleft q) (eleft q w) k (choiceLoopS (fun m w => (fns env j).arr m w c) stop msg l w)

theorem keepsE_element {c : Ctx} {n : Node} (he : n.isElement = true) : KeepsE env q c n 1 := by
  refine elem_by_body fun j w => ?_
  cases n with
  | occur => cases he
  | rule => cases he
  | unwrap => cases he
  | choice => cases he
  | group => cases he
  | _ => exact elemValue_keeps (.inl rfl) w

theorem keepsE_other {c : Ctx} {n : Node} (he : n.isElement = true) (hk : ∀ k t x, n ≠ .keyValue k t x)
    (h : ∀ a, Accepts env c n a → q a = false) : KeepsE env q c n 0 := by
  refine elem_by_body fun j w => ?_
  cases n with
  | occur => cases he
  | rule => cases he
  | unwrap => cases he
  | choice => cases he
  | group => cases he
  | keyValue k t x => exact absurd rfl (hk k t x)
  | _ => exact elemValue_keeps (.inr h) w

theorem keepsE_rule {c c' : Ctx} {s : String} {as : List Node} {n : Node} {k : Nat}
    (hl : c.lookupRule env s as = .ok (n, c')) (ih : KeepsE env q c' n k) : KeepsE env q c (.rule s as) k := by
  refine elem_by_body fun j w => ?_
  simp only [arrBody, hl]
  exact ih j w

theorem keepsE_unwrap {c c' : Ctx} {s : String} {as l : List Node} {k : Nat}
    (hl : c.lookupRule env s as = .ok (.array l, c')) (ih : KeepsEL env q c' l k) : KeepsE env q c (.unwrap s as) k := by
  refine elem_by_body fun j w => ?_
  simp only [arrBody, hl, validateArrayUnwrap]
  exact ih.1 j w

theorem keepsE_occur {c : Ctx} {o : OccurLimit} {n : Node} {k : Nat} (ih : KeepsE env q c n k) :
    KeepsE env q c (.occur o n) (max 1 o.limits.2 * k) := by
  refine elem_by_body fun j w => ?_
  simp only [arrBody, validateArrayOccur]
  exact keeps_occur (ih j) _ 0 w

theorem keepsE_cons {c : Ctx} {n : Node} {l : List Node} {k k' : Nat} (h : KeepsE env q c n k) (hs : KeepsEL env q c l k') :
    KeepsEL env q c (n :: l) (k + k') :=
  ⟨fun j w => keeps_seq (f := fun m w => (fns env j).arr m w c) (h j) (hs.1 j) w,
    fun stop msg j w => keeps_choice (f := fun m w => (fns env j).arr m w c) (h j) (hs.2 stop msg j) w⟩

mutual
theorem ElemsAtMost.keeps : ∀ {c : Ctx} {n : Node} {k : Nat}, ElemsAtMost env q c n k → KeepsE env q c n k
  | _, _, _, .element _ he => keepsE_element he
  | _, _, _, .other he hk h => keepsE_other he hk h
  | _, _, _, .otherKeyed h => elem_by_body fun _ w => elemValue_keeps (.inr h) w
  | _, _, _, .rule hl h => keepsE_rule hl h.keeps
  | _, _, _, .unwrap hl h => keepsE_unwrap hl h.keeps
  | _, _, _, .choice h => elem_by_body fun j w => h.keeps.2 _ _ j w
  | _, _, _, .group h => elem_by_body fun j w => elemGroup_keeps (h.keeps.1 j) w
  | _, _, _, .occur h => keepsE_occur h.keeps
theorem ElemsAtMostL.keeps : ∀ {c : Ctx} {l : List Node} {k : Nat}, ElemsAtMostL env q c l k → KeepsEL env q c l k
  | _, _, _, .nil _ => ⟨fun _ _ => Nat.le_refl _, fun _ _ _ _ => Nat.le_refl _⟩
  | _, _, _, .cons h hs => keepsE_cons h.keeps hs.keeps
end

/-- Working copies measured by these elements. -/
def elemSizes (q : Value → Bool) : Sizes WArr := ⟨fun w => elemCount q w.array, fun w => w.snaps.map (elemCount q)⟩

theorem popFront_counts (w : WArr) : w.popFront.Shrunk (elemSizes q) w := by
  obtain ⟨a, s⟩ := w
  unfold WArr.popFront
  cases a with
  | nil => trivial
  | cons x xs =>
    cases s with
    | nil => exact ⟨by simp only [elemSizes, elemCount_cons]; omega, by simp [elemSizes], by simp [elemSizes]⟩
    | cons s ss =>
      refine ⟨by simp only [elemSizes, elemCount_cons]; omega, by simp [elemSizes], ?_⟩
      simp only [elemSizes, List.map_cons, List.cons.injEq]
      rintro _ _ ⟨rfl, rfl⟩
      refine ⟨_, ⟨rfl, rfl⟩, ?_⟩
      have : elemCount q [] = 0 := rfl
      simp only [elemCount_append, elemCount_cons]
      omega

/-- Giving back, or keeping, what was taken since the snapshot. -/
theorem elem_rewind {w w' : WArr} (h : Shrinks (elemSizes q) w.snapshot w') : w'.rewind.Shrunk (elemSizes q) w := by
  obtain ⟨a, s⟩ := w'
  obtain ⟨t', e, l⟩ := h.some 0 (w.snaps.map (elemCount q)) rfl
  have hle := h.le
  cases s with
  | nil => cases e
  | cons s ss =>
    simp only [elemSizes, List.map_cons, List.cons.injEq] at e
    obtain ⟨rfl, e⟩ := e
    simp only [elemSizes, WArr.snapshot] at l
    refine ⟨by simp only [elemSizes, elemCount_append]; omega, fun h => ?_, fun t ts h => ?_⟩
    · simp only [elemSizes] at h ⊢; rw [e]; exact h
    · simp only [elemSizes] at h ⊢; rw [e]; exact ⟨t, h, by simp only [elemCount_append]; omega⟩

theorem elem_commit {w w' : WArr} (h : Shrinks (elemSizes q) w.snapshot w') : w'.commit.Shrunk (elemSizes q) w := by
  obtain ⟨a, s⟩ := w'
  obtain ⟨t', e, l⟩ := h.some 0 (w.snaps.map (elemCount q)) rfl
  have hle := h.le
  cases s with
  | nil => cases e
  | cons s ss =>
    simp only [elemSizes, List.map_cons, List.cons.injEq] at e
    obtain ⟨rfl, e⟩ := e
    simp only [elemSizes, WArr.snapshot] at hle
    refine ⟨hle, fun h => ?_, fun t ts h => ?_⟩
    · simp only [elemSizes] at h ⊢; rw [e]; exact h
    · simp only [elemSizes] at h ⊢; rw [e]; exact ⟨t, h, by omega⟩

theorem elemValue_shrunk {r : Rec} (n : Node) (w : WArr) (c : Ctx) : (validateArrayValue env r n w c).Shrunk (elemSizes q) w := by
  unfold validateArrayValue
  split
  · split
    · exact popFront_counts w
    · rename_i hne
      generalize r.val _ n c = p at hne
      cases p with
      | ok => exact (hne rfl).elim
      | err e => exact ⟨trivial, .refl w⟩
      | panic => trivial
      | fuel => trivial
  · exact ⟨trivial, .refl w⟩

theorem elemBody_shrunk {r : Rec} (h : ∀ n w c, (r.arr n w c).Shrunk (elemSizes q) w) (n : Node) (w : WArr) (c : Ctx) : (arrBody env r n w c).Shrunk (elemSizes q) w := by
  cases n with
  | occur o n => exact occur_shrunk (fun w => h n w c) _ _ _
  | rule s as =>
    simp only [arrBody]
    cases c.lookupRule env s as with
    | ok a => exact h _ _ _
    | error e => exact ⟨trivial, .refl w⟩
  | unwrap s as =>
    simp only [arrBody]
    cases c.lookupRule env s as with
    | ok a =>
      dsimp only
      unfold validateArrayUnwrap
      split
      · exact seq_shrunk (fun n w => h n w _) _ _
      · exact ⟨trivial, .refl w⟩
    | error e => exact ⟨trivial, .refl w⟩
  | choice l => exact choice_shrunk (fun n w => h n w _) _ _
  | group l =>
    simp only [arrBody, validateArrayGroup]
    have := seq_shrunk (S := elemSizes q) (fun n w => h n w c) l w.snapshot
    cases hs : seqLoopS (fun m w => r.arr m w c) l w.snapshot with
    | ok w' => rw [hs] at this; exact elem_commit this
    | err e w' =>
      rw [hs] at this
      have := elem_rewind this.2
      dsimp only
      cases hw : w'.rewind with
      | ok => rw [hw] at this; exact ⟨trivial, this⟩
      | err => rw [hw] at this; exact this
      | panic => trivial
      | fuel => trivial
    | panic => trivial
    | fuel => trivial
  | _ => exact elemValue_shrunk _ w c

theorem fns_elems (env : Env) (q : Value → Bool) : ∀ k n w c, ((fns env k).arr n w c).Shrunk (elemSizes q) w
  | 0 => fun _ _ _ => trivial
  | k + 1 => elemBody_shrunk (fns_elems env q k)

/-- What is to be shown of an entry. -/
def LeastE (env : Env) (q : Value → Bool) (c : Ctx) (n : Node) (k : Nat) : Prop :=
  ∀ (j : Nat) (w : WArr), TakesAtLeast (elemSizes q) ((elemSizes q).size w) k ((fns env j).arr n w c)

/-- What is to be shown of entries one after the other. -/
def LeastEL (env : Env) (q : Value → Bool) (c : Ctx) (l : List Node) (k : Nat) : Prop :=
  ∀ (j : Nat) (w : WArr), TakesAtLeast (elemSizes q) ((elemSizes q).size w) k (seqLoopS (fun m w => (fns env j).arr m w c) l w)

/-- What is to be shown of options. -/
def LeastEO (env : Env) (q : Value → Bool) (c : Ctx) (l : List Node) (k : Nat) : Prop :=
  ∀ (stop : Err → Bool) (msg : String) (j : Nat) (w : WArr),
    TakesAtLeast (elemSizes q) ((elemSizes q).size w) k (choiceLoopS (fun m w => (fns env j).arr m w c) stop msg l w)

theorem leastE_body {n : Node} {c : Ctx} {k : Nat}
    (h : ∀ (j : Nat) (w : WArr), TakesAtLeast (elemSizes q) ((elemSizes q).size w) k (arrBody env (fns env j) n w c)) : LeastE env q c n k
  | 0, _ => trivial
  | j + 1, w => h j w

theorem leastE_zero {c : Ctx} {n : Node} : LeastE env q c n 0 := by
  intro j w
  have h := fns_elems env q j n w c
  cases hr : (fns env j).arr n w c with
  | ok w1 => rw [hr] at h; exact h.le
  | _ => trivial

theorem elemValue_least {j : Nat} {t : Node} {c : Ctx} (h : ∀ a, Accepts env c t a → q a = true) (w : WArr) :
    TakesAtLeast (elemSizes q) ((elemSizes q).size w) 1 (validateArrayValue env (fns env j) t w c) := by
  unfold validateArrayValue
  split
  · rename_i x rest ha
    cases hr : (fns env j).val x t c with
    | ok u =>
      have h1 := h x (lim_val_of_fns hr (by simp))
      simp only
      unfold WArr.popFront
      rw [ha]
      have e : elemCount q rest + 1 ≤ elemCount q w.array := by
        rw [ha, elemCount_cons, if_pos h1]
        exact Nat.le_refl _
      cases w.snaps with
      | nil => exact e
      | cons p ps => exact e
    | err e => trivial
    | panic => trivial
    | fuel => trivial
  · trivial

theorem leastE_alone {c : Ctx} {n : Node} (he : n.isElement = true) (hk : ∀ k t x, n ≠ .keyValue k t x)
    (h : ∀ a, Accepts env c n a → q a = true) : LeastE env q c n 1 := by
  refine leastE_body fun j w => ?_
  cases n with
  | occur => cases he
  | rule => cases he
  | unwrap => cases he
  | choice => cases he
  | group => cases he
  | keyValue k t x => exact absurd rfl (hk k t x)
  | _ => exact elemValue_least h w

theorem leastE_rule {c c' : Ctx} {s : String} {as : List Node} {n : Node} {k : Nat}
    (hl : c.lookupRule env s as = .ok (n, c')) (ih : LeastE env q c' n k) : LeastE env q c (.rule s as) k := by
  refine leastE_body fun j w => ?_
  simp only [arrBody, hl]
  exact ih j w

theorem leastE_unwrap {c c' : Ctx} {s : String} {as l : List Node} {k : Nat}
    (hl : c.lookupRule env s as = .ok (.array l, c')) (ih : LeastEL env q c' l k) : LeastE env q c (.unwrap s as) k := by
  refine leastE_body fun j w => ?_
  simp only [arrBody, hl, validateArrayUnwrap]
  exact ih j w

theorem leastE_group {c : Ctx} {l : List Node} {k : Nat} (ih : LeastEL env q c l k) : LeastE env q c (.group l) k := by
  refine leastE_body fun j w => ?_
  have h := ih j w.snapshot
  simp only [arrBody, validateArrayGroup]
  cases hr : seqLoopS (fun m w => (fns env j).arr m w c) l w.snapshot with
  | ok w1 =>
    rw [hr] at h
    simp only [WArr.commit]
    cases w1.snaps with
    | nil => trivial
    | cons q qs => exact h
  | err e w1 =>
    simp only [WArr.rewind]
    cases w1.snaps <;> trivial
  | panic => trivial
  | fuel => trivial

theorem leastE_occur {c : Ctx} {o : OccurLimit} {n : Node} {k : Nat} (ih : LeastE env q c n k) :
    LeastE env q c (.occur o n) (o.limits.1 * k) := by
  refine leastE_body fun j w => ?_
  simp only [arrBody, validateArrayOccur]
  exact least_occur (fun w => fns_elems env q j n w c) (ih j) _ 0 w

mutual
theorem ElemsAtLeast.takes : ∀ {c : Ctx} {n : Node} {k : Nat}, ElemsAtLeast env q c n k → LeastE env q c n k
  | _, _, _, .zero .. => leastE_zero
  | _, _, _, .alone he hk h => leastE_alone he hk h
  | _, _, _, .keyed h => leastE_body fun _ w => elemValue_least h w
  | _, _, _, .rule hl h => leastE_rule hl h.takes
  | _, _, _, .unwrap hl h => leastE_unwrap hl h.takes
  | _, _, _, .choice h => leastE_body fun j w => h.takes _ _ j w
  | _, _, _, .group h => leastE_group h.takes
  | _, _, _, .occur h => leastE_occur h.takes
theorem ElemsAtLeastL.takes : ∀ {c : Ctx} {l : List Node} {k : Nat}, ElemsAtLeastL env q c l k → LeastEL env q c l k
  | _, _, _, .nil _ => fun _ _ => Nat.le_refl _
  | _, _, _, .cons h hs => fun j w => least_seq (f := fun m w => (fns env j).arr m w _) (h.takes j) (hs.takes j) w
theorem ElemsAtLeastO.takes : ∀ {c : Ctx} {l : List Node} {k : Nat}, ElemsAtLeastO env q c l k → LeastEO env q c l k
  | _, _, _, .nil .. => fun _ _ _ _ => trivial
  | _, _, _, .cons h hs => fun stop msg j w => least_choice (f := fun m w => (fns env j).arr m w _)
      (fun n w => fns_elems env q j n w _) (h.takes j) (hs.takes stop msg j) w
end

end Cddl
