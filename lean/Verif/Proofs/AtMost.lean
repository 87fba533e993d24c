import Verif.Spec.AtMost
import Verif.Proofs.Stands

/-! # Entries take no more than they can -/

namespace Cddl

section
variable {σ : Type} {μ : σ → Nat}

/-- Of `b`, at most `k` have been taken, after success and after failure. -/
abbrev LosesAtMost (μ : σ → Nat) (b k : Nat) : SRes σ → Prop := Leaves fun w => b ≤ μ w + k

theorem LosesAtMost.weaken {b k k' : Nat} {r : SRes σ} (h : LosesAtMost μ b k r) (hk : k ≤ k') : LosesAtMost μ b k' r := by
  cases r with
  | ok w =>
    have h : b ≤ μ w + k := h
    exact (by omega : b ≤ μ w + k')
  | err e w =>
    have h : b ≤ μ w + k := h
    exact (by omega : b ≤ μ w + k')
  | panic => trivial
  | fuel => trivial

theorem LosesAtMost.after {b k k' : Nat} {w : σ} {r : SRes σ} (h : b ≤ μ w + k) (hr : LosesAtMost μ (μ w) k' r) : LosesAtMost μ b (k + k') r := by
  cases r with
  | ok w1 =>
    have hr : μ w ≤ μ w1 + k' := hr
    exact (by omega : b ≤ μ w1 + (k + k'))
  | err e w1 =>
    have hr : μ w ≤ μ w1 + k' := hr
    exact (by omega : b ≤ μ w1 + (k + k'))
  | panic => trivial
  | fuel => trivial

theorem keeps_seq {f : Node → σ → SRes σ} {n : Node} {l : List Node} {k k' : Nat}
    (hn : ∀ w, LosesAtMost μ (μ w) k (f n w)) (hl : ∀ w, LosesAtMost μ (μ w) k' (seqLoopS f l w)) (w : σ) :
    LosesAtMost μ (μ w) (k + k') (seqLoopS f (n :: l) w) := by
  have h := hn w
  unfold seqLoopS
  cases hr : f n w with
  | ok w1 => rw [hr] at h; exact LosesAtMost.after h (hl w1)
  | err e w1 => rw [hr] at h; exact h.weaken (Nat.le_add_right ..)
  | panic => trivial
  | fuel => trivial

theorem keeps_choice {f : Node → σ → SRes σ} {stop : Err → Bool} {msg : String} {n : Node} {l : List Node} {k k' : Nat}
    (hn : ∀ w, LosesAtMost μ (μ w) k (f n w)) (hl : ∀ w, LosesAtMost μ (μ w) k' (choiceLoopS f stop msg l w)) (w : σ) :
    LosesAtMost μ (μ w) (k + k') (choiceLoopS f stop msg (n :: l) w) := by
  have h := hn w
  unfold choiceLoopS
  cases hr : f n w with
  | ok w1 => rw [hr] at h; exact h.weaken (Nat.le_add_right ..)
  | err e w1 =>
    rw [hr] at h
    simp only
    split
    · exact h.weaken (Nat.le_add_right ..)
    · exact LosesAtMost.after h (hl w1)
  | panic => trivial
  | fuel => trivial

theorem keeps_occur {f : σ → SRes σ} {lo up k : Nat} {msg : String} (hf : ∀ w, LosesAtMost μ (μ w) k (f w)) :
    ∀ (j count : Nat) (w : σ), LosesAtMost μ (μ w) (max 1 (up - count) * k) (occurLoopS f lo up msg j count w)
  | 0, _, _ => trivial
  | j + 1, count, w => by
    have h := hf w
    have one : k ≤ max 1 (up - count) * k := by
      have := Nat.mul_le_mul_right k (Nat.le_max_left 1 (up - count))
      omega
    unfold occurLoopS
    cases hr : f w with
    | ok w1 =>
      rw [hr] at h
      simp only
      split
      · split
        · exact LosesAtMost.weaken (r := .err _ w1) h one
        · exact LosesAtMost.weaken (r := .ok w1) h one
      · rename_i hc
        refine LosesAtMost.weaken (LosesAtMost.after h (keeps_occur hf j (count + 1) w1)) ?_
        have e : max 1 (up - count) = 1 + max 1 (up - (count + 1)) := by omega
        rw [e, Nat.add_mul, Nat.one_mul]
        exact Nat.le_refl _
    | err e w1 =>
      rw [hr] at h
      simp only
      split
      · split
        · exact LosesAtMost.weaken (r := .err _ w1) h one
        · exact LosesAtMost.weaken (r := .ok w1) h one
      · exact LosesAtMost.weaken (r := .err e w1) h one
    | panic => trivial
    | fuel => trivial

end

variable {env : Env}

abbrev aleft (w : WArr) : Nat := w.array.length

theorem arrayValue_keeps {s : Rec} {t : Node} {c : Ctx} (w : WArr) :
    LosesAtMost aleft (aleft w) 1 (validateArrayValue env s t w c) := by
  have same : aleft w ≤ aleft w + 1 := Nat.le_add_right ..
  unfold validateArrayValue
  split
  · rename_i x rest ha
    cases hr : s.val x t c with
    | ok u =>
      simp only
      unfold WArr.popFront
      rw [ha]
      have e : aleft w ≤ rest.length + 1 := by simp [aleft, ha]
      cases w.snaps with
      | nil => exact e
      | cons q qs => exact e
    | err e => exact same
    | panic => trivial
    | fuel => trivial
  · exact same

theorem arrayGroup_keeps {s : Rec} {l : List Node} {c : Ctx} {k : Nat}
    (hs : ∀ w, LosesAtMost aleft (aleft w) k (seqLoopS (fun m w => s.arr m w c) l w)) (w : WArr) :
    LosesAtMost aleft (aleft w) k (validateArrayGroup s l w c) := by
  have h := hs w.snapshot
  unfold validateArrayGroup
  cases hr : seqLoopS (fun m w => s.arr m w c) l w.snapshot with
  | ok w1 =>
    rw [hr] at h
    simp only [WArr.commit]
    cases w1.snaps with
    | nil => trivial
    | cons q qs => exact h
  | err e w1 =>
    rw [hr] at h
    have h : aleft w ≤ w1.array.length + k := h
    simp only [WArr.rewind]
    cases w1.snaps with
    | nil => trivial
    | cons q qs =>
      show w.array.length ≤ (q ++ w1.array).length + k
      rw [List.length_append]
      have : w.array.length ≤ w1.array.length + k := h
      omega
  | panic => trivial
  | fuel => trivial

theorem arr_by_body {n : Node} {c : Ctx} {k : Nat}
    (h : ∀ (j : Nat) (w : WArr), LosesAtMost aleft (aleft w) k (arrBody env (fns env j) n w c)) :
    ∀ (j : Nat) (w : WArr), LosesAtMost aleft (aleft w) k ((fns env j).arr n w c)
  | 0, _ => trivial
  | j + 1, w => h j w

/-- What is to be shown of an entry. -/
def KeepsA (env : Env) (c : Ctx) (n : Node) (k : Nat) : Prop :=
  ∀ (j : Nat) (w : WArr), LosesAtMost aleft (aleft w) k ((fns env j).arr n w c)

/-- What is to be shown of a list of entries. -/
def KeepsAL (env : Env) (c : Ctx) (l : List Node) (k : Nat) : Prop :=
  (∀ (j : Nat) (w : WArr), LosesAtMost aleft (aleft w) k (seqLoopS (fun m w => (fns env j).arr m w c) l w)) ∧
  ∀ (stop : Err → Bool) (msg : String) (j : Nat) (w : WArr),
    LosesAtMost aleft (aleft w) k (choiceLoopS (fun m w => (fns env j).arr m w c) stop msg l w)

theorem keepsA_element {c : Ctx} {n : Node} (he : n.isElement = true) : KeepsA env c n 1 := by
  refine arr_by_body fun j w => ?_
  cases n with
  | occur => cases he
  | rule => cases he
  | unwrap => cases he
  | choice => cases he
  | group => cases he
  | _ => exact arrayValue_keeps w

theorem keepsA_rule {c c' : Ctx} {s : String} {as : List Node} {n : Node} {k : Nat}
    (hl : c.lookupRule env s as = .ok (n, c')) (ih : KeepsA env c' n k) : KeepsA env c (.rule s as) k := by
  refine arr_by_body fun j w => ?_
  simp only [arrBody, hl]
  exact ih j w

theorem keepsA_unwrap {c c' : Ctx} {s : String} {as l : List Node} {k : Nat}
    (hl : c.lookupRule env s as = .ok (.array l, c')) (ih : KeepsAL env c' l k) : KeepsA env c (.unwrap s as) k := by
  refine arr_by_body fun j w => ?_
  simp only [arrBody, hl, validateArrayUnwrap]
  exact ih.1 j w

theorem keepsA_occur {c : Ctx} {o : OccurLimit} {n : Node} {k : Nat} (ih : KeepsA env c n k) :
    KeepsA env c (.occur o n) (max 1 o.limits.2 * k) := by
  refine arr_by_body fun j w => ?_
  simp only [arrBody, validateArrayOccur]
  exact keeps_occur (ih j) _ 0 w

theorem keepsA_cons {c : Ctx} {n : Node} {l : List Node} {k k' : Nat} (h : KeepsA env c n k) (hs : KeepsAL env c l k') :
    KeepsAL env c (n :: l) (k + k') :=
  ⟨fun j w => keeps_seq (f := fun m w => (fns env j).arr m w c) (h j) (hs.1 j) w,
    fun stop msg j w => keeps_choice (f := fun m w => (fns env j).arr m w c) (h j) (hs.2 stop msg j) w⟩

mutual
theorem AtMost.keeps : ∀ {c : Ctx} {n : Node} {k : Nat}, AtMost env c n k → KeepsA env c n k
  | _, _, _, .element _ he => keepsA_element he
  | _, _, _, .rule hl h => keepsA_rule hl h.keeps
  | _, _, _, .unwrap hl h => keepsA_unwrap hl h.keeps
  | _, _, _, .choice h => arr_by_body fun j w => h.keeps.2 _ _ j w
  | _, _, _, .group h => arr_by_body fun j w => arrayGroup_keeps (h.keeps.1 j) w
  | _, _, _, .occur h => keepsA_occur h.keeps
theorem AtMostL.keeps : ∀ {c : Ctx} {l : List Node} {k : Nat}, AtMostL env c l k → KeepsAL env c l k
  | _, _, _, .nil _ => ⟨fun _ _ => Nat.le_refl _, fun _ _ _ _ => Nat.le_refl _⟩
  | _, _, _, .cons h hs => keepsA_cons h.keeps hs.keeps
end

/-! ## Maps -/

abbrev mleft (w : WMap) : Nat := w.map.length

theorem vremove_length {k v : Value} : ∀ {m m' : VMap}, VMap.remove m k = some (v, m') → m.length ≤ m'.length + 1
  | [], _, h => by cases h
  | (k', v') :: t, m', h => by
    simp only [VMap.remove] at h
    cases hc : Value.cmp k k' with
    | lt => rw [hc] at h; cases h
    | eq => rw [hc] at h; cases h; simp
    | gt =>
      rw [hc] at h
      dsimp only at h
      cases hr : VMap.remove t k with
      | none => rw [hr] at h; cases h
      | some q =>
        obtain ⟨u, t'⟩ := q
        rw [hr] at h
        cases h
        have := vremove_length hr
        simp only [List.length_cons]
        omega

theorem vinsert_length {k v : Value} : ∀ {m : VMap}, m.length ≤ (VMap.insert m k v).length
  | [] => by simp
  | (k', v') :: t => by
    simp only [VMap.insert]
    cases hc : Value.cmp k k' with
    | lt => simp
    | eq => simp
    | gt =>
      have := vinsert_length (k := k) (v := v) (m := t)
      simp only [List.length_cons]
      omega

theorem vextend_length : ∀ {l w : VMap}, w.length ≤ (VMap.extend w l).length
  | [], _ => Nat.le_refl _
  | q :: l, w => Nat.le_trans vinsert_length (vextend_length (l := l) (w := VMap.insert w q.1 q.2))

theorem map_by_body {n : Node} {c : Ctx} {k : Nat}
    (h : ∀ (j : Nat) (w : WMap), LosesAtMost mleft (mleft w) k (mapBody env (fns env j) n w c)) :
    ∀ (j : Nat) (w : WMap), LosesAtMost mleft (mleft w) k ((fns env j).map n w c)
  | 0, _ => trivial
  | j + 1, w => h j w

theorem mapKeyvalue_keeps {s : Rec} {k t : Node} {x : Bool} {c : Ctx} (w : WMap) :
    LosesAtMost mleft (mleft w) 1 (validateMapKeyvalue env s k t x w c) := by
  have same : mleft w ≤ mleft w + 1 := Nat.le_add_right ..
  unfold validateMapKeyvalue
  cases validateMapKey env s k w c with
  | ok p =>
    obtain ⟨a, b⟩ := p
    simp only
    cases s.val b t c with
    | ok u =>
      simp only [WMap.remove]
      cases hr : VMap.remove w.map a with
      | none => trivial
      | some q =>
        obtain ⟨v, m'⟩ := q
        have e : mleft w ≤ m'.length + 1 := vremove_length hr
        simp only
        cases w.snaps with
        | nil => exact e
        | cons q qs => exact e
    | err e => simp only; split <;> exact same
    | panic => trivial
    | fuel => trivial
  | err e => exact same
  | panic => trivial
  | fuel => trivial

theorem mapGroup_keeps {s : Rec} {l : List Node} {c : Ctx} {k : Nat}
    (hs : ∀ w, LosesAtMost mleft (mleft w) k (seqLoopS (fun m w => s.map m w c) l w)) (w : WMap) :
    LosesAtMost mleft (mleft w) k (validateMapGroup s l w c) := by
  have h := hs w.snapshot
  unfold validateMapGroup
  cases hr : seqLoopS (fun m w => s.map m w c) l w.snapshot with
  | ok w1 =>
    rw [hr] at h
    simp only [WMap.commit]
    cases w1.snaps with
    | nil => trivial
    | cons q qs => exact h
  | err e w1 =>
    rw [hr] at h
    have h : w.map.length ≤ w1.map.length + k := h
    simp only [WMap.rewind]
    cases w1.snaps with
    | nil => trivial
    | cons q qs => exact Nat.le_trans h (Nat.add_le_add_right vextend_length _)
  | panic => trivial
  | fuel => trivial

/-- What is to be shown of an entry. -/
def KeepsM (env : Env) (c : Ctx) (n : Node) (k : Nat) : Prop :=
  ∀ (j : Nat) (w : WMap), LosesAtMost mleft (mleft w) k ((fns env j).map n w c)

/-- What is to be shown of a list of entries. -/
def KeepsML (env : Env) (c : Ctx) (l : List Node) (k : Nat) : Prop :=
  (∀ (j : Nat) (w : WMap), LosesAtMost mleft (mleft w) k (seqLoopS (fun m w => (fns env j).map m w c) l w)) ∧
  ∀ (stop : Err → Bool) (msg : String) (j : Nat) (w : WMap),
    LosesAtMost mleft (mleft w) k (choiceLoopS (fun m w => (fns env j).map m w c) stop msg l w)

theorem keepsM_never {c : Ctx} {n : Node} (he : n.isNoPair = true) : KeepsM env c n 0 := by
  refine map_by_body fun j w => ?_
  cases n <;> first | exact Nat.le_refl (mleft w) | cases he

theorem keepsM_rule {c c' : Ctx} {s : String} {as : List Node} {n : Node} {k : Nat}
    (hl : c.lookupRule env s as = .ok (n, c')) (ih : KeepsM env c' n k) : KeepsM env c (.rule s as) k := by
  refine map_by_body fun j w => ?_
  simp only [mapBody, hl]
  exact ih j w

theorem keepsM_unwrap {c c' : Ctx} {s : String} {as l : List Node} {k : Nat}
    (hl : c.lookupRule env s as = .ok (.map l, c')) (ih : KeepsML env c' l k) : KeepsM env c (.unwrap s as) k := by
  refine map_by_body fun j w => ?_
  simp only [mapBody, hl, validateMapUnwrap]
  exact ih.1 j w

theorem keepsM_occur {c : Ctx} {o : OccurLimit} {n : Node} {k : Nat} (ih : KeepsM env c n k) :
    KeepsM env c (.occur o n) (max 1 o.limits.2 * k) := by
  refine map_by_body fun j w => ?_
  simp only [mapBody, validateMapOccur]
  exact keeps_occur (ih j) _ 0 w

theorem keepsM_cons {c : Ctx} {n : Node} {l : List Node} {k k' : Nat} (h : KeepsM env c n k) (hs : KeepsML env c l k') :
    KeepsML env c (n :: l) (k + k') :=
  ⟨fun j w => keeps_seq (f := fun m w => (fns env j).map m w c) (h j) (hs.1 j) w,
    fun stop msg j w => keeps_choice (f := fun m w => (fns env j).map m w c) (h j) (hs.2 stop msg j) w⟩

mutual
theorem AtMostM.keeps : ∀ {c : Ctx} {n : Node} {k : Nat}, AtMostM env c n k → KeepsM env c n k
  | _, _, _, .pair .. => map_by_body fun _ w => mapKeyvalue_keeps w
  | _, _, _, .never _ he => keepsM_never he
  | _, _, _, .rule hl h => keepsM_rule hl h.keeps
  | _, _, _, .unwrap hl h => keepsM_unwrap hl h.keeps
  | _, _, _, .choice h => map_by_body fun j w => h.keeps.2 _ _ j w
  | _, _, _, .inline h => map_by_body fun j w => h.keeps.2 _ _ j w
  | _, _, _, .group h => map_by_body fun j w => mapGroup_keeps (h.keeps.1 j) w
  | _, _, _, .occur h => keepsM_occur h.keeps
theorem AtMostML.keeps : ∀ {c : Ctx} {l : List Node} {k : Nat}, AtMostML env c l k → KeepsML env c l k
  | _, _, _, .nil _ => ⟨fun _ _ => Nat.le_refl _, fun _ _ _ _ => Nat.le_refl _⟩
  | _, _, _, .cons h hs => keepsM_cons h.keeps hs.keeps
end

end Cddl
