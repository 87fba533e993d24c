import Verif.Spec.AtMost
import Verif.Proofs.Takes

/-! # Entries that match take no less than they must -/

namespace Cddl

section
variable {σ : Type} {S : Sizes σ}

/-- After success, at least `k` of `b` have been taken. -/
def TakesAtLeast (S : Sizes σ) (b k : Nat) : SRes σ → Prop
  | .ok w => S.size w + k ≤ b
  | _ => True

theorem least_seq {f : Node → σ → SRes σ} {n : Node} {l : List Node} {k k' : Nat}
    (hn : ∀ w, TakesAtLeast S (S.size w) k (f n w)) (hl : ∀ w, TakesAtLeast S (S.size w) k' (seqLoopS f l w)) (w : σ) :
    TakesAtLeast S (S.size w) (k + k') (seqLoopS f (n :: l) w) := by
  have h := hn w
  unfold seqLoopS
  cases hr : f n w with
  | ok w1 =>
    rw [hr] at h
    have h : S.size w1 + k ≤ S.size w := h
    have h' := hl w1
    dsimp only
    cases hs : seqLoopS f l w1 with
    | ok w2 =>
      rw [hs] at h'
      have h' : S.size w2 + k' ≤ S.size w1 := h'
      exact (by omega : S.size w2 + (k + k') ≤ S.size w)
    | _ => trivial
  | _ => trivial

theorem least_choice {f : Node → σ → SRes σ} {stop : Err → Bool} {msg : String} {n : Node} {l : List Node} {k : Nat}
    (hf : ∀ n w, (f n w).Shrunk S w)
    (hn : ∀ w, TakesAtLeast S (S.size w) k (f n w)) (hl : ∀ w, TakesAtLeast S (S.size w) k (choiceLoopS f stop msg l w)) (w : σ) :
    TakesAtLeast S (S.size w) k (choiceLoopS f stop msg (n :: l) w) := by
  have h := hn w
  have hs := hf n w
  unfold choiceLoopS
  cases hr : f n w with
  | ok w1 => rw [hr] at h; exact h
  | err e w1 =>
    rw [hr] at hs
    have hle := hs.2.le
    simp only
    split
    · trivial
    · have h' := hl w1
      cases hq : choiceLoopS f stop msg l w1 with
      | ok w2 =>
        rw [hq] at h'
        have h' : S.size w2 + k ≤ S.size w1 := h'
        exact (by omega : S.size w2 + k ≤ S.size w)
      | _ => trivial
  | panic => trivial
  | fuel => trivial

theorem least_occur {f : σ → SRes σ} {lo up k : Nat} {msg : String} (hs : ∀ w, (f w).Shrunk S w)
    (hf : ∀ w, TakesAtLeast S (S.size w) k (f w)) :
    ∀ (j count : Nat) (w : σ), TakesAtLeast S (S.size w) ((lo - count) * k) (occurLoopS f lo up msg j count w)
  | 0, _, _ => trivial
  | j + 1, count, w => by
    have h := hf w
    have hw := hs w
    unfold occurLoopS
    cases hr : f w with
    | ok w1 =>
      rw [hr] at h
      have h : S.size w1 + k ≤ S.size w := h
      simp only
      split
      · split
        · trivial
        · rename_i hlt
          have e : (lo - count) * k ≤ k := by
            have := Nat.mul_le_mul_right k (show lo - count ≤ 1 by omega)
            omega
          exact (by omega : S.size w1 + (lo - count) * k ≤ S.size w)
      · have h' := least_occur (lo := lo) (up := up) (msg := msg) hs hf j (count + 1) w1
        have e : (lo - count) * k ≤ (lo - (count + 1)) * k + k := by
          have := Nat.mul_le_mul_right k (show lo - count ≤ (lo - (count + 1)) + 1 by omega)
          rw [Nat.add_mul, Nat.one_mul] at this
          exact this
        cases hq : occurLoopS f lo up msg j (count + 1) w1 with
        | ok w2 =>
          rw [hq] at h'
          have h' : S.size w2 + (lo - (count + 1)) * k ≤ S.size w1 := h'
          exact (by omega : S.size w2 + (lo - count) * k ≤ S.size w)
        | _ => trivial
    | err e w1 =>
      rw [hr] at hw
      have hle := hw.2.le
      simp only
      split
      · split
        · trivial
        · rename_i hlt
          have e : lo - count = 0 := by omega
          rw [e, Nat.zero_mul]
          exact hle
      · trivial
    | panic => trivial
    | fuel => trivial

end

variable {env : Env}

/-! ## Arrays -/

/-- What is to be shown of an entry. -/
def LeastA (env : Env) (c : Ctx) (n : Node) (k : Nat) : Prop :=
  ∀ (j : Nat) (w : WArr), TakesAtLeast arrSizes (arrSizes.size w) k ((fns env j).arr n w c)

/-- What is to be shown of entries one after the other. -/
def LeastAL (env : Env) (c : Ctx) (l : List Node) (k : Nat) : Prop :=
  ∀ (j : Nat) (w : WArr), TakesAtLeast arrSizes (arrSizes.size w) k (seqLoopS (fun m w => (fns env j).arr m w c) l w)

/-- What is to be shown of options. -/
def LeastAO (env : Env) (c : Ctx) (l : List Node) (k : Nat) : Prop :=
  ∀ (stop : Err → Bool) (msg : String) (j : Nat) (w : WArr),
    TakesAtLeast arrSizes (arrSizes.size w) k (choiceLoopS (fun m w => (fns env j).arr m w c) stop msg l w)

theorem leastA_body {n : Node} {c : Ctx} {k : Nat}
    (h : ∀ (j : Nat) (w : WArr), TakesAtLeast arrSizes (arrSizes.size w) k (arrBody env (fns env j) n w c)) : LeastA env c n k
  | 0, _ => trivial
  | j + 1, w => h j w

theorem leastA_zero {c : Ctx} {n : Node} : LeastA env c n 0 := by
  intro j w
  have h := (fns_shrink env j).arr n w c
  cases hr : (fns env j).arr n w c with
  | ok w1 => rw [hr] at h; exact h.le
  | _ => trivial

theorem leastA_element {c : Ctx} {n : Node} (he : n.isElement = true) : LeastA env c n 1 := by
  have value : ∀ (j : Nat) (t : Node) (w : WArr),
      TakesAtLeast arrSizes (arrSizes.size w) 1 (validateArrayValue env (fns env j) t w c) := by
    intro j t w
    have h := (arrayValue_shrunk (env := env) (r := fns env j) t w c).2
    cases hr : validateArrayValue env (fns env j) t w c with
    | ok w1 => exact h w1 hr
    | _ => trivial
  refine leastA_body fun j w => ?_
  cases n with
  | occur => cases he
  | rule => cases he
  | unwrap => cases he
  | choice => cases he
  | group => cases he
  | _ => exact value j _ w

theorem leastA_rule {c c' : Ctx} {s : String} {as : List Node} {n : Node} {k : Nat}
    (hl : c.lookupRule env s as = .ok (n, c')) (ih : LeastA env c' n k) : LeastA env c (.rule s as) k := by
  refine leastA_body fun j w => ?_
  simp only [arrBody, hl]
  exact ih j w

theorem leastA_unwrap {c c' : Ctx} {s : String} {as l : List Node} {k : Nat}
    (hl : c.lookupRule env s as = .ok (.array l, c')) (ih : LeastAL env c' l k) : LeastA env c (.unwrap s as) k := by
  refine leastA_body fun j w => ?_
  simp only [arrBody, hl, validateArrayUnwrap]
  exact ih j w

theorem leastA_group {c : Ctx} {l : List Node} {k : Nat} (ih : LeastAL env c l k) : LeastA env c (.group l) k := by
  refine leastA_body fun j w => ?_
  have h := ih j w.snapshot
  simp only [arrBody, validateArrayGroup]
  cases hr : seqLoopS (fun m w => (fns env j).arr m w c) l w.snapshot with
  | ok w1 =>
    rw [hr] at h
    simp only [WArr.commit]
    cases w1.snaps with
    | nil => trivial
    | cons q qs => exact h
  | err e w1 =>
    simp only [WArr.rewind]
    cases w1.snaps <;> trivial
  | panic => trivial
  | fuel => trivial

theorem leastA_occur {c : Ctx} {o : OccurLimit} {n : Node} {k : Nat} (ih : LeastA env c n k) :
    LeastA env c (.occur o n) (o.limits.1 * k) := by
  refine leastA_body fun j w => ?_
  simp only [arrBody, validateArrayOccur]
  exact least_occur (fun w => (fns_shrink env j).arr n w c) (ih j) _ 0 w

mutual
theorem AtLeast.takes : ∀ {c : Ctx} {n : Node} {k : Nat}, AtLeast env c n k → LeastA env c n k
  | _, _, _, .zero .. => leastA_zero
  | _, _, _, .element _ he => leastA_element he
  | _, _, _, .rule hl h => leastA_rule hl h.takes
  | _, _, _, .unwrap hl h => leastA_unwrap hl h.takes
  | _, _, _, .choice h => leastA_body fun j w => h.takes _ _ j w
  | _, _, _, .group h => leastA_group h.takes
  | _, _, _, .occur h => leastA_occur h.takes
theorem AtLeastL.takes : ∀ {c : Ctx} {l : List Node} {k : Nat}, AtLeastL env c l k → LeastAL env c l k
  | _, _, _, .nil _ => fun _ _ => Nat.le_refl _
  | _, _, _, .cons h hs => fun j w => least_seq (f := fun m w => (fns env j).arr m w _) (h.takes j) (hs.takes j) w
theorem AtLeastO.takes : ∀ {c : Ctx} {l : List Node} {k : Nat}, AtLeastO env c l k → LeastAO env c l k
  | _, _, _, .nil .. => fun _ _ _ _ => trivial
  | _, _, _, .cons h hs => fun stop msg j w => least_choice (f := fun m w => (fns env j).arr m w _)
      (fun n w => (fns_shrink env j).arr n w _) (h.takes j) (hs.takes stop msg j) w
end

/-! ## Maps -/

/-- What is to be shown of an entry. -/
def LeastM (env : Env) (c : Ctx) (n : Node) (k : Nat) : Prop :=
  ∀ (j : Nat) (w : WMap), TakesAtLeast mapSizes (mapSizes.size w) k ((fns env j).map n w c)

/-- What is to be shown of entries one after the other. -/
def LeastML (env : Env) (c : Ctx) (l : List Node) (k : Nat) : Prop :=
  ∀ (j : Nat) (w : WMap), TakesAtLeast mapSizes (mapSizes.size w) k (seqLoopS (fun m w => (fns env j).map m w c) l w)

/-- What is to be shown of options. -/
def LeastMO (env : Env) (c : Ctx) (l : List Node) (k : Nat) : Prop :=
  ∀ (stop : Err → Bool) (msg : String) (j : Nat) (w : WMap),
    TakesAtLeast mapSizes (mapSizes.size w) k (choiceLoopS (fun m w => (fns env j).map m w c) stop msg l w)

theorem leastM_body {n : Node} {c : Ctx} {k : Nat}
    (h : ∀ (j : Nat) (w : WMap), TakesAtLeast mapSizes (mapSizes.size w) k (mapBody env (fns env j) n w c)) : LeastM env c n k
  | 0, _ => trivial
  | j + 1, w => h j w

theorem leastM_zero {c : Ctx} {n : Node} : LeastM env c n 0 := by
  intro j w
  have h := (fns_shrink env j).map n w c
  cases hr : (fns env j).map n w c with
  | ok w1 => rw [hr] at h; exact h.le
  | _ => trivial

theorem leastM_pair {c : Ctx} {k t : Node} {x : Bool} : LeastM env c (.keyValue k t x) 1 := by
  refine leastM_body fun j w => ?_
  have h := (mapKeyvalue_shrunk (env := env) (r := fns env j) k t x w c).2
  simp only [mapBody]
  cases hr : validateMapKeyvalue env (fns env j) k t x w c with
  | ok w1 => exact h w1 hr
  | _ => trivial

theorem leastM_rule {c c' : Ctx} {s : String} {as : List Node} {n : Node} {k : Nat}
    (hl : c.lookupRule env s as = .ok (n, c')) (ih : LeastM env c' n k) : LeastM env c (.rule s as) k := by
  refine leastM_body fun j w => ?_
  simp only [mapBody, hl]
  exact ih j w

theorem leastM_unwrap {c c' : Ctx} {s : String} {as l : List Node} {k : Nat}
    (hl : c.lookupRule env s as = .ok (.map l, c')) (ih : LeastML env c' l k) : LeastM env c (.unwrap s as) k := by
  refine leastM_body fun j w => ?_
  simp only [mapBody, hl, validateMapUnwrap]
  exact ih j w

theorem leastM_group {c : Ctx} {l : List Node} {k : Nat} (ih : LeastML env c l k) : LeastM env c (.group l) k := by
  refine leastM_body fun j w => ?_
  have h := ih j w.snapshot
  simp only [mapBody, validateMapGroup]
  cases hr : seqLoopS (fun m w => (fns env j).map m w c) l w.snapshot with
  | ok w1 =>
    rw [hr] at h
    simp only [WMap.commit]
    cases w1.snaps with
    | nil => trivial
    | cons q qs => exact h
  | err e w1 =>
    simp only [WMap.rewind]
    cases w1.snaps <;> trivial
  | panic => trivial
  | fuel => trivial

theorem leastM_occur {c : Ctx} {o : OccurLimit} {n : Node} {k : Nat} (ih : LeastM env c n k) :
    LeastM env c (.occur o n) (o.limits.1 * k) := by
  refine leastM_body fun j w => ?_
  simp only [mapBody, validateMapOccur]
  exact least_occur (fun w => (fns_shrink env j).map n w c) (ih j) _ 0 w

mutual
theorem AtLeastM.takes : ∀ {c : Ctx} {n : Node} {k : Nat}, AtLeastM env c n k → LeastM env c n k
  | _, _, _, .zero .. => leastM_zero
  | _, _, _, .pair .. => leastM_pair
  | _, _, _, .rule hl h => leastM_rule hl h.takes
  | _, _, _, .unwrap hl h => leastM_unwrap hl h.takes
  | _, _, _, .choice h => leastM_body fun j w => h.takes _ _ j w
  | _, _, _, .inline h => leastM_body fun j w => h.takes _ _ j w
  | _, _, _, .group h => leastM_group h.takes
  | _, _, _, .occur h => leastM_occur h.takes
theorem AtLeastML.takes : ∀ {c : Ctx} {l : List Node} {k : Nat}, AtLeastML env c l k → LeastML env c l k
  | _, _, _, .nil _ => fun _ _ => Nat.le_refl _
  | _, _, _, .cons h hs => fun j w => least_seq (f := fun m w => (fns env j).map m w _) (h.takes j) (hs.takes j) w
theorem AtLeastMO.takes : ∀ {c : Ctx} {l : List Node} {k : Nat}, AtLeastMO env c l k → LeastMO env c l k
  | _, _, _, .nil .. => fun _ _ _ _ => trivial
  | _, _, _, .cons h hs => fun stop msg j w => least_choice (f := fun m w => (fns env j).map m w _)
      (fun n w => (fns_shrink env j).map n w _) (h.takes j) (hs.takes stop msg j) w
end

end Cddl
