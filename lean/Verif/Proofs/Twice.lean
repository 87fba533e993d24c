import Verif.Proofs.AtLeast
import Verif.Proofs.Stands
import Verif.Spec.Twice

/-! # Entries take keys of a kind -/

namespace Cddl

variable {q : Value → Bool}

/-- How many keys are among `q`. -/
def keyCount (q : Value → Bool) (m : VMap) : Nat := m.countP fun p => q p.1

/-- Working copies measured by these keys. -/
def keySizes (q : Value → Bool) : Sizes WMap := ⟨fun w => keyCount q w.map, fun w => w.snaps.map (keyCount q)⟩

theorem keyCount_cons (p : Value × Value) (m : VMap) : keyCount q (p :: m) = keyCount q m + if q p.1 = true then 1 else 0 := by
  simp only [keyCount, List.countP_cons]

theorem keyCount_append (l m : VMap) : keyCount q (l ++ m) = keyCount q l + keyCount q m := by
  simp only [keyCount, List.countP_append]

theorem remove_count : ∀ {m m' : VMap} {k v : Value}, VMap.remove m k = some (v, m') →
    keyCount q m' + (if q k = true then 1 else 0) = keyCount q m
  | [], _, _, _, h => by simp [VMap.remove] at h
  | (k', v') :: t, m', k, v, h => by
    simp only [VMap.remove] at h
    split at h
    · cases h
    · rename_i he
      cases h
      rw [keyCount_cons, (Value.cmp_eq _ _).mp he]
    · cases hr : VMap.remove t k with
      | none => rw [hr] at h; cases h
      | some p =>
        obtain ⟨x, y⟩ := p
        rw [hr] at h
        cases h
        have := remove_count hr
        rw [keyCount_cons, keyCount_cons]
        dsimp only
        omega

theorem insert_count : ∀ (m : VMap) (k v : Value), keyCount q (VMap.insert m k v) ≤ keyCount q m + if q k = true then 1 else 0
  | [], k, v => by simp only [VMap.insert, keyCount_cons]; exact Nat.le_refl _
  | (k', v') :: t, k, v => by
    simp only [VMap.insert]
    split
    · rw [keyCount_cons]; exact Nat.le_refl _
    · rw [keyCount_cons, keyCount_cons]; dsimp only; omega
    · have := insert_count t k v
      rw [keyCount_cons, keyCount_cons]
      dsimp only
      omega

theorem extend_count : ∀ (l : List (Value × Value)) (m : VMap), keyCount q (VMap.extend m l) ≤ keyCount q m + keyCount q l
  | [], _ => by simp [VMap.extend]
  | p :: l, m => by
    have h1 := insert_count (q := q) m p.1 p.2
    have h2 := extend_count l (VMap.insert m p.1 p.2)
    rw [keyCount_cons]
    simp only [VMap.extend, List.foldl_cons] at h2 ⊢
    omega

theorem remove_counts (w : WMap) (k : Value) : (w.remove k).Shrunk (keySizes q) w ∧
    (q k = true → TakesAtLeast (keySizes q) ((keySizes q).size w) 1 (w.remove k)) := by
  obtain ⟨a, s⟩ := w
  unfold WMap.remove
  dsimp only
  cases h : VMap.remove a k with
  | none => exact ⟨trivial, fun _ => trivial⟩
  | some p =>
    obtain ⟨v, m⟩ := p
    have hl := remove_count (q := q) h
    cases s with
    | nil =>
      refine ⟨⟨by simp only [keySizes]; omega, by simp [keySizes], by simp [keySizes]⟩, fun hq => ?_⟩
      simp only [hq, if_true] at hl
      exact Nat.le_of_eq hl
    | cons s ss =>
      refine ⟨⟨by simp only [keySizes]; omega, by simp [keySizes], ?_⟩, fun hq => ?_⟩
      · simp only [keySizes, List.map_cons, List.cons.injEq]
        rintro _ _ ⟨rfl, rfl⟩
        refine ⟨_, ⟨rfl, rfl⟩, ?_⟩
        rw [keyCount_append, keyCount_cons]
        have : keyCount q [] = 0 := rfl
        dsimp only
        omega
      · simp only [hq, if_true] at hl
        exact Nat.le_of_eq hl

theorem keys_rewind {w w' : WMap} (h : Shrinks (keySizes q) w.snapshot w') : w'.rewind.Shrunk (keySizes q) w := by
  obtain ⟨a, s⟩ := w'
  obtain ⟨t', e, l⟩ := h.some 0 (w.snaps.map (keyCount q)) rfl
  have hle := h.le
  cases s with
  | nil => cases e
  | cons s ss =>
    simp only [keySizes, List.map_cons, List.cons.injEq] at e
    obtain ⟨rfl, e⟩ := e
    simp only [keySizes, WMap.snapshot] at l
    have hx := extend_count (q := q) s a
    refine ⟨by simp only [keySizes]; omega, fun h => ?_, fun t ts h => ?_⟩
    · simp only [keySizes] at h ⊢; rw [e]; exact h
    · simp only [keySizes] at h ⊢; rw [e]; exact ⟨t, h, by omega⟩

theorem keys_commit {w w' : WMap} (h : Shrinks (keySizes q) w.snapshot w') : w'.commit.Shrunk (keySizes q) w := by
  obtain ⟨a, s⟩ := w'
  obtain ⟨t', e, l⟩ := h.some 0 (w.snaps.map (keyCount q)) rfl
  have hle := h.le
  cases s with
  | nil => cases e
  | cons s ss =>
    simp only [keySizes, List.map_cons, List.cons.injEq] at e
    obtain ⟨rfl, e⟩ := e
    simp only [keySizes, WMap.snapshot] at hle
    refine ⟨hle, fun h => ?_, fun t ts h => ?_⟩
    · simp only [keySizes] at h ⊢; rw [e]; exact h
    · simp only [keySizes] at h ⊢; rw [e]; exact ⟨t, h, by omega⟩

/-- Functions that only take. -/
structure KeysRec (q : Value → Bool) (r : Rec) : Prop where
  map : ∀ n w c, (r.map n w c).Shrunk (keySizes q) w
  mchf : ∀ s as w c, (r.mchf s as w c).Shrunk (keySizes q) w

section
variable {env : Env} {r : Rec} (h : KeysRec q r)

theorem keysKeyvalue_shrunk (k v : Node) (x : Bool) (w : WMap) (c : Ctx) :
    (validateMapKeyvalue env r k v x w c).Shrunk (keySizes q) w := by
  unfold validateMapKeyvalue
  split
  · split
    · exact (remove_counts w _).1
    · split <;> exact ⟨trivial, .refl w⟩
    · trivial
    · trivial
  · exact ⟨trivial, .refl w⟩
  · trivial
  · trivial

include h

theorem keysItem_shrunk (n : Node) (w : WMap) (c : Ctx) : (mapChoiceifyItem r c n w).Shrunk (keySizes q) w := by
  cases n with
  | rule s as => exact h.mchf _ _ _ _
  | _ => exact h.map _ _ _

theorem keysBody_shrunk (n : Node) (w : WMap) (c : Ctx) : (mapBody env r n w c).Shrunk (keySizes q) w := by
  cases n with
  | occur o n => exact occur_shrunk (fun w => h.map n w c) _ _ _
  | keyValue k v x => exact keysKeyvalue_shrunk k v x w c
  | rule s as =>
    simp only [mapBody]
    cases c.lookupRule env s as with
    | ok a => exact h.map _ _ _
    | error e => exact ⟨trivial, .refl w⟩
  | unwrap s as =>
    simp only [mapBody]
    cases c.lookupRule env s as with
    | ok a =>
      dsimp only
      unfold validateMapUnwrap
      split
      · exact seq_shrunk (fun n w => h.map n w _) _ _
      · exact ⟨trivial, .refl w⟩
    | error e => exact ⟨trivial, .refl w⟩
  | choice l => exact choice_shrunk (fun n w => h.map n w _) _ _
  | choiceifyInline l => exact choice_shrunk (fun n w => h.map n w _) _ _
  | choiceify s as => exact h.mchf _ _ _ _
  | group l =>
    simp only [mapBody, validateMapGroup]
    have := seq_shrunk (S := keySizes q) (fun n w => h.map n w c) l w.snapshot
    cases hs : seqLoopS (fun m w => r.map m w c) l w.snapshot with
    | ok w' => rw [hs] at this; exact keys_commit this
    | err e w' =>
      rw [hs] at this
      have := keys_rewind this.2
      dsimp only
      cases hw : w'.rewind with
      | ok => rw [hw] at this; exact ⟨trivial, this⟩
      | err => rw [hw] at this; exact this
      | panic => trivial
      | fuel => trivial
    | panic => trivial
    | fuel => trivial
  | _ => exact ⟨trivial, .refl w⟩

theorem keysMchf_shrunk (s : String) (as : List Node) (w : WMap) (c : Ctx) : (mchfBody env r s as w c).Shrunk (keySizes q) w := by
  unfold mchfBody
  cases c.lookupRule env s as with
  | ok a =>
    dsimp only
    split
    · exact choice_shrunk (fun n w => keysItem_shrunk h n w _) _ _
    · exact h.mchf _ _ _ _
    · exact ⟨trivial, .refl w⟩
  | error e => exact ⟨trivial, .refl w⟩

end

theorem fns_keys (env : Env) (q : Value → Bool) : ∀ k, KeysRec q (fns env k)
  | 0 => ⟨fun _ _ _ => trivial, fun _ _ _ _ => trivial⟩
  | k + 1 => ⟨keysBody_shrunk (fns_keys env q k), keysMchf_shrunk (fns_keys env q k)⟩

variable {env : Env}

/-- What is to be shown of an entry. -/
def LeastK (env : Env) (q : Value → Bool) (c : Ctx) (n : Node) (k : Nat) : Prop :=
  ∀ (j : Nat) (w : WMap), TakesAtLeast (keySizes q) ((keySizes q).size w) k ((fns env j).map n w c)

/-- What is to be shown of entries one after the other. -/
def LeastKL (env : Env) (q : Value → Bool) (c : Ctx) (l : List Node) (k : Nat) : Prop :=
  ∀ (j : Nat) (w : WMap), TakesAtLeast (keySizes q) ((keySizes q).size w) k (seqLoopS (fun m w => (fns env j).map m w c) l w)

/-- What is to be shown of options. -/
def LeastKO (env : Env) (q : Value → Bool) (c : Ctx) (l : List Node) (k : Nat) : Prop :=
  ∀ (stop : Err → Bool) (msg : String) (j : Nat) (w : WMap),
    TakesAtLeast (keySizes q) ((keySizes q).size w) k (choiceLoopS (fun m w => (fns env j).map m w c) stop msg l w)

theorem leastK_body {n : Node} {c : Ctx} {k : Nat}
    (h : ∀ (j : Nat) (w : WMap), TakesAtLeast (keySizes q) ((keySizes q).size w) k (mapBody env (fns env j) n w c)) : LeastK env q c n k
  | 0, _ => trivial
  | j + 1, w => h j w

theorem leastK_zero {c : Ctx} {n : Node} : LeastK env q c n 0 := by
  intro j w
  have h := (fns_keys env q j).map n w c
  cases hr : (fns env j).map n w c with
  | ok w1 => rw [hr] at h; exact h.le
  | _ => trivial

theorem leastK_pair {c : Ctx} {k t : Node} {x : Bool} (hk : ∀ a, Accepts env c k a → q a = true) :
    LeastK env q c (.keyValue k t x) 1 := by
  refine leastK_body fun j w => ?_
  simp only [mapBody, validateMapKeyvalue]
  cases hr : validateMapKey env (fns env j) k w c with
  | ok p =>
    obtain ⟨h1, _⟩ := mapKey_fits (P := fun v n c => Accepts env c n v) (fun _ _ _ hr => lim_val_of_fns hr (by simp)) literal_itself hr
    obtain ⟨a, b⟩ := p
    simp only
    cases hv : (fns env j).val b t c with
    | ok u => exact (remove_counts w a).2 (hk a h1)
    | err e => simp only; split <;> trivial
    | panic => trivial
    | fuel => trivial
  | err e => trivial
  | panic => trivial
  | fuel => trivial

theorem leastK_rule {c c' : Ctx} {s : String} {as : List Node} {n : Node} {k : Nat}
    (hl : c.lookupRule env s as = .ok (n, c')) (ih : LeastK env q c' n k) : LeastK env q c (.rule s as) k := by
  refine leastK_body fun j w => ?_
  simp only [mapBody, hl]
  exact ih j w

theorem leastK_unwrap {c c' : Ctx} {s : String} {as l : List Node} {k : Nat}
    (hl : c.lookupRule env s as = .ok (.map l, c')) (ih : LeastKL env q c' l k) : LeastK env q c (.unwrap s as) k := by
  refine leastK_body fun j w => ?_
  simp only [mapBody, hl, validateMapUnwrap]
  exact ih j w

theorem leastK_group {c : Ctx} {l : List Node} {k : Nat} (ih : LeastKL env q c l k) : LeastK env q c (.group l) k := by
  refine leastK_body fun j w => ?_
  have h := ih j w.snapshot
  simp only [mapBody, validateMapGroup]
  cases hr : seqLoopS (fun m w => (fns env j).map m w c) l w.snapshot with
  | ok w1 =>
    rw [hr] at h
    simp only [WMap.commit]
    cases w1.snaps with
    | nil => trivial
    | cons q qs => exact h
  | err e w1 =>
    simp only [WMap.rewind]
    cases w1.snaps <;> trivial
  | panic => trivial
  | fuel => trivial

theorem leastK_occur {c : Ctx} {o : OccurLimit} {n : Node} {k : Nat} (ih : LeastK env q c n k) :
    LeastK env q c (.occur o n) (o.limits.1 * k) := by
  refine leastK_body fun j w => ?_
  simp only [mapBody, validateMapOccur]
  exact least_occur (fun w => (fns_keys env q j).map n w c) (ih j) _ 0 w

mutual
theorem KeysAtLeast.takes : ∀ {c : Ctx} {n : Node} {k : Nat}, KeysAtLeast env q c n k → LeastK env q c n k
  | _, _, _, .zero .. => leastK_zero
  | _, _, _, .pair hk => leastK_pair hk
  | _, _, _, .rule hl h => leastK_rule hl h.takes
  | _, _, _, .unwrap hl h => leastK_unwrap hl h.takes
  | _, _, _, .choice h => leastK_body fun j w => h.takes _ _ j w
  | _, _, _, .inline h => leastK_body fun j w => h.takes _ _ j w
  | _, _, _, .group h => leastK_group h.takes
  | _, _, _, .occur h => leastK_occur h.takes
theorem KeysAtLeastL.takes : ∀ {c : Ctx} {l : List Node} {k : Nat}, KeysAtLeastL env q c l k → LeastKL env q c l k
  | _, _, _, .nil _ => fun _ _ => Nat.le_refl _
  | _, _, _, .cons h hs => fun j w => least_seq (f := fun m w => (fns env j).map m w _) (h.takes j) (hs.takes j) w
theorem KeysAtLeastO.takes : ∀ {c : Ctx} {l : List Node} {k : Nat}, KeysAtLeastO env q c l k → LeastKO env q c l k
  | _, _, _, .nil .. => fun _ _ _ _ => trivial
  | _, _, _, .cons h hs => fun stop msg j w => least_choice (f := fun m w => (fns env j).map m w _)
      (fun n w => (fns_keys env q j).map n w _) (h.takes j) (hs.takes stop msg j) w
end


end Cddl
