import Verif.Spec.Demo

/-! # Outer snapshots do not influence matching

Two working copies with the same contents and the same `k` innermost snapshots are treated alike. -/

namespace Cddl

/-- Same array, same `k` innermost snapshots. -/
def WArr.Eqv (k : Nat) (w w' : WArr) : Prop :=
  w.array = w'.array ∧ w.snaps.take k = w'.snaps.take k ∧ k ≤ w.snaps.length ∧ k ≤ w'.snaps.length

/-- Same map, same `k` innermost snapshots. -/
def WMap.Eqv (k : Nat) (w w' : WMap) : Prop :=
  w.map = w'.map ∧ w.snaps.take k = w'.snaps.take k ∧ k ≤ w.snaps.length ∧ k ≤ w'.snaps.length

/-- Same answer, related working copies. -/
inductive SEqv {σ : Type} (E : σ → σ → Prop) : SRes σ → SRes σ → Prop
  | ok {w w'} : E w w' → SEqv E (.ok w) (.ok w')
  | err (e) {w w'} : E w w' → SEqv E (.err e w) (.err e w')
  | panic : SEqv E .panic .panic
  | fuel : SEqv E .fuel .fuel

section Loops
variable {σ : Type} {E : σ → σ → Prop}

theorem SEqv.ofRes (r : Res Unit) {w w' : σ} (h : E w w') : SEqv E (SRes.ofRes r w) (SRes.ofRes r w') := by
  cases r with
  | ok => exact .ok h
  | err e => exact .err e h
  | panic => exact .panic
  | fuel => exact .fuel

theorem choiceLoopS_eqv {f g : Node → σ → SRes σ} {stop : Err → Bool} {msg : String} :
    ∀ {l : List Node} {w w' : σ}, E w w' → (∀ n ∈ l, ∀ w w', E w w' → SEqv E (f n w) (g n w')) →
      SEqv E (choiceLoopS f stop msg l w) (choiceLoopS g stop msg l w')
  | [], _, _, hw, _ => .err _ hw
  | n :: ns, w, w', hw, h => by
    have ih := fun {w w'} (hw : E w w') => choiceLoopS_eqv (stop := stop) (msg := msg) hw fun m hm => h m (List.mem_cons_of_mem _ hm)
    have h1 := h n (by simp) w w' hw
    simp only [choiceLoopS]
    generalize f n w = r at h1
    generalize g n w' = r' at h1
    cases h1 with
    | ok h => exact .ok h
    | err e h =>
      dsimp only
      split
      · exact .err e h
      · exact ih h
    | panic => exact .panic
    | fuel => exact .fuel

theorem seqLoopS_eqv {f g : Node → σ → SRes σ} :
    ∀ {l : List Node} {w w' : σ}, E w w' → (∀ n ∈ l, ∀ w w', E w w' → SEqv E (f n w) (g n w')) →
      SEqv E (seqLoopS f l w) (seqLoopS g l w')
  | [], _, _, hw, _ => .ok hw
  | n :: ns, w, w', hw, h => by
    have ih := fun {w w'} (hw : E w w') => seqLoopS_eqv hw fun m hm => h m (List.mem_cons_of_mem _ hm)
    have h1 := h n (by simp) w w' hw
    simp only [seqLoopS]
    generalize f n w = r at h1
    generalize g n w' = r' at h1
    cases h1 with
    | ok h => exact ih h
    | err e h => exact .err e h
    | panic => exact .panic
    | fuel => exact .fuel

theorem occurLoopS_eqv {f g : σ → SRes σ} {lo up : Nat} {msg : String}
    (h : ∀ w w', E w w' → SEqv E (f w) (g w')) :
    ∀ (k cnt : Nat) {w w' : σ}, E w w' → SEqv E (occurLoopS f lo up msg k cnt w) (occurLoopS g lo up msg k cnt w')
  | 0, _, _, _, _ => .fuel
  | k + 1, cnt, w, w', hw => by
    have ih := fun cnt {w w'} (hw : E w w') => occurLoopS_eqv (lo := lo) (up := up) (msg := msg) h k cnt hw
    have h1 := h w w' hw
    simp only [occurLoopS]
    generalize f w = r at h1
    generalize g w' = r' at h1
    cases h1 with
    | ok h =>
      dsimp only
      split
      · split
        · exact .err _ h
        · exact .ok h
      · exact ih _ h
    | err e h =>
      dsimp only
      split
      · split
        · exact .err _ h
        · exact .ok h
      · exact .err _ h
    | panic => exact .panic
    | fuel => exact .fuel

end Loops

theorem WArr.Eqv.popFront {k : Nat} {w w' : WArr} (h : w.Eqv k w') : SEqv (WArr.Eqv k) w.popFront w'.popFront := by
  obtain ⟨a, s⟩ := w
  obtain ⟨a', s'⟩ := w'
  obtain ⟨h1, h2, h3, h4⟩ := h
  dsimp only at h1 h2 h3 h4
  subst h1
  cases a with
  | nil => exact .panic
  | cons x xs =>
    cases k with
    | zero => cases s <;> cases s' <;> exact .ok ⟨rfl, rfl, Nat.zero_le _, Nat.zero_le _⟩
    | succ k =>
      cases s with
      | nil => simp at h3
      | cons s ss =>
        cases s' with
        | nil => simp at h4
        | cons s' ss' =>
          simp only [List.take_succ_cons, List.cons.injEq] at h2
          obtain ⟨rfl, h2⟩ := h2
          exact .ok ⟨rfl, by simp [h2], by simpa using h3, by simpa using h4⟩

theorem WMap.Eqv.remove {k : Nat} {w w' : WMap} (h : w.Eqv k w') (key : Value) :
    SEqv (WMap.Eqv k) (w.remove key) (w'.remove key) := by
  obtain ⟨a, s⟩ := w
  obtain ⟨a', s'⟩ := w'
  obtain ⟨h1, h2, h3, h4⟩ := h
  dsimp only at h1 h2 h3 h4
  subst h1
  simp only [WMap.remove]
  cases VMap.remove a key with
  | none => exact .panic
  | some p =>
    obtain ⟨v, m⟩ := p
    cases k with
    | zero => cases s <;> cases s' <;> exact .ok ⟨rfl, rfl, Nat.zero_le _, Nat.zero_le _⟩
    | succ k =>
      cases s with
      | nil => simp at h3
      | cons s ss =>
        cases s' with
        | nil => simp at h4
        | cons s' ss' =>
          simp only [List.take_succ_cons, List.cons.injEq] at h2
          obtain ⟨rfl, h2⟩ := h2
          exact .ok ⟨rfl, by simp [h2], by simpa using h3, by simpa using h4⟩

theorem WArr.Eqv.snapshot {k : Nat} {w w' : WArr} (h : w.Eqv k w') : w.snapshot.Eqv (k + 1) w'.snapshot :=
  ⟨h.1, by simp [WArr.snapshot, h.2.1], by simpa [WArr.snapshot] using h.2.2.1, by simpa [WArr.snapshot] using h.2.2.2⟩

theorem WMap.Eqv.snapshot {k : Nat} {w w' : WMap} (h : w.Eqv k w') : w.snapshot.Eqv (k + 1) w'.snapshot :=
  ⟨h.1, by simp [WMap.snapshot, h.2.1], by simpa [WMap.snapshot] using h.2.2.1, by simpa [WMap.snapshot] using h.2.2.2⟩

theorem WArr.Eqv.end {k : Nat} {w w' : WArr} (h : w.Eqv (k + 1) w') :
    (∃ v v', w.commit = .ok v ∧ w'.commit = .ok v' ∧ v.Eqv k v') ∧
    (∃ v v', w.rewind = .ok v ∧ w'.rewind = .ok v' ∧ v.Eqv k v') := by
  obtain ⟨a, s⟩ := w
  obtain ⟨a', s'⟩ := w'
  obtain ⟨h1, h2, h3, h4⟩ := h
  dsimp only at h1 h2 h3 h4
  subst h1
  cases s with
  | nil => simp at h3
  | cons s ss =>
    cases s' with
    | nil => simp at h4
    | cons s' ss' =>
      simp only [List.take_succ_cons, List.cons.injEq] at h2
      obtain ⟨rfl, h2⟩ := h2
      exact ⟨⟨_, _, rfl, rfl, rfl, h2, by simpa using h3, by simpa using h4⟩,
        ⟨_, _, rfl, rfl, rfl, h2, by simpa using h3, by simpa using h4⟩⟩

theorem WMap.Eqv.end {k : Nat} {w w' : WMap} (h : w.Eqv (k + 1) w') :
    (∃ v v', w.commit = .ok v ∧ w'.commit = .ok v' ∧ v.Eqv k v') ∧
    (∃ v v', w.rewind = .ok v ∧ w'.rewind = .ok v' ∧ v.Eqv k v') := by
  obtain ⟨a, s⟩ := w
  obtain ⟨a', s'⟩ := w'
  obtain ⟨h1, h2, h3, h4⟩ := h
  dsimp only at h1 h2 h3 h4
  subst h1
  cases s with
  | nil => simp at h3
  | cons s ss =>
    cases s' with
    | nil => simp at h4
    | cons s' ss' =>
      simp only [List.take_succ_cons, List.cons.injEq] at h2
      obtain ⟨rfl, h2⟩ := h2
      exact ⟨⟨_, _, rfl, rfl, rfl, h2, by simpa using h3, by simpa using h4⟩,
        ⟨_, _, rfl, rfl, rfl, h2, by simpa using h3, by simpa using h4⟩⟩

/-- What is shown about the matching functions. -/
structure FrameRec (r : Rec) : Prop where
  arr : ∀ k n c w w', WArr.Eqv k w w' → SEqv (WArr.Eqv k) (r.arr n w c) (r.arr n w' c)
  map : ∀ k n c w w', WMap.Eqv k w w' → SEqv (WMap.Eqv k) (r.map n w c) (r.map n w' c)
  mchf : ∀ k s as c w w', WMap.Eqv k w w' → SEqv (WMap.Eqv k) (r.mchf s as w c) (r.mchf s as w' c)

section
variable {env : Env} {r : Rec} (H : FrameRec r)
include H

theorem arrayValue_frame {k : Nat} {n : Node} {c : Ctx} {w w' : WArr} (h : w.Eqv k w') :
    SEqv (WArr.Eqv k) (validateArrayValue env r n w c) (validateArrayValue env r n w' c) := by
  unfold validateArrayValue
  rw [← h.1]
  cases w.array with
  | nil => exact .err _ h
  | cons x xs =>
    dsimp only
    cases r.val x n c with
    | ok => exact h.popFront
    | err e => exact .err e h
    | panic => exact .panic
    | fuel => exact .fuel

theorem arr_frame {k : Nat} {n : Node} {c : Ctx} {w w' : WArr} (h : w.Eqv k w') :
    SEqv (WArr.Eqv k) (arrBody env r n w c) (arrBody env r n w' c) := by
  cases n with
  | occur o n => exact occurLoopS_eqv (fun _ _ h => H.arr k n c _ _ h) _ _ h
  | rule s as =>
    simp only [arrBody]
    cases c.lookupRule env s as with
    | ok a => exact H.arr k _ _ _ _ h
    | error e => exact .err e h
  | unwrap s as =>
    simp only [arrBody]
    cases c.lookupRule env s as with
    | ok a =>
      dsimp only
      unfold validateArrayUnwrap
      split
      · exact seqLoopS_eqv h fun n _ w w' h => H.arr k n _ _ _ h
      · exact .err _ h
    | error e => exact .err e h
  | choice l => exact choiceLoopS_eqv h fun n _ w w' h => H.arr k n _ _ _ h
  | group l =>
    simp only [arrBody, validateArrayGroup]
    have h1 := seqLoopS_eqv (f := fun m w => r.arr m w c) (g := fun m w => r.arr m w c) (l := l) h.snapshot
      fun n _ w w' h => H.arr (k + 1) n c w w' h
    revert h1
    generalize seqLoopS (fun m w => r.arr m w c) l w.snapshot = x
    generalize seqLoopS (fun m w => r.arr m w c) l w'.snapshot = y
    intro h1
    cases h1 with
    | ok h =>
      obtain ⟨v, v', e1, e2, h⟩ := h.end.1
      dsimp only
      rw [e1, e2]
      exact .ok h
    | err e h =>
      obtain ⟨v, v', e1, e2, h⟩ := h.end.2
      dsimp only
      rw [e1, e2]
      exact .err e h
    | panic => exact .panic
    | fuel => exact .fuel
  | _ => exact arrayValue_frame H h

theorem map_frame {k : Nat} {n : Node} {c : Ctx} {w w' : WMap} (h : w.Eqv k w') :
    SEqv (WMap.Eqv k) (mapBody env r n w c) (mapBody env r n w' c) := by
  cases n with
  | occur o n => exact occurLoopS_eqv (fun _ _ h => H.map k n c _ _ h) _ _ h
  | rule s as =>
    simp only [mapBody]
    cases c.lookupRule env s as with
    | ok a => exact H.map k _ _ _ _ h
    | error e => exact .err e h
  | unwrap s as =>
    simp only [mapBody]
    cases c.lookupRule env s as with
    | ok a =>
      dsimp only
      unfold validateMapUnwrap
      split
      · exact seqLoopS_eqv h fun n _ w w' h => H.map k n _ _ _ h
      · exact .err _ h
    | error e => exact .err e h
  | choice l => exact choiceLoopS_eqv h fun n _ w w' h => H.map k n _ _ _ h
  | choiceifyInline l => exact choiceLoopS_eqv h fun n _ w w' h => H.map k n _ _ _ h
  | choiceify s as => exact H.mchf k s as c _ _ h
  | keyValue key t cut =>
    simp only [mapBody, validateMapKeyvalue]
    have : validateMapKey env r key w' c = validateMapKey env r key w c := by
      unfold validateMapKey mapSearchLiteral mapSearch
      rw [h.1]
    rw [this]
    cases validateMapKey env r key w c with
    | ok p =>
      dsimp only
      cases r.val p.2 t c with
      | ok => exact h.remove _
      | err e =>
        dsimp only
        split <;> exact .err _ h
      | panic => exact .panic
      | fuel => exact .fuel
    | err e => exact .err e h
    | panic => exact .panic
    | fuel => exact .fuel
  | group l =>
    simp only [mapBody, validateMapGroup]
    have h1 := seqLoopS_eqv (f := fun m w => r.map m w c) (g := fun m w => r.map m w c) (l := l) h.snapshot
      fun n _ w w' h => H.map (k + 1) n c w w' h
    revert h1
    generalize seqLoopS (fun m w => r.map m w c) l w.snapshot = x
    generalize seqLoopS (fun m w => r.map m w c) l w'.snapshot = y
    intro h1
    cases h1 with
    | ok h =>
      obtain ⟨v, v', e1, e2, h⟩ := h.end.1
      dsimp only
      rw [e1, e2]
      exact .ok h
    | err e h =>
      obtain ⟨v, v', e1, e2, h⟩ := h.end.2
      dsimp only
      rw [e1, e2]
      exact .err _ h
    | panic => exact .panic
    | fuel => exact .fuel
  | _ => exact .err _ h

theorem mchf_frame {k : Nat} {s : String} {as : List Node} {c : Ctx} {w w' : WMap} (h : w.Eqv k w') :
    SEqv (WMap.Eqv k) (mchfBody env r s as w c) (mchfBody env r s as w' c) := by
  simp only [mchfBody]
  cases c.lookupRule env s as with
  | error e => exact .err e h
  | ok a =>
    dsimp only
    split
    · refine choiceLoopS_eqv h fun n _ w w' h => ?_
      unfold mapChoiceifyItem
      split
      · exact H.map _ _ _ _ _ h
      · exact H.mchf _ _ _ _ _ _ h
      · exact H.map _ _ _ _ _ h
    · exact H.mchf _ _ _ _ _ _ h
    · exact .err _ h

end

theorem fns_frame (env : Env) : ∀ n, FrameRec (fns env n)
  | 0 => ⟨fun _ _ _ _ _ _ => .fuel, fun _ _ _ _ _ _ => .fuel, fun _ _ _ _ _ _ _ => .fuel⟩
  | n + 1 => ⟨fun _ _ _ _ _ h => arr_frame (fns_frame env n) h, fun _ _ _ _ _ h => map_frame (fns_frame env n) h,
      fun _ _ _ _ _ _ h => mchf_frame (fns_frame env n) h⟩

theorem lim_frame (env : Env) : FrameRec (lim env) := by
  refine ⟨fun k n c w w' h => ?_, fun k n c w w' h => ?_, fun k s as c w w' h => ?_⟩
  · obtain ⟨N, h1⟩ := (lim_ev env).arr n w c
    obtain ⟨N', h2⟩ := (lim_ev env).arr n w' c
    have h3 := h1 _ (Nat.le_max_left N N')
    have h4 := h2 _ (Nat.le_max_right N N')
    have := (fns_frame env (max N N')).arr k n c w w' h
    dsimp only at h3 h4
    rw [h3, h4] at this
    exact this
  · obtain ⟨N, h1⟩ := (lim_ev env).map n w c
    obtain ⟨N', h2⟩ := (lim_ev env).map n w' c
    have h3 := h1 _ (Nat.le_max_left N N')
    have h4 := h2 _ (Nat.le_max_right N N')
    have := (fns_frame env (max N N')).map k n c w w' h
    dsimp only at h3 h4
    rw [h3, h4] at this
    exact this
  · obtain ⟨N, h1⟩ := (lim_ev env).mchf s as w c
    obtain ⟨N', h2⟩ := (lim_ev env).mchf s as w' c
    have h3 := h1 _ (Nat.le_max_left N N')
    have h4 := h2 _ (Nat.le_max_right N N')
    have := (fns_frame env (max N N')).mchf k s as c w w' h
    dsimp only at h3 h4
    rw [h3, h4] at this
    exact this

end Cddl
