import Verif.Spec.Single

/-! # Array entries for single items -/

namespace Cddl

/-- An array member that takes exactly one element if `f` accepts it. -/
def TakesOne (g : WArr → SRes WArr) (f : Value → Res Unit) : Prop :=
  (∀ w : WArr, w.array = [] → ∃ m, g w = .err (.mismatch m) w) ∧
  ∀ (w : WArr) x xs, w.array = x :: xs →
    g w = match f x with
      | .ok () => w.popFront
      | r => SRes.ofRes r w

theorem TakesOne.arrayValue {env : Env} {c : Ctx} {n : Node} :
    TakesOne (fun w => validateArrayValue env (lim env) n w c) (fun x => validate env x n c) := by
  refine ⟨fun w hw => ?_, fun w x xs hw => ?_⟩
  · simp [validateArrayValue, hw]
  · simp only [validateArrayValue, hw, validate]
    cases (lim env).val x n c <;> rfl

theorem takesOne_choice {env : Env} {c : Ctx} {l : List Node}
    (h : ∀ n, n ∈ l → TakesOne (fun w => (lim env).arr n w c) (fun x => validate env x n c)) (msg : String) :
    TakesOne (fun w => choiceLoopS (fun m w => (lim env).arr m w c) Err.isFatal msg l w)
      (fun x => choiceLoop (fun n => validate env x n c) msg l) := by
  induction l with
  | nil => exact ⟨fun w _ => ⟨_, rfl⟩, fun w x xs _ => rfl⟩
  | cons n ns ih =>
    have hn := h n (by simp)
    have hns := ih fun m hm => h m (by simp [hm])
    refine ⟨fun w hw => ?_, fun w x xs hw => ?_⟩
    · obtain ⟨m, hm⟩ := hn.1 w hw
      simp only [choiceLoopS, hm, Err.isFatal, Bool.false_eq_true, if_false]
      exact hns.1 w hw
    · have h1 := hn.2 w x xs hw
      have h2 := hns.2 w x xs hw
      dsimp only at h1 h2
      simp only [choiceLoopS, choiceLoop, h1]
      cases hv : validate env x n c with
      | ok =>
        dsimp only
        unfold WArr.popFront
        rw [hw]
        dsimp only
        cases w.snaps <;> rfl
      | err e =>
        dsimp only [SRes.ofRes]
        cases he : e.isFatal with
        | true => rfl
        | false => simpa using h2
      | panic => rfl
      | fuel => rfl

theorem Single.takesOne {env : Env} {c : Ctx} {n : Node} (h : Single env c n) :
    TakesOne (fun w => (lim env).arr n w c) (fun x => validate env x n c) := by
  induction h with
  | rule h1 _ ih =>
    refine ⟨fun w hw => ?_, fun w x xs hw => ?_⟩
    · obtain ⟨m, hm⟩ := ih.1 w hw
      refine ⟨m, ?_⟩
      dsimp only
      rw [arr_eq]; simp only [arrBody, h1]; exact hm
    · have := ih.2 w x xs hw
      dsimp only
      rw [arr_eq]
      simp only [arrBody, h1]
      unfold validate
      rw [val_eq]
      simp only [valBody, validateRule, h1, Res.ofExcept, Res.bind]
      exact this
  | choice _ ih =>
    rename_i c l _
    have := takesOne_choice ih ("choice of " ++ toString l.length)
    refine ⟨fun w hw => ?_, fun w x xs hw => ?_⟩
    · dsimp only; rw [arr_eq]; exact this.1 w hw
    · dsimp only
      rw [arr_eq]
      unfold validate
      rw [val_eq]
      exact this.2 w x xs hw
  | _ =>
    refine ⟨fun w hw => ?_, fun w x xs hw => ?_⟩
    · dsimp only; rw [arr_eq]; exact TakesOne.arrayValue.1 w hw
    · dsimp only; rw [arr_eq]; exact TakesOne.arrayValue.2 w x xs hw

theorem Entry.takesOne {env : Env} {c : Ctx} {m t : Node} (h : Entry env c m t) :
    TakesOne (fun w => (lim env).arr m w c) (fun x => validate env x t c) := by
  cases h with
  | plain h => exact h.takesOne
  | keyed k t cut =>
    refine ⟨fun w hw => ?_, fun w x xs hw => ?_⟩
    · dsimp only; rw [arr_eq]; exact TakesOne.arrayValue.1 w hw
    · dsimp only; rw [arr_eq]; exact TakesOne.arrayValue.2 w x xs hw

/-- Success of such a member. -/
theorem TakesOne.ok_iff {g : WArr → SRes WArr} {f : Value → Res Unit} (h : TakesOne g f) {w w' : WArr} :
    g w = .ok w' ↔ ∃ x xs, w.array = x :: xs ∧ f x = .ok () ∧ w.popFront = .ok w' := by
  cases hw : w.array with
  | nil =>
    obtain ⟨m, hm⟩ := h.1 w hw
    simp [hm]
  | cons x xs =>
    rw [h.2 w x xs hw]
    cases hf : f x <;> simp [hf]

theorem popFront_ok {w : WArr} {x : Value} {xs : List Value} (h : w.array = x :: xs) :
    ∃ w', w.popFront = .ok w' ∧ w'.array = xs := by
  unfold WArr.popFront
  rw [h]
  dsimp only
  cases w.snaps with
  | nil => exact ⟨_, rfl, rfl⟩
  | cons s ss => exact ⟨_, rfl, rfl⟩

end Cddl
