import Verif.Props.C16

/-! # C17  A failed alternative leaves no trace

Array and map entries are matched on a working copy.  An entry that fails with a mismatch (so that another
alternative is tried) leaves the working copy as it was, if it is atomic in the sense of Spec/Rollback.lean; nested
groups and unwrapped types are not (`C17_*_refuted`). -/

namespace Cddl

/-- C17 for arrays.  Partial: the statement without `atomic` is refuted below. -/
theorem C17_array_partial (env : Env) (J : Judgement) (hJ : J.Agrees env)
    (hl : ∀ s e, env.lookup s = .error e → e.isFatal = true) (n : Node) (w : WArr) (k : Nat) (hw : w.Inv k)
    (hn : (n.kind J .item).atomic = true) (e : Err) (w' : WArr) (h : (lim env).arr n w top = .err e w')
    (he : e.isFatal = false) : w' = w := by
  have h1 := ((lim_sound hl hJ).arr n w top k trivial hw).fails hn
  rw [h] at h1
  exact h1 he

/-- C17 for maps. -/
theorem C17_map_partial (env : Env) (J : Judgement) (hJ : J.Agrees env)
    (hl : ∀ s e, env.lookup s = .error e → e.isFatal = true) (n : Node) (w : WMap) (k : Nat) (hw : w.Inv k)
    (hn : (n.kind J .member).atomic = true) (e : Err) (w' : WMap) (h : (lim env).map n w top = .err e w')
    (he : e.isFatal = false) : w' = w := by
  have h1 := ((lim_sound hl hJ).map n w top k trivial hw).fails hn
  rw [h] at h1
  exact h1 he

theorem choiceLoopS_msg {σ : Type} {f : Node → σ → SRes σ} {stop : Err → Bool} {m m' : String} :
    ∀ (l : List Node) (w : σ), (∀ w', choiceLoopS f stop m l w = .ok w' ↔ choiceLoopS f stop m' l w = .ok w')
  | [], w, w' => by simp [choiceLoopS]
  | n :: ns, w, w' => by
    simp only [choiceLoopS]
    cases f n w with
    | err e w1 =>
      dsimp only
      split
      · exact .rfl
      · exact choiceLoopS_msg ns w1 w'
    | _ => exact .rfl

/-- C17: a schema whose first alternative fails is as good as one without that alternative. -/
theorem C17_next_alternative_partial (env : Env) (J : Judgement) (hJ : J.Agrees env)
    (hl : ∀ s e, env.lookup s = .error e → e.isFatal = true) (o : Node) (os post : List Node) (xs : List Value)
    (hv : ∀ v ∈ xs, v.WF) (ho : (o.kind J .item).atomic = true) (e : Err) (w' : WArr)
    (h : (lim env).arr o (WArr.new xs) top = .err e w') (he : e.isFatal = false) :
    Accepts env top (.array (.choice (o :: os) :: post)) (.array xs) ↔
      Accepts env top (.array (.choice os :: post)) (.array xs) := by
  have hw : (WArr.new xs).Inv 0 := ⟨hv, by simp [WArr.new], rfl⟩
  obtain rfl := C17_array_partial env J hJ hl o _ 0 hw ho e w' h he
  unfold Accepts
  rw [validate_array_eq, validate_array_eq, seqLoopS_cons, seqLoopS_cons, arr_eq, arr_eq]
  simp only [arrBody]
  rw [choiceLoopS, h]
  simp only [he, Bool.false_eq_true, if_false]
  have h1 := fun w' => choiceLoopS_msg (f := fun m w => (lim env).arr m w top) (stop := Err.isFatal)
    (m := "choice of " ++ toString (o :: os).length) (m' := "choice of " ++ toString os.length) os (WArr.new xs) w'
  revert h1
  cases choiceLoopS (fun m w => (lim env).arr m w top) Err.isFatal ("choice of " ++ toString (o :: os).length) os (WArr.new xs) with
  | ok w1 => intro h1; rw [(h1 w1).mp rfl]
  | _ =>
    intro h1
    cases h2 : choiceLoopS (fun m w => (lim env).arr m w top) Err.isFatal ("choice of " ++ toString os.length) os (WArr.new xs) with
    | ok w1 => cases (h1 w1).mpr h2
    | _ => simp [SRes.andThen, arrayEnd]

/-- A concrete call on a working array. -/
theorem lim_arr_of_fns {env : Env} {k : Nat} {n : Node} {w : WArr} {c : Ctx} {r : SRes WArr}
    (h : (fns env k).arr n w c = r) (hr : r ≠ .fuel) : (lim env).arr n w c = r := by
  obtain ⟨N, hN⟩ := (lim_ev env).arr n w c
  dsimp only at hN
  rcases (fns_mono env (Nat.le_max_left k N)).arr n w c with h1 | h1
  · rw [h1] at h; exact absurd h.symm hr
  · rw [← hN (max k N) (Nat.le_max_right k N)]
    exact h1.symm.trans h

/-- A concrete call on a working map. -/
theorem lim_map_of_fns {env : Env} {k : Nat} {n : Node} {w : WMap} {c : Ctx} {r : SRes WMap}
    (h : (fns env k).map n w c = r) (hr : r ≠ .fuel) : (lim env).map n w c = r := by
  obtain ⟨N, hN⟩ := (lim_ev env).map n w c
  dsimp only at hN
  rcases (fns_mono env (Nat.le_max_left k N)).map n w c with h1 | h1
  · rw [h1] at h; exact absurd h.symm hr
  · rw [← hN (max k N) (Nat.le_max_right k N)]
    exact h1.symm.trans h

/-- A group in a failing group: the array has lost its first element. -/
theorem C17_array_refuted : (lim (demoEnv [])).arr (.group [.group [.prelude .int], .prelude .tstr])
    (WArr.new [.integer 1, .integer 2]) top = .err (.mismatch "tstr") (WArr.new [.integer 2]) :=
  lim_arr_of_fns (k := 60) rfl (by simp)

/-- An unwrapped map that fails: the map has lost a pair. -/
theorem C17_map_refuted : (lim (demoEnv [("x", ⟨[], .map [.keyValue (.literal (.text "a")) (.prelude .int) true,
      .keyValue (.literal (.text "z")) (.prelude .int) true]⟩)])).map (.unwrap "x" [])
    (WMap.new [(.text "a", .integer 1), (.text "b", .integer 2)]) top =
      .err (.mismatch "map{\"z\"}") (WMap.new [(.text "b", .integer 2)]) :=
  lim_map_of_fns (k := 60) rfl (by simp)

/-! ## Concrete cases -/

/-- The rule `pair = (int, b)` of C15 is atomic: on `[1, "x"]` it fails and takes nothing. -/
example : ((Node.rule "pair" []).kind c15Judgement .item).atomic = true ∧
    ∃ e, (lim c15Env).arr (.rule "pair" []) (WArr.new [.integer 1, .text "x"]) top =
      .err e (WArr.new [.integer 1, .text "x"]) ∧ e.isFatal = false :=
  ⟨by decide, _, lim_arr_of_fns (k := 60) rfl (by simp), rfl⟩

example : ((Node.rule "entry" []).kind c16Judgement .member).atomic = true ∧
    ∃ e, (lim c16Env).map (.rule "entry" []) (WMap.new [(.text "k", .text "x")]) top =
      .err e (WMap.new [(.text "k", .text "x")]) ∧ e.isFatal = false :=
  ⟨by decide, _, lim_map_of_fns (k := 60) rfl (by simp), rfl⟩

end Cddl
