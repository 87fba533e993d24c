import Verif.Proofs.ParseSound
import Verif.Proofs.FlatTable

/-!
# The two variants of the parser
-/

namespace Cddl

/-- The same outcome, with results renamed by `f`. -/
def PR.map {α β : Type} (f : α → β) : PR α → PR β
  | .ok r a => .ok r (f a)
  | .err e => .err e
  | .fail e => .fail e
  | .panic => .panic
  | .oof => .oof

section
variable {α β : Type} {f : α → β} {p : P α} {q : P β}

theorem many0Loop_map (h : ∀ i, (p i).map f = q i) (k : Nat) (i : List Char) :
    (many0Loop p k i).map (List.map f) = many0Loop q k i := by
  induction k generalizing i with
  | zero => rfl
  | succ k ih =>
    simp only [many0Loop]
    rw [← h i]
    cases p i with
    | ok r a =>
      dsimp only [PR.map]
      by_cases hl : r.length = i.length
      · rw [if_pos hl, if_pos hl]
      · rw [if_neg hl, if_neg hl, ← ih r]
        cases many0Loop p k r <;> rfl
    | _ => rfl

theorem many1_map (h : ∀ i, (p i).map f = q i) (i : List Char) :
    (many1 p i).map (List.map f) = many1 q i := by
  simp only [many1]
  rw [← h i]
  cases p i with
  | ok r a =>
    simp only [PR.map, PR.bind, many0]
    rw [← many0Loop_map h]
    cases many0Loop p _ r <;> rfl
  | _ => rfl

end

theorem cddlSlice_map (x : ParseExt) (i : List Char) :
    (allConsuming (cddlSlice x) i).map (List.map Prod.fst) = allConsuming (cddl x) i := by
  have h : ∀ i, (terminated (pmap (fun p => (p.2, String.ofList p.1)) (recognizer (rule x))) ws i).map Prod.fst =
      terminated (rule x) ws i := by
    intro i
    simp only [terminated, pmap, recognizer]
    cases rule x i with
    | ok r a =>
      simp only [PR.bind]
      cases ws r <;> rfl
    | _ => rfl
  have h' : ∀ i, (cddlSlice x i).map (List.map Prod.fst) = cddl x i := by
    intro i
    simp only [cddlSlice, cddl, preceded]
    cases ws i with
    | ok r a => simp only [PR.bind]; rw [← many1_map h]
    | _ => rfl
  simp only [allConsuming]
  rw [← h' i]
  cases cddlSlice x i with
  | ok r a =>
    dsimp only [PR.bind, PR.map]
    by_cases hl : r.length = 0
    · rw [if_pos hl, if_pos hl]
    · rw [if_neg hl, if_neg hl]
  | _ => rfl

theorem flatten_length {re : String → Bool} {c : Ast.Cddl} {t : RuleTable} (h : flatten re c = .ok t) :
    t.length = c.length := by
  have := flatten_iff.1 h
  clear h
  induction this with
  | nil => rfl
  | cons _ _ ih => simp [ih]

/-- Library functions for concrete texts: no floats, no escapes, no base64. -/
def demoExt : ParseExt := ⟨fun _ => none, some, fun _ => none⟩

/-- White space at the end of a text, where the line ending of a final comment may be missing. -/
def WSEnd (w : List Char) : Prop := WS w ∨ WS (w ++ ['\n'])

/-- A text made up of rules, given with their texts, and white space after each. -/
inductive Slices (x : ParseExt) : List Char → Ast.CddlSlice → Prop
  | last {s r w} : GRule x false s r → WSEnd w → Slices x (s ++ w) [(r, String.ofList s)]
  | lastOpen {s r} : GRule x false (s ++ ['\n']) r → Slices x s [(r, String.ofList s)]
  | cons {s r w t rs} : GRule x false s r → WS w → Slices x t rs →
      Slices x (s ++ w ++ t) ((r, String.ofList s) :: rs)

theorem sliceRule_spec {x : ParseExt} {i r : List Char} {p : Ast.Rule × String}
    (h : terminated (pmap (fun p => (p.2, String.ofList p.1)) (recognizer (rule x))) ws i = .ok r p) :
    (∃ s w, i = s ++ w ++ r ∧ GRule x false s p.1 ∧ WS w ∧ p.2 = String.ofList s) ∨
    (r = [] ∧ Slices x i [p]) := by
  simp only [terminated, pmap, recognizer] at h
  have hs := sound_rule (x := x) (n := i.length) i (Nat.le_refl _)
  revert h hs
  cases rule x i with
  | ok r1 a =>
    intro h hs
    obtain ⟨s, h1, h2⟩ := hs
    simp only [PR.bind] at h
    obtain ⟨r2, t, w, h3, h4, h5, -⟩ := ws_spec r1
    rw [h3] at h
    simp only [PR.ok.injEq] at h
    obtain ⟨rfl, rfl⟩ := h
    rcases h1 with h1 | ⟨h1, rfl, rfl⟩
    · rw [h1, take_consumed]
      rcases h4 with h4 | ⟨h4, rfl, rfl⟩
      · exact .inl ⟨s, w, by rw [h4]; simp, h2, h5, rfl⟩
      · exact .inr ⟨rfl, .last h2 (.inr h5)⟩
    · have hw : r2 = [] := by
        rcases h4 with h4 | ⟨h4, _⟩
        · exact (List.append_eq_nil_iff.1 h4.symm).2
        · exact absurd rfl h4
      refine .inr ⟨hw, ?_⟩
      have := Slices.lastOpen h2
      simpa using this
  | _ => intro h; simp at h

theorem not_slices_nil {x : ParseExt} (rs : Ast.CddlSlice) : ¬ Slices x [] rs := by
  intro hrec
  generalize he : ([] : List Char) = e at hrec
  cases hrec with
  | last h1 _ => exact h1.ne (List.append_eq_nil_iff.1 he.symm).1
  | lastOpen h1 =>
    subst he
    generalize hv : [] ++ ['\n'] = v at h1
    cases h1 with
    | mk hi =>
      have hl := congrArg List.length hv
      have := List.length_pos_iff.2 hi.ne
      simp at hl
      omega
  | cons h1 _ _ => simp at he; exact h1.ne he.1

theorem slices_loop {x : ParseExt} : ∀ k (i : List Char) (rs : Ast.CddlSlice),
    many0Loop (terminated (pmap (fun p => (p.2, String.ofList p.1)) (recognizer (rule x))) ws) k i = .ok [] rs →
      (i = [] ∧ rs = []) ∨ Slices x i rs := by
  intro k
  induction k with
  | zero => intro i rs h; cases h
  | succ k ih =>
    intro i rs h
    simp only [many0Loop] at h
    split at h
    · rename_i r p hp
      split at h
      · cases h
      · cases hl : many0Loop (terminated (pmap (fun p => (p.2, String.ofList p.1)) (recognizer (rule x))) ws) k r with
        | ok r' as =>
          rw [hl] at h
          simp only [PR.bind, PR.ok.injEq] at h
          obtain ⟨rfl, rfl⟩ := h
          right
          have hrec := ih r as hl
          rcases sliceRule_spec hp with ⟨s, w, rfl, h1, h2, h3⟩ | ⟨rfl, h1⟩
          · obtain ⟨r0, t⟩ := p
            dsimp only at h1 h3
            subst h3
            rcases hrec with ⟨rfl, rfl⟩ | hrec
            · rw [List.append_nil]; exact .last h1 (.inl h2)
            · exact .cons h1 h2 hrec
          · rcases hrec with ⟨-, rfl⟩ | hrec
            · exact h1
            · exact absurd hrec (not_slices_nil _)
        | _ => rw [hl] at h; simp at h
    · simp only [PR.ok.injEq] at h
      exact .inl ⟨h.1, h.2.symm⟩
    all_goals cases h

end Cddl
