import Verif.Proofs.ParseSlice

/-! # C47  What is parsed is what the grammar says -/

namespace Cddl

/-- C47.  If the parser returns a syntax tree, the text derives that tree in the grammar — up to the missing line
ending of a final comment. -/
theorem C47_sound {x : ParseExt} {s : String} {c : Ast.Cddl} (h : parseCddl x s = .ok c) :
    GCddl x false s.toList c ∨ GCddl x false (s.toList ++ ['\n']) c := by
  unfold parseCddl at h
  have hs := sound_cddl (x := x) (n := s.toList.length) s.toList (Nat.le_refl _)
  simp only [allConsuming] at h
  revert h hs
  cases cddl x s.toList with
  | ok r a =>
    rintro h ⟨t, ht, hg⟩
    simp only [PR.bind] at h
    split at h
    · rename_i hz
      cases h
      have hr := List.length_eq_zero_iff.1 hz
      rcases ht with ht | ⟨-, -, ht⟩
      · rw [ht, hr, List.append_nil]; exact .inl hg
      · rw [← ht]; exact .inr hg
    · cases h
  | _ => intro h; cases h

/-- C47.  A text that the grammar does not derive is rejected with a parse error. -/
theorem C47_rejects {x : ParseExt} {s : String}
    (h : ∀ c, ¬ GCddl x false s.toList c ∧ ¬ GCddl x false (s.toList ++ ['\n']) c) :
    ∃ e, parseCddl x s = .err (.parseError e) := by
  cases hp : parseCddl x s with
  | ok c =>
    rcases C47_sound hp with h' | h'
    · exact absurd h' (h c).1
    · exact absurd h' (h c).2
  | err e =>
    unfold parseCddl at hp
    cases hc : allConsuming (cddl x) s.toList with
    | err e' => rw [hc] at hp; cases hp; exact ⟨_, rfl⟩
    | fail e' => rw [hc] at hp; cases hp; exact ⟨_, rfl⟩
    | _ => rw [hc] at hp; cases hp
  | _ =>
    have hs := sound_cddl (x := x) (n := s.toList.length) s.toList (Nat.le_refl _)
    unfold parseCddl at hp
    simp only [allConsuming] at hp
    revert hp hs
    cases cddl x s.toList with
    | ok r a =>
      intro hp
      simp only [PR.bind] at hp
      split at hp <;> cases hp
    | panic => intro _ h; exact h.elim
    | oof => intro _ h; exact h.elim
    | _ => intro hp; cases hp

set_option maxRecDepth 100000 in
example : parseCddl demoExt "a<t> = { ? b: [2* t] } ; c" = .ok [⟨"a", ["t"], .assignType [.simple (.map
    [[.mk (some .optional) (.keyed (.bareword "b") true [.simple (.array [[.mk (some (.numbered 2 (2 ^ 64 - 1)))
      (.member [.simple (.typename "t" [])])]])])]])]⟩] := rfl

/-- C47.  For example, a text without `=` is rejected. -/
theorem C47_no_equals {x : ParseExt} {s : String} (h : '=' ∉ s.toList) :
    ∃ e, parseCddl x s = .err (.parseError e) := by
  have key : ∀ t c, GCddl x false t c → '=' ∈ t := by
    intro t c ht
    cases ht with
    | mk _ hr =>
      cases hr with
      | one hr _ _ => cases hr; simp
      | cons hr _ _ _ => cases hr; simp
  refine C47_rejects fun c => ⟨fun hc => h (key _ c hc), fun hc => h ?_⟩
  have := key _ c hc
  simpa using this

example : '=' ∉ "a: int, [b] // c".toList := by decide

end Cddl
