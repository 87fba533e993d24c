import Verif.Proofs.ParseSlice

/-! # C39  Parsing always returns and never panics -/

namespace Cddl

theorem allConsuming_cddl_returns (x : ParseExt) (i : List Char) :
    (∃ c, allConsuming (cddl x) i = .ok [] c) ∨ (∃ e, allConsuming (cddl x) i = .err e) ∨
      ∃ e, allConsuming (cddl x) i = .fail e := by
  have hs := sound_cddl (x := x) (n := i.length) i (Nat.le_refl _)
  simp only [allConsuming]
  revert hs
  cases cddl x i with
  | ok r a =>
    intro _
    simp only [PR.bind]
    split
    · rename_i h; rw [List.length_eq_zero_iff.1 h]; exact .inl ⟨a, rfl⟩
    · exact .inr (.inl ⟨_, rfl⟩)
  | err e => intro _; exact .inr (.inl ⟨e, rfl⟩)
  | fail e => intro _; exact .inr (.inr ⟨e, rfl⟩)
  | panic => exact False.elim
  | oof => exact False.elim

/-- C39.  On every text the parser returns a syntax tree or a parse error.  In particular neither the `panic!` on
an unexpected member key nor an endless recursion is possible (the model's recursion budget, linear in the length
of the text, always suffices). -/
theorem C39_returns (x : ParseExt) (s : String) :
    (∃ c, parseCddl x s = .ok c) ∨ ∃ e, parseCddl x s = .err (.parseError e) := by
  unfold parseCddl
  rcases allConsuming_cddl_returns x s.toList with ⟨c, h⟩ | ⟨e, h⟩ | ⟨e, h⟩ <;> rw [h]
  · exact .inl ⟨c, rfl⟩
  · exact .inr ⟨e, rfl⟩
  · exact .inr ⟨e, rfl⟩

/-- C39.  The same for `slice_parse_cddl`. -/
theorem C39_slice_returns (x : ParseExt) (s : String) :
    (∃ c, sliceParseCddl x s = .ok c) ∨ ∃ e, sliceParseCddl x s = .err (.parseError e) := by
  have h1 := cddlSlice_map x s.toList
  have h2 := allConsuming_cddl_returns x s.toList
  unfold sliceParseCddl
  cases h : allConsuming (cddlSlice x) s.toList with
  | ok r a => exact .inl ⟨a, rfl⟩
  | err e => exact .inr ⟨e, rfl⟩
  | fail e => exact .inr ⟨e, rfl⟩
  | panic => rw [h] at h1; rw [← h1] at h2; simp [PR.map] at h2
  | oof => rw [h] at h1; rw [← h1] at h2; simp [PR.map] at h2

set_option maxRecDepth 100000 in
example : parseCddl demoExt "a = {&(b): c}" = .err (.parseError ⟨.unparseable, "{&(b): c}"⟩) ∧
    parseCddl demoExt "a = [[b]]" = .ok [⟨"a", [], .assignType [.simple (.array [[.mk none (.member
      [.simple (.array [[.mk none (.member [.simple (.typename "b" [])])]])])]])]⟩] := by
  constructor <;> rfl

end Cddl
