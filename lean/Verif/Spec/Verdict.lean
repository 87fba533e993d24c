import Verif.Model.Basic

/-! # When two validation results mean the same -/

namespace Cddl

/-- Same verdict: equal results, except that ordinary mismatches may carry different messages. -/
def SameVerdict (r s : Res Unit) : Prop :=
  r = s ∨ ∃ e e', r = .err e ∧ s = .err e' ∧ e.isFatal = false ∧ e'.isFatal = false

theorem SameVerdict.symm {r s : Res Unit} (h : SameVerdict r s) : SameVerdict s r := by
  rcases h with rfl | ⟨e, e', h1, h2, h3, h4⟩
  · exact .inl rfl
  · exact .inr ⟨e', e, h2, h1, h4, h3⟩

theorem SameVerdict.ok_iff {r s : Res Unit} (h : SameVerdict r s) : r = .ok () ↔ s = .ok () := by
  rcases h with rfl | ⟨e, e', rfl, rfl, h3, h4⟩
  · exact Iff.rfl
  · simp

end Cddl
