import Verif.Spec.Undoable
import Verif.Proofs.Inline

/-! # The test for undoable schemas is right -/

namespace Cddl

theorem Kind.leB_iff {k k' : Kind} : k.leB k' = true ↔ k.le k' := by
  obtain ⟨a, b, c, d⟩ := k
  obtain ⟨a', b', c', d'⟩ := k'
  unfold Kind.leB Kind.le
  dsimp only
  cases a <;> cases b <;> cases c <;> cases d <;> simp [and_assoc]

theorem Judgement.agreesAtB_ok {J : Judgement} {s : String} {d : RuleDef} (h : J.agreesAtB s d = true) :
    J.AgreesAt s d := by
  simp only [Judgement.agreesAtB, Bool.and_eq_true, Bool.or_eq_true, Bool.not_eq_true', List.all_eq_true,
    Kind.leB_iff, beq_iff_eq] at h
  obtain ⟨⟨⟨⟨⟨⟨h1, h2⟩, h3⟩, h4⟩, h5⟩, h6⟩, h7⟩ := h
  constructor
  · intro ht
    rcases h1 with h | h
    · rw [ht] at h; cases h
    · exact h
  · intro ht
    rcases h2 with h | h
    · rw [ht] at h; cases h
    · split
      · rename_i ms hd; rw [hd] at h; exact h
      · rename_i s' as hd; rw [hd] at h; exact h
      · trivial
  · intro p
    cases p
    · exact h3
    · exact h4
  · intro ms hd
    rw [hd] at h5
    exact Kind.leB_iff.mp h5
  · intro ms hd
    rw [hd] at h6
    exact Kind.leB_iff.mp h6
  · intro q hq
    obtain ⟨⟨a, b⟩, c⟩ := h7 q hq
    exact ⟨a, b, c⟩

theorem RuleTable.undoable_agrees {t : RuleTable} {name : String} (h : t.undoable name = true) {env : Env}
    (he : env.lookup = t.lookup) : t.judgement.Agrees env := by
  intro s d hs
  rw [he] at hs
  unfold RuleTable.lookup at hs
  simp only [RuleTable.undoable, Bool.and_eq_true, List.all_eq_true] at h
  cases hf : t.find s with
  | none => rw [hf] at hs; cases hs
  | some d' =>
    rw [hf] at hs
    cases hs
    have hm : ∃ p ∈ t, p.1 = s := ⟨_, RuleTable.find_mem hf, rfl⟩
    obtain ⟨p, hp, rfl⟩ := hm
    have := h.1 p hp
    rw [hf] at this
    exact Judgement.agreesAtB_ok this

end Cddl
