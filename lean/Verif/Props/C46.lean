import Verif.Proofs.FlatTable

/-! # C46  Flattening gives exactly what the syntax tree stands for -/

namespace Cddl

/-- C46.  `flatten` succeeds with table `t` exactly when `t` lists, rule by rule and in order, the definitions
the rules stand for according to the translation relation `FlatRule` (Spec/Syntax). -/
theorem C46_flatten_iff (re : String → Bool) (cddl : Ast.Cddl) (t : RuleTable) :
    flatten re cddl = .ok t ↔ All2 (FlatRule re) cddl t := flatten_iff

/-- C46.  A rule stands for at most one definition. -/
theorem C46_unique {re : String → Bool} {r : Ast.Rule} {p q : String × RuleDef} (hp : FlatRule re r p)
    (hq : FlatRule re r q) : p = q := by
  have h1 := flattenRule_iff.mpr hp
  rw [flattenRule_iff.mpr hq] at h1
  cases h1; rfl

/-- C46.  Flattening fails exactly when some rule stands for nothing. -/
theorem C46_fails_iff (re : String → Bool) (cddl : Ast.Cddl) :
    (∃ e, flatten re cddl = .err e) ↔ ∃ r ∈ cddl, ∀ p, ¬ FlatRule re r p := by
  constructor
  · rintro ⟨e, h⟩
    by_cases hx : ∃ r ∈ cddl, ∀ p, ¬ FlatRule re r p
    · exact hx
    · exfalso
      have hall : ∀ r ∈ cddl, ∃ p, FlatRule re r p := fun r hr => by
        by_cases hp : ∃ p, FlatRule re r p
        · exact hp
        · exact absurd ⟨r, hr, fun p h => hp ⟨p, h⟩⟩ hx
      have : ∃ t, All2 (FlatRule re) cddl t := by
        clear h hx
        induction cddl with
        | nil => exact ⟨[], .nil⟩
        | cons r l ih =>
          obtain ⟨p, hp⟩ := hall r (by simp)
          obtain ⟨t, ht⟩ := ih fun q hq => hall q (by simp [hq])
          exact ⟨p :: t, .cons hp ht⟩
      obtain ⟨t, ht⟩ := this
      rw [flatten_iff.mpr ht] at h
      cases h
  · rintro ⟨r, hr, hno⟩
    rcases flatten_outcome (re := re) cddl with ⟨t, h⟩ | h
    · obtain ⟨p, _, hp⟩ := (flatten_iff.mp h).mem_left hr
      exact absurd hp (hno p)
    · exact h

/-- `y = ~z<int>` -/
example (re : String → Bool) : FlatRule re ⟨"y", [], .assignType [.simple (.unwrap "z" [.simple (.typename "int" [])])]⟩
    ("y", ⟨[], .unwrap "z" [.prelude .int]⟩) :=
  .type (.cons (.simple (.unwrap (by decide) (.cons (.simple (.preludeName (by simp [preludeTable]))) .nil))) .nil) (.one _)

end Cddl
