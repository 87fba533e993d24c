import Verif.Proofs.Cong

/-! # C26  Only reachable rules matter -/

namespace Cddl

/-- `S` contains, with every name, all names used in the body of that rule (other than the rule's own
parameters). -/
def ClosedUnder (look : String → Except Err RuleDef) (S : String → Prop) : Prop :=
  ∀ s d, S s → look s = .ok d → ∀ t ∈ d.node.names, t ∉ d.params → S t

/-- C26.  If two rule sets agree on a set of names that contains everything reachable from a rule body,
then validating against that body gives exactly the same result (message included) in both. -/
theorem C26_only_reachable (env : Env) (look look' : String → Except Err RuleDef) (S : String → Prop)
    (hcl : ClosedUnder look S) (hagree : ∀ s, S s → look s = look' s) (n : Node) (hn : ∀ s ∈ n.names, S s)
    (v : Value) :
    validate { env with lookup := look } v n top = validate { env with lookup := look' } v n top := by
  let G : String → String → Prop := fun s s' => s = s' ∧ S s
  have E : EnvRel G false { env with lookup := look } { env with lookup := look' } := by
    refine ⟨?_, rfl, rfl, rfl⟩
    rintro s s' ⟨rfl, hs⟩
    cases hl : look s with
    | error e => exact .inl ⟨e, hl, (hagree s hs).symm.trans hl⟩
    | ok d =>
      refine .inr ⟨d, d, hl, (hagree s hs).symm.trans hl, rfl, Cong.refl fun t ht => ?_⟩
      exact scopeRel_self fun htp => ⟨rfl, hcl s d hs hl t ht htp⟩
  have := validate_sim (congSim E) (c := top) rfl
    ⟨_, .root 0, Cong.refl (n := n) fun s hs => ⟨rfl, hn s hs⟩, trivial⟩ v
  simp only [Bool.not_false, Res.er_true] at this
  exact this.symm

/-- C26 for the rule tables of `BasicContext`: adding a rule whose name is not reachable changes
nothing. -/
theorem C26_unreachable_rule (env : Env) (t : RuleTable) (name : String) (d : RuleDef) (S : String → Prop)
    (hcl : ClosedUnder t.lookup S) (hns : ¬ S name) (n : Node) (hn : ∀ s ∈ n.names, S s) (v : Value) :
    validate { env with lookup := t.lookup } v n top =
      validate { env with lookup := RuleTable.lookup (t ++ [(name, d)]) } v n top := by
  refine C26_only_reachable env _ _ S hcl (fun s hs => ?_) n hn v
  have hne : name ≠ s := fun h => hns (h ▸ hs)
  have : RuleTable.find (t ++ [(name, d)]) s = t.find s := by
    induction t with
    | nil => simp [RuleTable.find, hne]
    | cons p ps ih =>
      obtain ⟨a, b⟩ := p
      have hi := ih
      simp only [List.cons_append, RuleTable.find]
      have : RuleTable.find (ps ++ [(name, d)]) s = RuleTable.find ps s := by
        clear ih hi hcl
        induction ps with
        | nil => simp [RuleTable.find, hne]
        | cons q qs ih => obtain ⟨x, y⟩ := q; simp only [List.cons_append, RuleTable.find, ih]
      rw [this]
  simp only [RuleTable.lookup, this]

/-- `a = [* b]`, `b = int / a`: the set {a, b} is closed. -/
example : ClosedUnder (RuleTable.lookup [("a", ⟨[], .array [.occur .zeroOrMore (.rule "b" [])]⟩),
    ("b", ⟨[], .choice [.prelude .int, .rule "a" []]⟩)]) (fun s => s = "a" ∨ s = "b") := by
  rintro s d (rfl | rfl) h t ht hp
  · simp [RuleTable.lookup, RuleTable.find] at h
    subst h
    simp [Node.names, Node.namesL] at ht
    exact .inr ht
  · simp [RuleTable.lookup, RuleTable.find] at h
    subst h
    simp [Node.names, Node.namesL] at ht
    exact .inl ht

end Cddl
