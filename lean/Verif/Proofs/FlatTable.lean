import Verif.Proofs.FlatTree
import Verif.Model.Api
import Verif.Proofs.Inline

/-! # Tables of translated rules -/

namespace Cddl

theorem RuleTable.find_append (a b : RuleTable) (s : String) :
    RuleTable.find (a ++ b) s = (RuleTable.find b s).orElse fun _ => RuleTable.find a s := by
  induction a with
  | nil => cases h : RuleTable.find b s <;> simp [RuleTable.find, h]
  | cons p a ih =>
    obtain ⟨n, d⟩ := p
    simp only [List.cons_append, RuleTable.find, ih]
    cases RuleTable.find b s <;> simp

theorem RuleTable.find_none {t : RuleTable} {s : String} : RuleTable.find t s = none ↔ ∀ p ∈ t, p.1 ≠ s := by
  induction t with
  | nil => simp [RuleTable.find]
  | cons p t ih =>
    obtain ⟨n, d⟩ := p
    simp only [RuleTable.find, List.forall_mem_cons, ← ih]
    cases RuleTable.find t s with
    | some d' => simp
    | none => by_cases h : n = s <;> simp [h]

theorem RuleTable.find_nodup {t : RuleTable} (h : (t.map Prod.fst).Nodup) {s : String} {d : RuleDef} :
    RuleTable.find t s = some d ↔ (s, d) ∈ t := by
  induction t with
  | nil => simp [RuleTable.find]
  | cons p t ih =>
    obtain ⟨n, d'⟩ := p
    simp only [List.map_cons, List.nodup_cons] at h
    have ih := ih h.2
    simp only [RuleTable.find, List.mem_cons, Prod.mk.injEq]
    cases hf : RuleTable.find t s with
    | some d2 =>
      rw [hf] at ih
      have hm := RuleTable.find_mem hf
      have hne : s ≠ n := fun e => h.1 (List.mem_map.mpr ⟨_, hm, e⟩)
      simpa [hne] using ih
    | none =>
      rw [hf] at ih
      have : ¬ (s, d) ∈ t := fun hm => by cases ih.mpr hm
      by_cases hn : n = s
      · subst hn; simp [this, eq_comm]
      · simp [hn, this, Ne.symm hn]

theorem RuleTable.find_perm {t t' : RuleTable} (h : (t.map Prod.fst).Nodup) (hp : t.Perm t') (s : String) :
    RuleTable.find t s = RuleTable.find t' s := by
  have h' : (t'.map Prod.fst).Nodup := (hp.map _).nodup_iff.mp h
  cases hf : RuleTable.find t s with
  | some d => exact ((RuleTable.find_nodup h').mpr (hp.mem_iff.mp ((RuleTable.find_nodup h).mp hf))).symm
  | none =>
    symm
    rw [RuleTable.find_none] at hf ⊢
    exact fun p hm => hf p (hp.mem_iff.mpr hm)

theorem RuleTable.lookup_congr {t t' : RuleTable} (h : ∀ s, RuleTable.find t s = RuleTable.find t' s) :
    t.lookup = t'.lookup := by
  funext s; simp [RuleTable.lookup, h]

theorem All2.append {α β : Type} {R : α → β → Prop} {as as' : List α} {bs bs' : List β} (h : All2 R as bs)
    (h' : All2 R as' bs') : All2 R (as ++ as') (bs ++ bs') := by
  induction h with
  | nil => exact h'
  | cons h _ ih => exact .cons h ih

theorem All2.append_inv {α β : Type} {R : α → β → Prop} {as as' : List α} {bs : List β} (h : All2 R (as ++ as') bs) :
    ∃ b b', bs = b ++ b' ∧ All2 R as b ∧ All2 R as' b' := by
  induction as generalizing bs with
  | nil => exact ⟨[], bs, rfl, .nil, h⟩
  | cons a as ih =>
    cases h with
    | cons h1 h2 =>
      obtain ⟨b, b', rfl, h3, h4⟩ := ih h2
      exact ⟨_ :: b, b', rfl, .cons h1 h3, h4⟩

theorem All2.mem_right {α β : Type} {R : α → β → Prop} {as : List α} {bs : List β} (h : All2 R as bs) {b : β}
    (hb : b ∈ bs) : ∃ a ∈ as, R a b := by
  induction h with
  | nil => cases hb
  | cons h _ ih =>
    rcases List.mem_cons.mp hb with rfl | hb
    · exact ⟨_, by simp, h⟩
    · obtain ⟨a, ha, hr⟩ := ih hb
      exact ⟨a, by simp [ha], hr⟩

theorem All2.mem_left {α β : Type} {R : α → β → Prop} {as : List α} {bs : List β} (h : All2 R as bs) {a : α}
    (ha : a ∈ as) : ∃ b ∈ bs, R a b := by
  induction h with
  | nil => cases ha
  | cons h _ ih =>
    rcases List.mem_cons.mp ha with rfl | ha
    · exact ⟨_, by simp, h⟩
    · obtain ⟨b, hb, hr⟩ := ih ha
      exact ⟨b, by simp [hb], hr⟩

theorem All2.perm {α β : Type} {R : α → β → Prop} {as as' : List α} (hp : as.Perm as') : ∀ {bs : List β}, All2 R as bs →
    ∃ bs', All2 R as' bs' ∧ bs.Perm bs' := by
  induction hp with
  | nil => intro bs h; exact ⟨bs, h, .refl _⟩
  | cons a _ ih =>
    intro bs h
    cases h with
    | cons h1 h2 =>
      obtain ⟨bs', h3, h4⟩ := ih h2
      exact ⟨_, .cons h1 h3, h4.cons _⟩
  | swap a b l =>
    intro bs h
    cases h with
    | cons h1 h2 => cases h2 with
      | cons h2 h3 => exact ⟨_, .cons h2 (.cons h1 h3), .swap ..⟩
  | trans _ _ ih1 ih2 =>
    intro bs h
    obtain ⟨b1, h1, p1⟩ := ih1 h
    obtain ⟨b2, h2, p2⟩ := ih2 h1
    exact ⟨b2, h2, p1.trans p2⟩

variable {re : String → Bool}

theorem flatten_iff {cddl : Ast.Cddl} {t : RuleTable} : flatten re cddl = .ok t ↔ All2 (FlatRule re) cddl t := by
  unfold flatten
  rw [collectRes_ok]
  exact ⟨fun h => h.imp fun _ _ => flattenRule_iff.mp, fun h => h.imp fun _ _ => flattenRule_iff.mpr⟩

theorem flatRule_name {r : Ast.Rule} {p : String × RuleDef} (h : FlatRule re r p) : p.1 = r.name := by
  cases h <;> rfl

theorem flatRule_params {r : Ast.Rule} {p : String × RuleDef} (h : FlatRule re r p) : p.2.params = r.params := by
  cases h <;> rfl

theorem all2_names {cddl : Ast.Cddl} {t : RuleTable} (h : All2 (FlatRule re) cddl t) :
    t.map Prod.fst = cddl.map Ast.Rule.name := by
  induction h with
  | nil => rfl
  | cons h _ ih => simp [ih, flatRule_name h]

theorem flatten_outcome (cddl : Ast.Cddl) : (∃ t, flatten re cddl = .ok t) ∨ ∃ e, flatten re cddl = .err e := by
  have := collectRes_returns (flattenRule_returns (re := re)) cddl
  unfold flatten
  cases h : collectRes (flattenRule re) cddl with
  | ok t => exact .inl ⟨t, rfl⟩
  | err e => exact .inr ⟨e, rfl⟩
  | panic => rw [h] at this; simp [Res.Returns] at this
  | fuel => rw [h] at this; simp [Res.Returns] at this

end Cddl
