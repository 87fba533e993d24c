import Verif.Proofs.FlatTable

/-! # C36  Later definitions win -/

namespace Cddl

variable {re : String → Bool}

/-- C36.  The definition used for a name is the one written last. -/
theorem C36_last_wins {pre post : List Ast.Rule} {r : Ast.Rule} {t : RuleTable}
    (h : flatten re (pre ++ r :: post) = .ok t) (hlast : ∀ q ∈ post, q.name ≠ r.name) :
    ∃ d, FlatRule re r (r.name, d) ∧ t.lookup r.name = .ok d := by
  obtain ⟨a, b, rfl, h1, h2⟩ := (flatten_iff.mp h).append_inv
  cases h2 with
  | @cons _ p _ b hr hb =>
    obtain ⟨n, d⟩ := p
    have hn := flatRule_name hr
    simp only at hn; subst hn
    refine ⟨d, hr, ?_⟩
    have hnone : RuleTable.find b r.name = none := by
      rw [RuleTable.find_none]
      intro p hp
      obtain ⟨q, hq, hf⟩ := hb.mem_right hp
      rw [flatRule_name hf]; exact hlast q hq
    simp only [RuleTable.lookup, RuleTable.find_append, RuleTable.find, hnone]
    simp

/-- C36.  A name no rule defines is not found. -/
theorem C36_undefined {cddl : Ast.Cddl} {t : RuleTable} (h : flatten re cddl = .ok t) {s : String}
    (hs : ∀ r ∈ cddl, r.name ≠ s) : ∃ m, t.lookup s = .error (.missingRule m) := by
  have : RuleTable.find t s = none := by
    rw [RuleTable.find_none]
    intro p hp
    obtain ⟨q, hq, hf⟩ := (flatten_iff.mp h).mem_right hp
    rw [flatRule_name hf]; exact hs q hq
  simp [RuleTable.lookup, this]

/-- C36.  A definition followed by another of the same name can be dropped: flattening still succeeds and every
name has the same definition, so every validation gives the same result. -/
theorem C36_drop_overridden {pre post : List Ast.Rule} {r q : Ast.Rule} {t : RuleTable}
    (h : flatten re (pre ++ r :: post) = .ok t) (hq : q ∈ post) (hname : q.name = r.name) :
    ∃ t', flatten re (pre ++ post) = .ok t' ∧ t'.lookup = t.lookup := by
  obtain ⟨a, b, rfl, h1, h2⟩ := (flatten_iff.mp h).append_inv
  cases h2 with
  | @cons _ p _ b hr hb =>
    refine ⟨a ++ b, flatten_iff.mpr (h1.append hb), RuleTable.lookup_congr fun s => ?_⟩
    obtain ⟨n, d⟩ := p
    have hn := flatRule_name hr
    simp only at hn; subst hn
    simp only [RuleTable.find_append, RuleTable.find]
    cases hf : RuleTable.find b s with
    | some d' => simp
    | none =>
      have hne : r.name ≠ s := by
        obtain ⟨p', hp', hf'⟩ := hb.mem_left hq
        have := RuleTable.find_none.mp hf p' hp'
        rwa [flatRule_name hf', hname] at this
      simp [hne]

/-- C36.  If no name is defined twice, the order of the rules does not matter. -/
theorem C36_order {cddl cddl' : Ast.Cddl} {t : RuleTable} (hp : cddl.Perm cddl')
    (hnd : (cddl.map Ast.Rule.name).Nodup) (h : flatten re cddl = .ok t) :
    ∃ t', flatten re cddl' = .ok t' ∧ t'.lookup = t.lookup := by
  obtain ⟨t', h', hp'⟩ := (flatten_iff.mp h).perm hp
  refine ⟨t', flatten_iff.mpr h', RuleTable.lookup_congr fun s => ?_⟩
  refine (RuleTable.find_perm ?_ hp' s).symm
  rw [all2_names (flatten_iff.mp h)]; exact hnd

/-- C36.  The same for whole validations by rule name. -/
theorem C36_order_validate {cddl cddl' : Ast.Cddl} {t : RuleTable} (hp : cddl.Perm cddl')
    (hnd : (cddl.map Ast.Rule.name).Nodup) (h : flatten re cddl = .ok t) (env : Env) :
    ∃ t', flatten re cddl' = .ok t' ∧ ∀ v n c,
      validate { env with lookup := t'.lookup } v n c = validate { env with lookup := t.lookup } v n c := by
  obtain ⟨t', h', hl⟩ := C36_order hp hnd h
  exact ⟨t', h', fun v n c => by rw [hl]⟩

/-- With a name defined twice the order does matter: `x = int  x = tstr` against `x = tstr  x = int`. -/
theorem C36_order_needs_distinct :
    let a : Ast.Rule := ⟨"x", [], .assignType [.simple (.typename "int" [])]⟩
    let b : Ast.Rule := ⟨"x", [], .assignType [.simple (.typename "tstr" [])]⟩
    flatten re [a, b] = .ok [("x", ⟨[], .prelude .int⟩), ("x", ⟨[], .prelude .tstr⟩)] ∧
    flatten re [b, a] = .ok [("x", ⟨[], .prelude .tstr⟩), ("x", ⟨[], .prelude .int⟩)] ∧
    RuleTable.lookup [("x", ⟨[], .prelude .int⟩), ("x", ⟨[], .prelude .tstr⟩)] "x" = .ok ⟨[], .prelude .tstr⟩ ∧
    RuleTable.lookup [("x", ⟨[], .prelude .tstr⟩), ("x", ⟨[], .prelude .int⟩)] "x" = .ok ⟨[], .prelude .int⟩ :=
  ⟨rfl, rfl, rfl, rfl⟩

/-- `a = [b]  b = int  b = tstr` meets the hypotheses of `C36_drop_overridden`. -/
example : flatten re ([⟨"a", [], .assignType [.simple (.array [[.mk none (.member [.simple (.typename "b" [])])]])]⟩] ++
    ⟨"b", [], .assignType [.simple (.typename "int" [])]⟩ ::
      [⟨"b", [], .assignType [.simple (.typename "tstr" [])]⟩]) =
    .ok [("a", ⟨[], .array [.rule "b" []]⟩), ("b", ⟨[], .prelude .int⟩), ("b", ⟨[], .prelude .tstr⟩)] := rfl

end Cddl
