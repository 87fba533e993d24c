import Verif.Proofs.FlatTable
import Verif.Props.C26
import Verif.Spec.Demo

/-! # C37  Prelude names cannot be redefined -/

namespace Cddl

variable {re : String → Bool}

/-- C37.  A supported prelude name always flattens to the same prelude type. -/
theorem C37_prelude {s : String} {n : Node} (h : (s, n) ∈ preludeTable) :
    flattenTy2 re (.typename s []) = .ok n := flat2_complete (.preludeName h)

/-- C37.  A prelude name takes no generic arguments, cannot be unwrapped and is not a group. -/
theorem C37_prelude_misuse {s : String} {n : Node} (h : (s, n) ∈ preludeTable) :
    (∀ a as, ∃ e, flattenTy2 re (.typename s (a :: as)) = .err e) ∧
    (∀ as, ∃ e, flattenTy2 re (.unwrap s as) = .err e) ∧ (∀ as, ∃ e, flattenTy2 re (.choiceify s as) = .err e) := by
  have key : ∀ t, (∀ n, ¬ Flat2 re t n) → ∃ e, flattenTy2 re t = .err e := by
    intro t ht
    have hr := flat2_returns (re := re) t
    cases hf : flattenTy2 re t with
    | ok m => exact absurd (flat2_sound t m hf) (ht m)
    | err e => exact ⟨e, rfl⟩
    | panic => rw [hf] at hr; simp [Res.Returns] at hr
    | fuel => rw [hf] at hr; simp [Res.Returns] at hr
  have hn : ¬ UserName s := fun hu => hu.1 (List.mem_map.mpr ⟨_, h, rfl⟩)
  refine ⟨fun a as => key _ ?_, fun as => key _ ?_, fun as => key _ ?_⟩ <;>
  · intro m hm
    cases hm
    contradiction

/-- C37.  No flattened tree refers to a rule or generic parameter with a prelude name, supported or not. -/
theorem C37_never_referenced {cddl : Ast.Cddl} {t : RuleTable} (h : flatten re cddl = .ok t) :
    ∀ p ∈ t, ∀ s ∈ p.2.node.names, s ∉ preludeTable.map Prod.fst ∧ s ∉ unsupportedNames := by
  intro p hp s hs
  obtain ⟨r, _, hf⟩ := (flatten_iff.mp h).mem_right hp
  exact ((flatRule_names hf).1 s hs).1

/-- C37.  So rules with prelude names have no effect: removing such a rule changes no validation against any
rule of the schema. -/
theorem C37_redefinition_ignored {pre post : List Ast.Rule} {r : Ast.Rule} {t : RuleTable}
    (h : flatten re (pre ++ r :: post) = .ok t) (hname : r.name ∈ preludeTable.map Prod.fst) (env : Env) :
    ∃ t', flatten re (pre ++ post) = .ok t' ∧ ∀ p ∈ t, ∀ v,
      validate { env with lookup := t.lookup } v p.2.node top =
        validate { env with lookup := t'.lookup } v p.2.node top := by
  have hall := flatten_iff.mp h
  obtain ⟨a, b, rfl, h1, h2⟩ := hall.append_inv
  cases h2 with
  | @cons _ q _ b hr hb =>
    refine ⟨a ++ b, flatten_iff.mpr (h1.append hb), fun p hp v => ?_⟩
    obtain ⟨n, d⟩ := q
    have hn := flatRule_name hr
    simp only at hn; subst hn
    refine C26_only_reachable env _ _ UserName ?_ ?_ _ (fun s hs => C37_never_referenced h p hp s hs) v
    · intro s d' hs hl x hx _
      unfold RuleTable.lookup at hl
      split at hl
      · next hf =>
        cases hl
        exact C37_never_referenced h _ (RuleTable.find_mem hf) x hx
      · cases hl
    · intro s hs
      have hne : r.name ≠ s := fun e => hs.1 (e ▸ hname)
      simp only [RuleTable.lookup, RuleTable.find_append, RuleTable.find]
      cases RuleTable.find b s <;> simp [hne]

/-- C37.  A schema using an unsupported prelude name does not flatten, whether or not it defines the name. -/
theorem C37_unsupported {cddl : Ast.Cddl} {r : Ast.Rule} (hr : r ∈ cddl) {s : String} (hs : s ∈ r.names)
    (hu : s ∈ unsupportedNames) : ∃ e, flatten re cddl = .err e := by
  rcases flatten_outcome (re := re) cddl with ⟨t, h⟩ | h
  · obtain ⟨p, _, hf⟩ := (flatten_iff.mp h).mem_left hr
    exact absurd hu ((flatRule_names hf).2 s hs).1
  · exact h

/-- C37.  Every name used in a rule that is not a prelude name is looked up as a rule or parameter. -/
theorem C37_user_names {cddl : Ast.Cddl} {t : RuleTable} (h : flatten re cddl = .ok t) {r : Ast.Rule} (hr : r ∈ cddl)
    {s : String} (hs : s ∈ r.names) (hu : UserName s) : ∃ p ∈ t, p.1 = r.name ∧ s ∈ p.2.node.names := by
  obtain ⟨p, hp, hf⟩ := (flatten_iff.mp h).mem_left hr
  exact ⟨p, hp, flatRule_name hf, ((flatRule_names hf).2 s hs).2 hu⟩

/-- `int = tstr  x = int`: `x` still accepts 5 and not "a". -/
example : ∃ t, flatten re [⟨"int", [], .assignType [.simple (.typename "tstr" [])]⟩,
      ⟨"x", [], .assignType [.simple (.typename "int" [])]⟩] = .ok t ∧
    t.lookup "x" = .ok ⟨[], .prelude .int⟩ := ⟨_, rfl, rfl⟩

/-- `x = g<tstr>  g<int> = [int]`: the parameter `int` does not hide the prelude type. -/
example : flatten re [⟨"x", [], .assignType [.simple (.typename "g" [.simple (.typename "tstr" [])])]⟩,
      ⟨"g", ["int"], .assignType [.simple (.array [[.mk none (.member [.simple (.typename "int" [])])]])]⟩] =
      .ok [("x", ⟨[], .rule "g" [.prelude .tstr]⟩), ("g", ⟨["int"], .array [.prelude .int]⟩)] ∧
    validate (demoEnv [("x", ⟨[], .rule "g" [.prelude .tstr]⟩), ("g", ⟨["int"], .array [.prelude .int]⟩)])
      (.array [.integer 5]) (.rule "x" []) top = .ok () ∧
    ∃ m, validate (demoEnv [("x", ⟨[], .rule "g" [.prelude .tstr]⟩), ("g", ⟨["int"], .array [.prelude .int]⟩)])
      (.array [.text "a"]) (.rule "x" []) top = .err (.mismatch m) :=
  ⟨rfl, validate_of_fuel 60 (by decide), _, validate_of_fuel (r := .err (.mismatch "int")) 60 (by decide)⟩

/-- `x = [time]` -/
example : "time" ∈ Ast.Rule.names ⟨"x", [], .assignType
    [.simple (.array [[.mk none (.member [.simple (.typename "time" [])])]])]⟩ ∧ "time" ∈ unsupportedNames := by
  simp [Ast.Rule.names, Ast.names1s, Ast.names1, Ast.names2, Ast.namesGroup, Ast.namesEntries, Ast.namesEntry,
    Ast.namesEntryVal, unsupportedNames]

end Cddl
