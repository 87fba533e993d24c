import Verif.Proofs.SoundMain
import Verif.Proofs.SatInv
import Verif.Proofs.Inline

/-! # C15  Array acceptance is sound

`Sat` (Spec/Sat.lean) says declaratively what data a schema describes.  "Accepted data is described by the schema" is
false of the code in general (`C15_*_refuted`): when an alternative fails, what a nested group or an unwrapped array
inside it took is not given back.  It holds for all schemas in which whatever is tried can be undone
(`Judgement.Agrees`, Spec/Rollback.lean). -/

namespace Cddl

/-- Soundness of acceptance, the full statement. -/
def Sound (env : Env) : Prop := ∀ (n : Node) (v : Value), v.WF → Accepts env top n v → Sat env .root n v

/-- C15, C16.  Data accepted under a schema is described by the schema, if whatever the schema tries can be undone.
Partial: without the condition `J.Agrees env`, `n.typeOk J` the statement is `Sound env`, refuted below. -/
theorem C15_sound_partial (env : Env) (J : Judgement) (hJ : J.Agrees env)
    (hl : ∀ s e, env.lookup s = .error e → e.isFatal = true) (n : Node) (v : Value) (hn : n.typeOk J = true) (hv : v.WF)
    (h : Accepts env top n v) : Sat env .root n v :=
  (lim_sound hl hJ).val v n top trivial hn hv h

/-- C15 for arrays: the elements are the slices of the entries, in order, with nothing left over. -/
theorem C15_array_partial (env : Env) (J : Judgement) (hJ : J.Agrees env)
    (hl : ∀ s e, env.lookup s = .error e → e.isFatal = true) (ms : List Node) (xs : List Value)
    (hn : (Node.array ms).typeOk J = true) (hv : ∀ v ∈ xs, v.WF)
    (h : Accepts env top (.array ms) (.array xs)) : Seq env .root ms xs :=
  (C15_sound_partial env J hJ hl _ (.array xs) hn ((Value.WFArr_iff xs).mpr hv) h).inv_array

/-- Rules that mention no other rule, no group in a group and no repetition that can lose elements are fine whatever
is assumed of names. -/
theorem C15_no_rules_partial (env : Env) (n : Node) (v : Value) (hv : v.WF)
    (hl : ∀ s e, env.lookup s = .error e → e.isFatal = true)
    (hn : n.typeOk ⟨fun _ => false, fun _ => false, fun _ _ => .none, fun _ _ => .none⟩ = true)
    (h : Accepts env top n v) : Sat env .root n v := by
  refine C15_sound_partial env _ (fun s d _ => ?_) hl n v hn hv h
  constructor
  · intro h; cases h
  · intro h; cases h
  · intro p; exact Kind.none_le _
  · intro ms _; exact Kind.none_le _
  · intro ms _; exact Kind.none_le _
  · intro q _; exact ⟨rfl, rfl, rfl⟩

/-! ## The full statement is false -/

theorem nested_group_not_sat (env : Env) :
    ¬ Sat env .root (.array [.choice [.group [.group [.prelude .int], .prelude .tstr], .group [.prelude .int]]])
      (.array [.integer 1, .integer 2]) := by
  intro h1
  obtain ⟨xs, ys, hz, h2, h3⟩ := h1.inv_array.inv_cons
  rw [h3.inv_nil, List.append_nil] at hz
  subst hz
  obtain ⟨n, hn, h2⟩ := h2.inv_choice
  simp only [List.mem_cons, List.not_mem_nil, or_false] at hn
  rcases hn with rfl | rfl
  · obtain ⟨xs, ys, hz, h4, h5⟩ := h2.inv_group.inv_cons
    obtain ⟨xs', ys', rfl, h6, h7⟩ := h4.inv_group.inv_cons
    obtain ⟨v, rfl, _⟩ := h6.inv_value rfl
    obtain ⟨xs', ys'', rfl, h8, h9⟩ := h5.inv_cons
    obtain ⟨v', rfl, h10⟩ := h8.inv_value rfl
    rw [h7.inv_nil, h9.inv_nil] at hz
    simp only [List.append_nil, List.cons_append, List.nil_append, List.cons.injEq, and_true] at hz
    obtain ⟨s, hs⟩ := h10.inv_prelude
    rw [← hz.2] at hs
    cases hs
  · obtain ⟨xs, ys, hz, h4, h5⟩ := h2.inv_group.inv_cons
    obtain ⟨v, rfl, _⟩ := h4.inv_value rfl
    rw [h5.inv_nil] at hz
    cases hz

/-- `[(int,), tstr // int]` (a group of one entry, followed by `tstr`, or else `int`) accepts `[1, 2]`: the first
alternative takes 1, and does not give it back. -/
theorem C15_nested_group_refuted :
    Accepts (demoEnv []) top (.array [.choice [.group [.group [.prelude .int], .prelude .tstr], .group [.prelude .int]]])
      (.array [.integer 1, .integer 2]) ∧
    ¬ Sat (demoEnv []) .root (.array [.choice [.group [.group [.prelude .int], .prelude .tstr], .group [.prelude .int]]])
      (.array [.integer 1, .integer 2]) :=
  ⟨accepts_of_fuel 60 (by decide), nested_group_not_sat _⟩

/-- `[~x / int]` with `x = [int, tstr]` accepts `[1, 2]`: what `~x` takes before it fails is lost. -/
theorem C15_unwrap_refuted :
    Accepts (demoEnv [("x", ⟨[], .array [.prelude .int, .prelude .tstr]⟩)]) top (.array [.choice [.unwrap "x" [], .prelude .int]])
      (.array [.integer 1, .integer 2]) ∧
    ¬ Sat (demoEnv [("x", ⟨[], .array [.prelude .int, .prelude .tstr]⟩)]) .root (.array [.choice [.unwrap "x" [], .prelude .int]])
      (.array [.integer 1, .integer 2]) := by
  refine ⟨accepts_of_fuel 60 (by decide), fun h1 => ?_⟩
  obtain ⟨xs, ys, hz, h2, h3⟩ := h1.inv_array.inv_cons
  rw [h3.inv_nil, List.append_nil] at hz
  subst hz
  obtain ⟨n, hn, h2⟩ := h2.inv_choice
  simp only [List.mem_cons, List.not_mem_nil, or_false] at hn
  rcases hn with rfl | rfl
  · obtain ⟨ms, c', h4, h5⟩ := h2.inv_unwrap
    obtain ⟨d, h6, h7, h8, _⟩ := h4.inv_root
    cases h6
    cases h8
    obtain ⟨xs, ys, hz, h6, h7⟩ := h5.inv_cons
    obtain ⟨v, rfl, _⟩ := h6.inv_value rfl
    obtain ⟨xs', ys'', rfl, h8, h9⟩ := h7.inv_cons
    obtain ⟨v', rfl, h10⟩ := h8.inv_value rfl
    rw [h9.inv_nil] at hz
    simp only [List.append_nil, List.cons_append, List.nil_append, List.cons.injEq, and_true] at hz
    obtain ⟨s, hs⟩ := h10.inv_prelude
    rw [← hz.2] at hs
    cases hs
  · obtain ⟨v, hz, _⟩ := h2.inv_value rfl
    cases hz

/-- The tree for `[2*3 int // tstr]` without groups around the alternatives (the parser always puts them) accepts
`[1, "a"]`. -/
theorem C15_repetition_refuted :
    Accepts (demoEnv []) top (.array [.choice [.occur (.numbered 2 3) (.prelude .int), .prelude .tstr]])
      (.array [.integer 1, .text "a"]) ∧
    ¬ Sat (demoEnv []) .root (.array [.choice [.occur (.numbered 2 3) (.prelude .int), .prelude .tstr]])
      (.array [.integer 1, .text "a"]) := by
  refine ⟨accepts_of_fuel 60 (by decide), fun h1 => ?_⟩
  obtain ⟨xs, ys, hz, h2, h3⟩ := h1.inv_array.inv_cons
  rw [h3.inv_nil, List.append_nil] at hz
  subst hz
  obtain ⟨n, hn, h2⟩ := h2.inv_choice
  simp only [List.mem_cons, List.not_mem_nil, or_false] at hn
  rcases hn with rfl | rfl
  · obtain ⟨k, h4, h5⟩ := h2.inv_occur
    cases h4 with
    | numbered hlo hhi =>
      obtain ⟨j, rfl⟩ : ∃ j, k = j + 2 := ⟨k - 2, by omega⟩
      obtain ⟨xs, ys, hz, h6, h7⟩ := h5.inv_succ
      obtain ⟨v, rfl, _⟩ := h6.inv_value rfl
      obtain ⟨xs', ys'', rfl, h8, h9⟩ := h7.inv_succ
      obtain ⟨v', rfl, h10⟩ := h8.inv_value rfl
      simp only [List.cons_append, List.nil_append, List.cons.injEq] at hz
      obtain ⟨s, hs⟩ := h10.inv_prelude
      rw [← hz.2.1] at hs
      cases hs
  · obtain ⟨v, hz, _⟩ := h2.inv_value rfl
    cases hz

/-- The full statement is false. -/
theorem C15_sound_refuted : ¬ ∀ env, Sound env := fun h =>
  C15_nested_group_refuted.2 (h _ _ _ (by simp [Value.WF, Value.WFArr]) C15_nested_group_refuted.1)

/-! ## Concrete cases -/

/-- `a = [* pair, ? tstr]`, `pair = (int, b)`, `b = bool / [+ a]`. -/
def c15Env : Env := demoEnv [
  ("a", ⟨[], .array [.occur .zeroOrMore (.rule "pair" []), .occur .optional (.prelude .tstr)]⟩),
  ("pair", ⟨[], .group [.prelude .int, .rule "b" []]⟩),
  ("b", ⟨[], .choice [.prelude .bool, .array [.occur .oneOrMore (.rule "a" [])]]⟩)]

/-- What is assumed of the rules of `c15Env`. -/
def c15Judgement : Judgement where
  type _ := true
  alt _ := false
  entry p s := match p with
    | .item => if s = "pair" then ⟨true, false, true, true⟩ else .single true
    | .member => .none
  unwrap _ _ := .none

theorem c15_agrees : c15Judgement.Agrees c15Env := by
  intro s d h
  have := RuleTable.lookup_mem h
  simp only [List.mem_cons, Prod.mk.injEq, List.not_mem_nil, or_false] at this
  rcases this with ⟨rfl, rfl⟩ | ⟨rfl, rfl⟩ | ⟨rfl, rfl⟩ <;>
    exact ⟨fun _ => by decide, nofun, fun p => (by cases p <;> unfold Kind.le <;> decide),
      fun ms hm => Kind.none_le _,
      fun ms hm => Kind.none_le _,
      nofun⟩

theorem demo_fatal (t : RuleTable) : ∀ s e, (demoEnv t).lookup s = .error e → e.isFatal = true := by
  intro s e h
  unfold demoEnv RuleTable.lookup at h
  dsimp only at h
  split at h
  · cases h
  · cases h; rfl

example : Sat c15Env .root (.rule "a" [])
    (.array [.integer 1, .array [.array [.text "x"]], .integer 2, .bool true, .text "y"]) :=
  C15_sound_partial _ _ c15_agrees (demo_fatal _) _ _ (by decide) (by simp [Value.WF, Value.WFArr]) (accepts_of_fuel 80 (by decide))

/-- `[(int, tstr) // int, int]` on `[1, 2]`: without nested groups the failed alternative is undone. -/
example : Seq (demoEnv []) .root [.choice [.group [.prelude .int, .prelude .tstr], .group [.prelude .int, .prelude .int]]]
    [.integer 1, .integer 2] :=
  (C15_no_rules_partial (demoEnv []) (.array _) (.array _) (by simp [Value.WF, Value.WFArr]) (demo_fatal _) (by decide)
    (accepts_of_fuel 60 (by decide))).inv_array

end Cddl
