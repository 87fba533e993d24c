import Verif.Props.C15

/-! # C16  Map acceptance is sound

As C15, for maps: false in general, true for schemas in which whatever is tried can be undone. -/

namespace Cddl

/-- C16.  The pairs of an accepted map are split among the entries, with nothing left over.  Partial: the full
statement (without `J.Agrees env`, `typeOk`) is refuted below. -/
theorem C16_map_partial (env : Env) (J : Judgement) (hJ : J.Agrees env)
    (hl : ∀ s e, env.lookup s = .error e → e.isFatal = true) (ms : List Node) (m : VMap)
    (hn : (Node.map ms).typeOk J = true) (hv : (Value.map m).WF)
    (h : Accepts env top (.map ms) (.map m)) : ∃ l, MSeq env .root ms l ∧ CutsKept l ∧ (taken l).Perm m :=
  (C15_sound_partial env J hJ hl _ (.map m) hn hv h).inv_map

/-- A key text. -/
private abbrev key (s : String) : Node := .literal (.text s)

/-- `{("a" => int), "b" => tstr // "c" => int}` accepts `{a: 1, c: 2}`: what the nested group took is not given back. -/
theorem C16_nested_group_refuted :
    Accepts (demoEnv []) top (.map [.choice [.group [.group [.keyValue (key "a") (.prelude .int) false],
        .keyValue (key "b") (.prelude .tstr) false], .group [.keyValue (key "c") (.prelude .int) false]]])
      (.map [(.text "a", .integer 1), (.text "c", .integer 2)]) ∧
    ¬ Sat (demoEnv []) .root (.map [.choice [.group [.group [.keyValue (key "a") (.prelude .int) false],
        .keyValue (key "b") (.prelude .tstr) false], .group [.keyValue (key "c") (.prelude .int) false]]])
      (.map [(.text "a", .integer 1), (.text "c", .integer 2)]) := by
  refine ⟨accepts_of_fuel 60 (by decide), fun h1 => ?_⟩
  obtain ⟨l, h1, -, hp⟩ := h1.inv_map
  obtain ⟨xs, ys, rfl, h2, h3⟩ := h1.inv_cons
  rw [h3.inv_nil, List.append_nil] at hp
  obtain ⟨n, hn, h2⟩ := h2.inv_choice
  simp only [List.mem_cons, List.not_mem_nil, or_false] at hn
  rcases hn with rfl | rfl
  · obtain ⟨xs, ys, rfl, h4, h5⟩ := h2.inv_group.inv_cons
    obtain ⟨xs', ys', rfl, h8, h9⟩ := h5.inv_cons
    obtain ⟨x, v, rfl, hx, _⟩ := h8.inv_keyValue
    have hx := hx.inv_literal
    subst hx
    have := (hp.mem_iff (a := (Literal.toValue (.text "b"), v))).mp (by simp [mem_taken])
    simp [Literal.toValue] at this
  · obtain ⟨xs, ys, rfl, h4, h5⟩ := h2.inv_group.inv_cons
    obtain ⟨x, v, rfl, _⟩ := h4.inv_keyValue
    rw [h5.inv_nil] at hp
    have := hp.length_eq
    simp [taken] at this

/-- `{? ~x, b: int}` with `x = {a: int, z: int}` accepts `{a: 1, b: 2}`. -/
theorem C16_unwrap_refuted :
    Accepts (demoEnv [("x", ⟨[], .map [.keyValue (key "a") (.prelude .int) true, .keyValue (key "z") (.prelude .int) true]⟩)])
      top (.map [.occur .optional (.unwrap "x" []), .keyValue (key "b") (.prelude .int) true])
      (.map [(.text "a", .integer 1), (.text "b", .integer 2)]) ∧
    ¬ Sat (demoEnv [("x", ⟨[], .map [.keyValue (key "a") (.prelude .int) true, .keyValue (key "z") (.prelude .int) true]⟩)])
      .root (.map [.occur .optional (.unwrap "x" []), .keyValue (key "b") (.prelude .int) true])
      (.map [(.text "a", .integer 1), (.text "b", .integer 2)]) := by
  refine ⟨accepts_of_fuel 60 (by decide), fun h1 => ?_⟩
  obtain ⟨l, h1, -, hp⟩ := h1.inv_map
  obtain ⟨xs, ys, rfl, h2, h3⟩ := h1.inv_cons
  obtain ⟨xs', ys', rfl, h4, h5⟩ := h3.inv_cons
  rw [h5.inv_nil, List.append_nil] at hp
  obtain ⟨x, v, rfl, hx, _⟩ := h4.inv_keyValue
  obtain ⟨k, zs, hk, rfl, h2⟩ := h2.inv_occur
  cases k with
  | zero =>
    rw [h2.inv_zero] at hp
    have := hp.length_eq
    simp [taken, Node.cuts] at this
  | succ k =>
    obtain ⟨xs1, ys1, rfl, h6, h7⟩ := h2.inv_succ
    obtain ⟨ms, c', h8, h9⟩ := h6.inv_unwrap
    obtain ⟨d, hd, _, hm, _⟩ := h8.inv_root
    cases hd
    cases hm
    obtain ⟨xs2, ys2, rfl, _, h10⟩ := h9.inv_cons
    obtain ⟨xs3, ys3, rfl, h11, h12⟩ := h10.inv_cons
    obtain ⟨x', v', rfl, hx', _⟩ := h11.inv_keyValue
    have hx' := hx'.inv_literal
    subst hx'
    have := (hp.mem_iff (a := (Literal.toValue (.text "z"), v'))).mp (by simp [mem_taken])
    simp [Literal.toValue] at this

/-! ## Concrete cases -/

/-- `m = {? name: tstr, * int => v}`, `v = tstr / {* entry}`, `entry = (k: int // j: m)`. -/
def c16Env : Env := demoEnv [
  ("m", ⟨[], .map [.occur .optional (.keyValue (key "name") (.prelude .tstr) true),
    .occur .zeroOrMore (.keyValue (.prelude .int) (.rule "v" []) false)]⟩),
  ("v", ⟨[], .choice [.prelude .tstr, .map [.occur .zeroOrMore (.rule "entry" [])]]⟩),
  ("entry", ⟨[], .choice [.keyValue (key "k") (.prelude .int) true, .keyValue (key "j") (.rule "m" []) true]⟩)]

/-- What is assumed of the rules of `c16Env`. -/
def c16Judgement : Judgement where
  type s := s = "m" ∨ s = "v"
  alt _ := false
  entry p s := match p with
    | .item => .none
    | .member => if s = "entry" then ⟨true, true, true, false⟩ else .none
  unwrap _ _ := .none

theorem c16_agrees : c16Judgement.Agrees c16Env := by
  intro s d h
  have := RuleTable.lookup_mem h
  simp only [List.mem_cons, Prod.mk.injEq, List.not_mem_nil, or_false] at this
  rcases this with ⟨rfl, rfl⟩ | ⟨rfl, rfl⟩ | ⟨rfl, rfl⟩ <;>
    exact ⟨by decide, nofun, fun p => (by cases p <;> unfold Kind.le <;> decide),
      fun ms hm => Kind.none_le _, fun ms hm => Kind.none_le _, nofun⟩

example : ∃ l, MSeq c16Env .root [.occur .optional (.keyValue (key "name") (.prelude .tstr) true),
      .occur .zeroOrMore (.keyValue (.prelude .int) (.rule "v" []) false)] l ∧ CutsKept l ∧
    (taken l).Perm [(.integer 1, .map [(.text "j", .map []), (.text "k", .integer 7)]), (.integer 2, .text "x"), (.text "name", .text "n")] :=
  C16_map_partial _ _ c16_agrees (demo_fatal _) _ _ (by decide) (by
    simp [Value.WF, Value.WFMap, VMap.Sorted]; decide) (accepts_of_fuel 80 (by decide))

end Cddl
