import Verif.Proofs.Cong

/-! # C24  Generic parameters are lexically scoped -/

namespace Cddl

/-- The scope of the body of a rule with parameters `ps`, instantiated with the arguments `as` at scope `c`. -/
def instScope (c : Ctx) (ps : List String) (as : List Node) : Ctx := .frame (ps.zip as) c (c.depth + 1)

theorem gmapFind_nth : ∀ {ps : List String} {as : List Node} {i : Nat} {p : String} {a : Node},
    ps[i]? = some p → as[i]? = some a → (∀ j, i < j → ps[j]? ≠ some p) → ps.length = as.length →
    gmapFind (ps.zip as) p = some a
  | [], _, _, _, _, h, _, _, _ => by simp at h
  | _ :: _, [], _, _, _, _, h, _, _ => by simp at h
  | q :: qs, b :: bs, 0, p, a, h1, h2, h3, hl => by
    simp only [List.getElem?_cons_zero, Option.some.injEq] at h1 h2
    subst h1 h2
    have : q ∉ qs := fun hm => by
      obtain ⟨j, hj⟩ := List.getElem?_of_mem hm
      exact h3 (j + 1) (by omega) (by simpa using hj)
    simp [gmapFind, gmapFind_none this]
  | q :: qs, b :: bs, i + 1, p, a, h1, h2, h3, hl => by
    have := gmapFind_nth (ps := qs) (as := bs) (i := i) (p := p) (a := a) (by simpa using h1)
      (by simpa using h2) (fun j hj h => h3 (j + 1) (by omega) (by simpa using h)) (by simpa using hl)
    simp [gmapFind, this]

/-- C24.  An instantiation `name<as>` is the rule's body in the scope of that instantiation. -/
theorem C24_instantiate (env : Env) (c : Ctx) (name : String) (ps : List String) (body : Node) (as : List Node)
    (v : Value) (hp : c.param name = none) (hl : env.lookup name = .ok ⟨ps, body⟩)
    (ha : ps.length = as.length) (hd : c.depth < 50) :
    validate env v (.rule name as) c = validate env v body (instScope c ps as) := by
  have : c.lookupRule env name as = .ok (body, instScope c ps as) := by
    have e : ∀ x : Except Err (Node × Ctx), x = ((env.lookup name).bind fun rd =>
        (c.derive rd as).bind fun d => .ok (rd.node, d)) → x = .ok (body, instScope c ps as) := by
      rintro x rfl
      have hd' : ¬ (c.depth ≥ maxDepth) := by simp only [maxDepth]; omega
      simp [hl, Except.bind, Ctx.derive, ha, Ctx.incDepth, hd', instScope]
    apply e
    cases c with
    | root d => rfl
    | frame g p d => simp only [Ctx.param] at hp; simp only [Ctx.lookupRule, hp]
  unfold validate
  rw [val_eq]
  simp [valBody, validateRule, this]

/-- C24.  Inside the body, the `i`-th parameter means the `i`-th argument, evaluated in the scope where
the instantiation was written (if a parameter name is repeated the last one counts). -/
theorem C24_parameter (env : Env) (c : Ctx) (ps : List String) (as : List Node) (i : Nat) (p : String)
    (a : Node) (v : Value) (hl : ps.length = as.length) (hp : ps[i]? = some p) (ha : as[i]? = some a)
    (hlast : ∀ j, i < j → ps[j]? ≠ some p) :
    validate env v (.rule p []) (instScope c ps as) = validate env v a c := by
  unfold validate
  rw [val_eq]
  simp [valBody, validateRule, instScope, Ctx.lookupRule, gmapFind_nth hp ha hlast hl]

/-- C24.  A rule called from two different scopes at the same nesting depth with arguments that do not
mention parameters of either scope behaves identically: the callee never sees the caller's parameters. -/
theorem C24_callee_independent (env : Env) (c c' : Ctx) (hc : CtxOK c) (hd : c.depth = c'.depth)
    (n : Node) (v : Value) (hn : ∀ s ∈ n.names, c.param s = none ∧ c'.param s = none) :
    validate env v n c = validate env v n c' := by
  have E : EnvRel Eq false env env := by
    refine ⟨fun s s' hs => ?_, rfl, rfl, rfl⟩
    subst hs
    cases hl : env.lookup s with
    | error e => exact .inl ⟨e, rfl, rfl⟩
    | ok d => exact .inr ⟨d, d, rfl, rfl, rfl, Cong.refl fun t _ => scopeRel_self fun _ => rfl⟩
  have := validate_sim (congSim E) hc
    ⟨_, .free hd, Cong.refl (n := n) fun s hs => ⟨(hn s hs).1, (hn s hs).2, rfl⟩, trivial⟩ v
  simp only [Bool.not_false, Res.er_true] at this
  exact this.symm

/-- C24.  The choice of parameter names is irrelevant: if every rule of one rule set is that of the
other with its parameters consistently renamed, all validations give exactly the same result. -/
theorem C24_rename_parameters (env : Env) (look look' : String → Except Err RuleDef)
    (h : ∀ s, (∃ e, look s = .error e ∧ look' s = .error e) ∨
      ∃ d d', look s = .ok d ∧ look' s = .ok d' ∧ d.params.length = d'.params.length ∧
        Cong (scopeRel Eq d.params d'.params) false false d.node d'.node)
    (n : Node) (v : Value) :
    validate { env with lookup := look } v n top = validate { env with lookup := look' } v n top := by
  have E : EnvRel Eq false { env with lookup := look } { env with lookup := look' } := by
    refine ⟨fun s s' hs => ?_, rfl, rfl, rfl⟩
    subst hs
    rcases h s with ⟨e, h1, h2⟩ | ⟨d, d', h1, h2, h3, h4⟩
    · exact .inl ⟨e, h1, h2⟩
    · exact .inr ⟨d, d', h1, h2, h3, h4⟩
  have := validate_sim (congSim E) (c := top) rfl
    ⟨_, .root 0, Cong.refl (n := n) fun s _ => rfl, trivial⟩ v
  simp only [Bool.not_false, Res.er_true] at this
  exact this.symm

/-- C24.  So is the choice of rule names: renaming all rules by an arbitrary correspondence `G` (which
relates each name in use to its new name, undefined names only to themselves) gives the same result. -/
theorem C24_rename_rules (env : Env) (look look' : String → Except Err RuleDef) (G : String → String → Prop)
    (h : ∀ s s', G s s' → (∃ e, look s = .error e ∧ look' s' = .error e) ∨
      ∃ d d', look s = .ok d ∧ look' s' = .ok d' ∧ d.params.length = d'.params.length ∧
        Cong (scopeRel G d.params d'.params) false false d.node d'.node)
    (n n' : Node) (hn : Cong G false false n n') (v : Value) :
    validate { env with lookup := look } v n top = validate { env with lookup := look' } v n' top := by
  have E : EnvRel G false { env with lookup := look } { env with lookup := look' } := by
    refine ⟨fun s s' hs => ?_, rfl, rfl, rfl⟩
    rcases h s s' hs with ⟨e, h1, h2⟩ | ⟨d, d', h1, h2, h3, h4⟩
    · exact .inl ⟨e, h1, h2⟩
    · exact .inr ⟨d, d', h1, h2, h3, h4⟩
  have := validate_sim (congSim E) (c := top) rfl ⟨_, .root 0, hn, trivial⟩ v
  simp only [Bool.not_false, Res.er_true] at this
  exact this.symm

/-- `pair<a, b> = [a, b]` against `pair<x, a> = [x, a]`. -/
example : Cong (scopeRel Eq ["a", "b"] ["x", "a"]) false false (.array [.rule "a" [], .rule "b" []])
    (.array [.rule "x" [], .rule "a" []]) :=
  .array _ (.cons (.rule _ (.inl (by simp [Bound])) (.nil _)) (.cons (.rule _ (.inl (by simp [Bound])) (.nil _)) (.nil _)))

/-- `g<T> = [T, h]`, `h = [T]`, `T = tstr`, `use = g<int>`: `[1, ["x"]]` is accepted, i.e. the `T` in `h`
is the rule, not the parameter of the caller; and `[1, [2]]` is rejected. -/
example : let env := demoEnv [("g", ⟨["T"], .array [.rule "T" [], .rule "h" []]⟩), ("h", ⟨[], .array [.rule "T" []]⟩),
      ("T", ⟨[], .prelude .tstr⟩)]
    Accepts env top (.rule "g" [.prelude .int]) (.array [.integer 1, .array [.text "x"]]) ∧
    validate env (.array [.integer 1, .array [.integer 2]]) (.rule "g" [.prelude .int]) top
      = .err (.mismatch "tstr") :=
  ⟨accepts_of_fuel 60 (by decide), validate_of_fuel 60 (by decide)⟩

end Cddl
