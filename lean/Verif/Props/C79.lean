import Verif.Props.C26
import Verif.Props.C53
import Verif.Spec.Stack

/-! # C79  Contexts can be stacked -/

namespace Cddl

theorem over_tables (a b : RuleTable) : Lookup.over a.lookup b.lookup = RuleTable.lookup (b ++ a) := by
  funext s
  simp only [Lookup.over, RuleTable.lookup, RuleTable.find_append]
  cases RuleTable.find a s with
  | some d => rfl
  | none =>
    cases RuleTable.find b s <;> rfl

/-- C79.  A context that asks one schema and then another gives the same answers, with the same errors, as the two schemas
joined, the one asked first behind the other. -/
theorem C79_joined (env : Env) (a b : RuleTable) (v : Value) (n : Node) (c : Ctx) :
    validate { env with lookup := Lookup.over a.lookup b.lookup } v n c =
      validate { env with lookup := RuleTable.lookup (b ++ a) } v n c := by rw [over_tables]

/-- C79.  From the texts: the answers of the joined text are those of the stacked contexts. -/
theorem C79_text {l : Libs} {s t : String} {a b : RuleTable} (h : flattenFromStr l s = .ok a) (h' : flattenFromStr l t = .ok b)
    {name json : String} {cbor : List UInt8} {rd : RuleDef} (hr : Lookup.over a.lookup b.lookup name = .ok rd) :
    (∀ j, l.jsonDecode json = .ok j → validateJsonStr l name (t ++ "\n" ++ s) json =
      validateJson { l.env a with lookup := Lookup.over a.lookup b.lookup } rd j) ∧
    ∀ c, l.cborDecode cbor = .ok c → validateCborBytes l name (t ++ "\n" ++ s) cbor =
      validateCbor { l.env a with lookup := Lookup.over a.lookup b.lookup } rd c := by
  rw [over_tables] at hr
  have hf : RuleTable.find (b ++ a) name = some rd := by
    unfold RuleTable.lookup at hr
    split at hr
    · next e => cases hr; exact e
    · cases hr
  have e : ({ l.env a with lookup := Lookup.over a.lookup b.lookup } : Env) = l.env (b ++ a) := by
    rw [over_tables]; rfl
  constructor
  · intro j hj
    rw [e, C44_reuse_json l (C53_flatten h' h) (find_last.mp hf) hj]
  · intro c hc
    rw [e, C44_reuse_cbor l (C53_flatten h' h) (find_last.mp hf) hc]

/-- C79.  Stacking is associative, and a context without rules adds nothing, below or above. -/
theorem C79_assoc (a b c : Lookup) : (a.over b).over c = a.over (b.over c) := by
  funext s
  simp only [Lookup.over]
  cases a s with
  | ok d => rfl
  | error e => cases e <;> rfl

theorem C79_nothing (a : Lookup) : Lookup.over (RuleTable.lookup []) a = a ∧
    ∀ t : RuleTable, Lookup.over t.lookup (RuleTable.lookup []) = t.lookup := by
  constructor
  · funext s; rfl
  · intro t
    rw [over_tables]
    rfl

/-- C79.  What is asked first hides what is below: rules that use only names found in it are checked as without the other. -/
theorem C79_above (env : Env) (a b : Lookup) (S : String → Prop) (hcl : ClosedUnder a S) (hS : ∀ s, S s → ∃ d, a s = .ok d)
    (n : Node) (hn : ∀ s ∈ n.names, S s) (v : Value) :
    validate { env with lookup := a.over b } v n top = validate { env with lookup := a } v n top := by
  refine (C26_only_reachable env a (a.over b) S hcl (fun s hs => ?_) n hn v).symm
  obtain ⟨d, hd⟩ := hS s hs
  simp [Lookup.over, hd]

/-- C79.  And a library below keeps its meaning as long as the context above has none of the names that it uses. -/
theorem C79_below (env : Env) (a b : Lookup) (S : String → Prop) (hcl : ClosedUnder b S)
    (hS : ∀ s, S s → ∃ m, a s = .error (.missingRule m)) (n : Node) (hn : ∀ s ∈ n.names, S s) (v : Value) :
    validate { env with lookup := a.over b } v n top = validate { env with lookup := b } v n top := by
  refine (C26_only_reachable env b (a.over b) S hcl (fun s hs => ?_) n hn v).symm
  obtain ⟨m, hm⟩ := hS s hs
  simp [Lookup.over, hm]

/-- C79.  Otherwise it does not: with `x = tstr` above the library `x = int y = [x]`, the rule `y` of the library no longer
accepts `[1]`. -/
theorem C79_below_refuted : ∃ (a b : RuleTable) (rd : RuleDef) (v : Value), RuleTable.find b "y" = some rd ∧
    RuleTable.find a "y" = none ∧ Accepts (demoEnv b) top rd.node v ∧
    ¬ Accepts { demoEnv b with lookup := Lookup.over a.lookup b.lookup } top rd.node v := by
  refine ⟨[("x", ⟨[], .prelude .tstr⟩)], [("x", ⟨[], .prelude .int⟩), ("y", ⟨[], .array [.rule "x" []]⟩)],
    ⟨[], .array [.rule "x" []]⟩, .array [.integer 1], rfl, rfl, accepts_of_fuel 60 (by decide), ?_⟩
  rw [over_tables]
  have : validate (demoEnv ([("x", ⟨[], .prelude .int⟩), ("y", ⟨[], .array [.rule "x" []]⟩)] ++
      [("x", ⟨[], .prelude .tstr⟩)])) (.array [.integer 1]) (.array [.rule "x" []]) top = .err (.mismatch "tstr") :=
    validate_of_fuel 60 (by decide)
  intro h
  unfold Accepts at h
  exact absurd (h.symm.trans this) (by simp)

/-! ## Examples -/

def c79Above : RuleTable := [("entry", ⟨[], .rule "pair" [.prelude .int, .prelude .tstr]⟩)]
def c79Below : RuleTable := [("pair", ⟨["a", "b"], .array [.rule "a" [], .rule "b" []]⟩)]

/-- A library `pair<a, b> = [a, b]` below a schema `entry = pair<int, tstr>` that uses it. -/
example : validate { demoEnv [] with lookup := Lookup.over c79Above.lookup c79Below.lookup }
    (.array [.integer 1, .text "x"]) (.rule "entry" []) top = .ok () := by
  rw [C79_joined]
  exact validate_of_fuel (env := demoEnv (c79Below ++ c79Above)) 60 (by decide)

/-- Neither context has the name: the error is that of the one below. -/
example : Lookup.over (RuleTable.lookup []) (fun s => .error (.valueError s)) "x" = .error (.valueError "x") := rfl

end Cddl
