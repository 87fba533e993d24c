import Verif.Proofs.FatalKeys

/-! # C22  Fatal schema errors are not masked -/

namespace Cddl

/-- C22 (partial: only schemas whose member keys use no rule names; the full statement is without `hk`,
`hn`).  If some rules are missing (or their lookup fails otherwise), a result that is not a fatal error
does not depend on them at all: giving them any definition leaves the result exactly the same.  So a
missing rule that has any influence is always reported.  Missing: schemas with names in member keys, for
which the property is false (`C22_map_key_refuted`). -/
theorem C22_missing_rules_not_masked_partial (env : Env) (look' : String → Except Err RuleDef) (n : Node) (v : Value)
    (hlook : ∀ s, look' s = env.lookup s ∨ ∃ e, env.lookup s = .error e ∧ e.isFatal = true)
    (hk : ∀ s d, env.lookup s = .ok d → d.node.KeysPlain) (hn : n.KeysPlain) (hv : v.WF) :
    (∃ e, validate env v n top = .err e ∧ e.isFatal = true) ∨
    validate { env with lookup := look' } v n top = validate env v n top :=
  validate_fat (env' := { env with lookup := look' }) ⟨hlook, rfl, rfl, rfl⟩ hk (.root (Nat.le_refl _)) rfl hn hv

/-- C22 (partial: only schemas whose keys lead to rules that are there; the full statement is without `hK`, `hS`, `hn`).
Keys may use names, and parameters of generic rules, as long as what they lead to (`S`, Spec/KeyReach.lean) is not among
the rules that are missing: a result that is not a fatal error still does not depend on those.  Missing: keys that lead to a
missing rule, for which the property is false (`C22_map_key_refuted`). -/
theorem C22_missing_rules_keys_partial (env : Env) (look' : String → Except Err RuleDef) (S : String → Prop)
    (P : String → List String) (n : Node) (v : Value)
    (hlook : ∀ s, look' s = env.lookup s ∨ ∃ e, env.lookup s = .error e ∧ e.isFatal = true)
    (hK : KeysLead env.lookup S P) (hS : ∀ s, S s → look' s = env.lookup s)
    (hn : n.KeysReach env.lookup S P []) (hv : v.WF) :
    (∃ e, validate env v n top = .err e ∧ e.isFatal = true) ∨
    validate { env with lookup := look' } v n top = validate env v n top :=
  validate_key (env' := { env with lookup := look' }) ⟨hlook, rfl, rfl, rfl⟩ hK hS (c := top) rfl ⟨[], .root 0, hn⟩ hv

/-- C22 for the recursion limit (partial in the same way).  If validation inside `k` levels of rule nesting
does not report a fatal error, its result is the one obtained without the nesting: the limit never
turns into acceptance or a mismatch. -/
theorem C22_limit_not_masked_partial (env : Env) (n : Node) (v : Value) (g : List (String × Node)) (d d' : Nat)
    (p p' : Ctx) (hp : p.Shallower p') (hok : CtxOK (.frame g p d)) (hd : d' ≤ d)
    (hg : ∀ x ∈ g, x.2.KeysPlain)
    (hk : ∀ s d, env.lookup s = .ok d → d.node.KeysPlain) (hn : n.KeysPlain) (hv : v.WF) :
    (∃ e, validate env v n (.frame g p d) = .err e ∧ e.isFatal = true) ∨
    validate env v n (.frame g p' d') = validate env v n (.frame g p d) :=
  validate_fat ⟨fun _ => .inl rfl, rfl, rfl, rfl⟩ hk (.frame hg hp hd) hok hn hv

/-- C22.  A fatal error at the start of a choice option, array entry, map member, occurrence, range, control or
`&group` is passed on. -/
theorem C22_passed_on (env : Env) (c : Ctx) (s : String) (as : List Node) (e : Err) (v : Value) (n : Node)
    (hp : c.param s = none) (hs : env.lookup s = .error e) (he : e.isFatal = true) (h : FirstUse s as v n) :
    validate env v n c = .err e := by
  refine firstUse_err he ?_ h
  rw [lookupRule_global hp]
  simp [hs, Except.bind]

/-- C22 is false for names in member keys: under `{* k => int}` without a rule `k`, `{1: 2}` is reported as
an ordinary mismatch, although defining `k = int` makes it accepted. -/
theorem C22_map_key_refuted :
    ¬ ∀ (env : Env) (look' : String → Except Err RuleDef) (n : Node) (v : Value),
      (∀ s, look' s = env.lookup s ∨ ∃ e, env.lookup s = .error e ∧ e.isFatal = true) → v.WF →
      (∃ e, validate env v n top = .err e ∧ e.isFatal = true) ∨
      validate { env with lookup := look' } v n top = validate env v n top := by
  intro h
  have h1 : validate (demoEnv []) (.map [(.integer 1, .integer 2)])
      (.map [.occur .zeroOrMore (.keyValue (.rule "k" []) (.prelude .int) false)]) top
      = .err (.mismatch "shorter map") := validate_of_fuel 60 (by decide)
  have h2 : validate (demoEnv [("k", ⟨[], .prelude .int⟩)]) (.map [(.integer 1, .integer 2)])
      (.map [.occur .zeroOrMore (.keyValue (.rule "k" []) (.prelude .int) false)]) top
      = .ok () := validate_of_fuel 60 (by decide)
  rcases h (demoEnv []) (RuleTable.lookup [("k", ⟨[], .prelude .int⟩)])
    (.map [.occur .zeroOrMore (.keyValue (.rule "k" []) (.prelude .int) false)])
    (.map [(.integer 1, .integer 2)]) (fun s => .inr ⟨.missingRule s, rfl, rfl⟩)
    ⟨trivial, trivial, trivial, trivial⟩ with ⟨e, he, hf⟩ | he
  · rw [h1] at he; cases he; cases hf
  · have h2' : validate { demoEnv [] with lookup := RuleTable.lookup [("k", ⟨[], .prelude .int⟩)] }
      (.map [(.integer 1, .integer 2)])
      (.map [.occur .zeroOrMore (.keyValue (.rule "k" []) (.prelude .int) false)]) top = .ok () := h2
    rw [h2', h1] at he
    cases he

/-- `{ "a" => missing / int, ? b: missing }` meets the hypotheses; on `{"a": 1}` it is `MissingRule`,
on `{}` a mismatch that no definition of `missing` changes. -/
example : let n : Node := .map [.keyValue (.literal (.text "a")) (.choice [.rule "missing" [], .prelude .int]) false,
      .occur .optional (.keyValue (.literal (.text "b")) (.rule "missing" []) true)]
    n.KeysPlain ∧
    validate (demoEnv []) (.map [(.text "a", .integer 1)]) n top = .err (.missingRule "missing") ∧
    ∀ look', validate { demoEnv [] with lookup := look' } (.map []) n top = .err (.mismatch "map{\"a\"}") := by
  have hk : (Node.map [.keyValue (.literal (.text "a")) (.choice [.rule "missing" [], .prelude .int]) false,
      .occur .optional (.keyValue (.literal (.text "b")) (.rule "missing" []) true)]).KeysPlain := by
    simp [Node.KeysPlain, Node.KeysPlainL, Node.names]
  have h1 : validate (demoEnv []) (.map []) (.map [.keyValue (.literal (.text "a")) (.choice [.rule "missing" [], .prelude .int]) false,
      .occur .optional (.keyValue (.literal (.text "b")) (.rule "missing" []) true)]) top
      = .err (.mismatch "map{\"a\"}") := validate_of_fuel 60 (by decide)
  refine ⟨hk, validate_of_fuel 60 (by decide), fun look' => ?_⟩
  rcases C22_missing_rules_not_masked_partial (demoEnv []) look' _ (.map []) (fun s => .inr ⟨.missingRule s, rfl, rfl⟩)
    (fun s d h => by cases h) hk ⟨trivial, trivial⟩ with ⟨e, he, hf⟩ | he
  · rw [h1] at he; cases he; cases hf
  · exact he.trans h1

/-- `label = int / tstr  dict<k, v> = {* k => v}`. -/
def dictTable : RuleTable :=
  [("label", ⟨[], .choice [.prelude .int, .prelude .tstr]⟩),
   ("dict", ⟨["k", "v"], .map [.occur .zeroOrMore (.keyValue (.rule "k" []) (.rule "v" []) false)]⟩)]

/-- `{* label => dict<label, missing>}`, where the keys lead to `label` and nothing else. -/
def dictNode : Node :=
  .map [.occur .zeroOrMore (.keyValue (.rule "label" []) (.rule "dict" [.rule "label" [], .rule "missing" []]) false)]

def dictKeys (s : String) : List String := if s = "dict" then ["k"] else []

theorem dict_cases {s : String} {d : RuleDef} (h : (demoEnv dictTable).lookup s = .ok d) :
    (s = "label" ∧ d = ⟨[], .choice [.prelude .int, .prelude .tstr]⟩) ∨
    (s = "dict" ∧ d = ⟨["k", "v"], .map [.occur .zeroOrMore (.keyValue (.rule "k" []) (.rule "v" []) false)]⟩) := by
  by_cases h1 : s = "label"
  · subst h1; left; cases h; exact ⟨rfl, rfl⟩
  · by_cases h2 : s = "dict"
    · subst h2; right; cases h; exact ⟨rfl, rfl⟩
    · simp [demoEnv, RuleTable.lookup, RuleTable.find, dictTable, Ne.symm h1, Ne.symm h2] at h

theorem dict_lead : KeysLead (demoEnv dictTable).lookup (· = "label") dictKeys := by
  refine ⟨?_, ?_, ?_⟩
  · rintro s d rfl h t ht
    rcases dict_cases h with ⟨_, rfl⟩ | ⟨h, _⟩
    · simp [Node.names, Node.namesL] at ht
    · exact absurd h (by decide)
  · intro s d h p hp
    rcases dict_cases h with ⟨_, rfl⟩ | ⟨_, rfl⟩
    · cases hp
    · simp at hp; rcases hp with rfl | rfl <;> decide
  · intro s d h
    rcases dict_cases h with ⟨rfl, rfl⟩ | ⟨rfl, rfl⟩
    · simp [Node.KeysReach, Node.KeysReachL]
    · refine ⟨⟨.inr ⟨"k", [], rfl, by simp [dictKeys]⟩, trivial, fun d h => ?_⟩, trivial⟩
      rcases dict_cases h with ⟨h, _⟩ | ⟨h, _⟩ <;> exact absurd h (by decide)

/-- So it meets the hypotheses; `{1: {"a": 2}}` is `MissingRule`, and `{1: 2}` a mismatch that no definition of `missing`
changes. -/
example : dictNode.KeysReach (demoEnv dictTable).lookup (· = "label") dictKeys [] ∧
    validate (demoEnv dictTable) (.map [(.integer 1, .map [(.text "a", .integer 2)])]) dictNode top =
      .err (.missingRule "missing") ∧
    ∀ d, validate (demoEnv (("missing", d) :: dictTable)) (.map [(.integer 1, .integer 2)]) dictNode top =
      .err (.mismatch "shorter map") := by
  have hn : dictNode.KeysReach (demoEnv dictTable).lookup (· = "label") dictKeys [] := by
    refine ⟨⟨.inl (by simp [Node.names, Node.namesL]), ⟨⟨trivial, fun d _ _ p hp => ?_⟩, ⟨trivial, fun d _ _ p hp => ?_⟩, trivial⟩, ?_⟩, trivial⟩
    · simp [dictKeys] at hp
    · simp [dictKeys] at hp
    · intro d hd _ p hp
      rcases dict_cases hd with ⟨h, _⟩ | ⟨_, rfl⟩
      · exact absurd h (by decide)
      · simp [dictKeys] at hp
        subst hp
        exact ⟨_, rfl, .inl (by simp [Node.names, Node.namesL])⟩
  have h1 : validate (demoEnv dictTable) (.map [(.integer 1, .integer 2)]) dictNode top = .err (.mismatch "shorter map") :=
    validate_of_fuel 60 (by decide)
  have hl : ∀ d s, RuleTable.lookup (("missing", d) :: dictTable) s = (demoEnv dictTable).lookup s ∨
      ∃ e, (demoEnv dictTable).lookup s = .error e ∧ e.isFatal = true := by
    intro d s
    by_cases hs : s = "missing"
    · subst hs; exact .inr ⟨.missingRule "missing", rfl, rfl⟩
    · left
      show RuleTable.lookup _ s = RuleTable.lookup _ s
      simp only [RuleTable.lookup, RuleTable.find]
      rw [if_neg (Ne.symm hs)]
      cases dictTable.find s <;> rfl
  refine ⟨hn, validate_of_fuel 60 (by decide), fun d => ?_⟩
  rcases C22_missing_rules_keys_partial (demoEnv dictTable) (RuleTable.lookup (("missing", d) :: dictTable)) _ _ dictNode
    (.map [(.integer 1, .integer 2)]) (hl d) dict_lead (fun s hs => by subst hs; rfl) hn
    ⟨trivial, trivial, trivial, trivial⟩ with ⟨e, he, hf⟩ | he
  · rw [h1] at he; cases he; cases hf
  · exact he.trans h1

end Cddl
