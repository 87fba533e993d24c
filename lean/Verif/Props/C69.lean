import Verif.Proofs.Cost
import Verif.Proofs.Frugal
import Verif.Proofs.Same
import Verif.Props.C44

/-! # C69  How many calls validation takes

The validator tries the options of a choice one after the other, and each option starts over.  Where two options begin
alike and the beginning is recursive, as with infix operators, the calls double with every level of nesting, already for
data that is accepted.  Where a value is looked into by one option only (Spec/Frugal.lean, a test that reads the rules),
the number of calls is at most quadratic in the size of the data, and linear if there are no maps. -/

namespace Cddl

/-- Sums and products, written between their parts. -/
def infixText : String := "e = [e, \"+\", e] / [e, \"*\", e] / int"

/-- The array for one of the operators. -/
def infixNode (o : String) : Node := .array [.rule "e" [], .literal (.text o), .rule "e" []]

/-- What the rule `e` stands for. -/
def exprNode : Node := .choice [infixNode "+", infixNode "*", .prelude .int]

/-- The rules. -/
def infixTable : RuleTable := [("e", ⟨[], exprNode⟩)]

/-- A product of `d + 1` factors, the first ones first. -/
def product : Nat → Value
  | 0 => .integer 1
  | d + 1 => .array [product d, .text "*", .integer 1]

theorem fns_arr (env : Env) (k : Nat) (n : Node) (w : WArr) (c : Ctx) :
    (fns env (k + 1)).arr n w c = arrBody env (fns env k) n w c := rfl

theorem fns_val (env : Env) (k : Nat) (v : Value) (n : Node) (c : Ctx) :
    (fns env (k + 1)).val v n c = valBody env (fns env k) v n c := rfl

theorem costs_arr (env : Env) (k : Nat) (n : Node) (w : WArr) (c : Ctx) :
    (costs env (k + 1)).arr n w c = arrN env (fns env k) (costs env k) n w c := rfl

theorem costs_val (env : Env) (k : Nat) (v : Value) (n : Node) (c : Ctx) :
    (costs env (k + 1)).val v n c = valN env (fns env k) (costs env k) v n c := rfl

section
variable {l : Libs}

theorem infix_lookup {c : Ctx} (hc : c.bare) (hd : c.depth < 50) :
    ∃ c', c.lookupRule (l.env infixTable) "e" [] = .ok (exprNode, c') ∧ c'.bare ∧ c'.depth = c.depth + 1 := by
  have h0 : (l.env infixTable).lookup "e" = .ok ⟨[], exprNode⟩ := rfl
  have h1 : ¬ c.depth ≥ maxDepth := by simp only [maxDepth]; omega
  refine ⟨.frame [] c (c.depth + 1), ?_, rfl, rfl⟩
  have hv : ((l.env infixTable).lookup "e").bind (fun rd => (c.derive rd []).bind fun c' => Except.ok (rd.node, c')) =
      .ok (exprNode, .frame [] c (c.depth + 1)) := by
    simp [h0, Except.bind, Ctx.derive, Ctx.incDepth, h1]
  cases c with
  | root d => exact hv
  | frame g p d =>
    have hg : g = [] := hc
    subst hg
    exact hv

theorem one_arr (k : Nat) (c : Ctx) (t : List Value) :
    (fns (l.env infixTable) (k + 3)).arr exprNode ⟨.integer 1 :: t, []⟩ c = .ok ⟨t, []⟩ := by
  have e1 (o : String) : ∃ m, (fns (l.env infixTable) (k + 2)).arr (infixNode o) ⟨.integer 1 :: t, []⟩ c =
      .err (.mismatch m) ⟨.integer 1 :: t, []⟩ := ⟨_, rfl⟩
  obtain ⟨m1, e1p⟩ := e1 "+"
  obtain ⟨m2, e1m⟩ := e1 "*"
  have e2 : (fns (l.env infixTable) (k + 2)).arr (.prelude .int) ⟨.integer 1 :: t, []⟩ c = .ok ⟨t, []⟩ := rfl
  rw [fns_arr]
  simp only [exprNode, arrBody, choiceLoopS, e1p, e1m, e2, Err.isFatal, Bool.false_eq_true, if_false]

/-- What is shown of a product as an element of an array. -/
def Doubled (l : Libs) (d : Nat) : Prop := ∀ (k : Nat) (c : Ctx) (t : List Value), c.bare → c.depth + d ≤ 50 →
    (fns (l.env infixTable) (4 * d + k + 3)).arr exprNode ⟨product d :: t, []⟩ c = .ok ⟨t, []⟩ ∧
    2 ^ d ≤ (costs (l.env infixTable) (4 * d + k + 3)).arr exprNode ⟨product d :: t, []⟩ c

/-- One level: the first option is tried in vain, the second fits. -/
theorem product_level {d : Nat} (ih : Doubled l d) (k : Nat) {c : Ctx} (hc : c.bare) (hd : c.depth + (d + 1) ≤ 50) :
    (∃ ms, (fns (l.env infixTable) (4 * d + k + 5)).val (product (d + 1)) (infixNode "+") c = .err (.mismatch ms)) ∧
    (fns (l.env infixTable) (4 * d + k + 5)).val (product (d + 1)) (infixNode "*") c = .ok () ∧
    ∀ o, 2 ^ d ≤ (costs (l.env infixTable) (4 * d + k + 5)).val (product (d + 1)) (infixNode o) c := by
  obtain ⟨c', hl, hc', hd'⟩ := infix_lookup (l := l) hc (by omega)
  rw [show 4 * d + k + 5 = (4 * d + k + 3) + 2 by omega]
  obtain ⟨i1, i2⟩ := ih k c' [.text "*", .integer 1] hc' (by omega)
  have o1 : (fns (l.env infixTable) (4 * d + k + 3)).arr exprNode ⟨[.integer 1], []⟩ c' = .ok ⟨[], []⟩ := one_arr (4 * d + k) c' []
  generalize hq : 4 * d + k + 3 = q at i1 i2 o1 ⊢
  have r1 : (fns (l.env infixTable) (q + 1)).arr (.rule "e" []) ⟨[product d, .text "*", .integer 1], []⟩ c =
      .ok ⟨[.text "*", .integer 1], []⟩ := by
    rw [fns_arr]
    simp only [arrBody, hl, i1]
  have r2 : 2 ^ d ≤ (costs (l.env infixTable) (q + 1)).arr (.rule "e" []) ⟨[product d, .text "*", .integer 1], []⟩ c := by
    rw [costs_arr]
    simp only [arrN, afterLookup, hl]
    omega
  have r3 : (fns (l.env infixTable) (q + 1)).arr (.rule "e" []) ⟨[.integer 1], []⟩ c = .ok ⟨[], []⟩ := by
    rw [fns_arr]
    simp only [arrBody, hl, o1]
  have s1 : ∃ m, (fns (l.env infixTable) (q + 1)).arr (.literal (.text "+")) ⟨[.text "*", .integer 1], []⟩ c =
      .err (.mismatch m) ⟨[.text "*", .integer 1], []⟩ := by
    subst hq
    exact ⟨_, rfl⟩
  have s2 : (fns (l.env infixTable) (q + 1)).arr (.literal (.text "*")) ⟨[.text "*", .integer 1], []⟩ c =
      .ok ⟨[.integer 1], []⟩ := by
    subst hq
    rfl
  obtain ⟨ms, s1⟩ := s1
  have v1 : (fns (l.env infixTable) (q + 2)).val (product (d + 1)) (infixNode "+") c = .err (.mismatch ms) := by
    rw [fns_val]
    simp only [infixNode, product, valBody, validateArray, seqLoopS, WArr.new, r1, s1]
  have v2 : (fns (l.env infixTable) (q + 2)).val (product (d + 1)) (infixNode "*") c = .ok () := by
    rw [fns_val]
    simp only [infixNode, product, valBody, validateArray, seqLoopS, WArr.new, r1, s2, r3, List.isEmpty_nil, if_true]
  have v3 (o : String) : 2 ^ d ≤ (costs (l.env infixTable) (q + 2)).val (product (d + 1)) (infixNode o) c := by
    rw [costs_val]
    simp only [infixNode, product, valN, arraySeqN, seqLoopSN, WArr.new]
    omega
  exact ⟨⟨ms, v1⟩, v2, v3⟩

theorem product_arr (d : Nat) : Doubled l d := by
  induction d with
  | zero =>
    intro k c t _ _
    rw [show 4 * 0 + k + 3 = k + 3 by omega]
    refine ⟨one_arr k c t, ?_⟩
    rw [costs_arr]
    unfold arrN
    omega
  | succ d ih =>
    intro k c t hc hd
    obtain ⟨⟨ms, v1⟩, v2, v3⟩ := product_level ih k hc hd
    rw [show 4 * (d + 1) + k + 3 = (4 * d + k + 3) + 4 by omega]
    rw [show 4 * d + k + 5 = (4 * d + k + 3) + 2 by omega] at v1 v2 v3
    generalize 4 * d + k + 3 = q at v1 v2 v3 ⊢
    have a1 : (fns (l.env infixTable) (q + 3)).arr (infixNode "+") ⟨product (d + 1) :: t, []⟩ c =
        .err (.mismatch ms) ⟨product (d + 1) :: t, []⟩ := by
      rw [fns_arr]
      simp only [infixNode, arrBody, validateArrayValue]
      simp only [infixNode] at v1
      simp only [v1, SRes.ofRes]
    have a2 : (fns (l.env infixTable) (q + 3)).arr (infixNode "*") ⟨product (d + 1) :: t, []⟩ c = .ok ⟨t, []⟩ := by
      rw [fns_arr]
      simp only [infixNode, arrBody, validateArrayValue]
      simp only [infixNode] at v2
      simp only [v2, WArr.popFront]
    have a3 (o : String) : 2 ^ d ≤ (costs (l.env infixTable) (q + 3)).arr (infixNode o) ⟨product (d + 1) :: t, []⟩ c := by
      show _ ≤ 1 + (costs (l.env infixTable) (q + 2)).val (product (d + 1)) (infixNode o) c
      have := v3 o
      omega
    constructor
    · rw [fns_arr]
      simp only [exprNode, arrBody, choiceLoopS, a1, a2, Err.isFatal, Bool.false_eq_true, if_false]
    · rw [costs_arr]
      simp only [exprNode, arrN, choiceLoopSN, a1, a2, Err.isFatal, Bool.false_eq_true, if_false]
      rw [Nat.pow_succ, Nat.mul_two]
      exact Nat.le_trans (Nat.add_le_add (a3 "+") (a3 "*")) (Nat.le_add_left _ 1)

/-- C69.  With operators written between their parts, accepted data of `3 * d + 1` values nested `d` deep takes at least
`2 ^ d` calls. -/
theorem C69_exponential (l : Libs) (d : Nat) (hd : d ≤ 50) :
    doValidate (l.env infixTable) (product d) ⟨[], exprNode⟩ = .ok () ∧
    (∃ m, CallsMade (l.env infixTable) (product d) exprNode top m) ∧
    ∀ m, CallsMade (l.env infixTable) (product d) exprNode top m → 2 ^ d ≤ m := by
  have key : ∃ k, (fns (l.env infixTable) k).val (product d) exprNode top = .ok () ∧
      2 ^ d ≤ (costs (l.env infixTable) k).val (product d) exprNode top := by
    cases d with
    | zero =>
      refine ⟨3, rfl, ?_⟩
      rw [costs_val]
      unfold valN
      omega
    | succ d =>
      obtain ⟨⟨ms, v1⟩, v2, v3⟩ := product_level (product_arr (l := l) d) 0 (c := top) trivial (by simpa [Ctx.depth] using hd)
      refine ⟨4 * d + 0 + 5 + 1, ?_, ?_⟩
      · rw [fns_val]
        simp only [exprNode, valBody, validateChoice, choiceLoop, v1, v2, Err.isFatal, Bool.false_eq_true, if_false]
      · rw [costs_val]
        simp only [exprNode, valN, choiceLoopN, v1, v2, Err.isFatal, Bool.false_eq_true, if_false]
        rw [Nat.pow_succ, Nat.mul_two]
        exact Nat.le_trans (Nat.add_le_add (v3 "+") (v3 "*")) (Nat.le_add_left _ 1)
  obtain ⟨k, h1, h2⟩ := key
  have h3 : CallsMade (l.env infixTable) (product d) exprNode top
      ((costs (l.env infixTable) k).val (product d) exprNode top) := ⟨k, by rw [h1]; exact fun h => (nomatch h), rfl⟩
  refine ⟨?_, ⟨_, h3⟩, fun m hm => ?_⟩
  · rw [doValidate_plain]
    exact accepts_of_fuel k h1
  · rw [callsMade_unique hm h3]
    exact h2

end

/-- C69.  Under rules that look into every value once, validation takes at most as many calls as a multiple of the square of
the size of the data; the multiple depends on the rules only. -/
theorem C69_quadratic (l : Libs) {t : RuleTable} (hf : t.frugal = true) {name : String} {rd : RuleDef}
    (hr : LastRule t name rd) {v : Value} (hv : v.WF) {m : Nat} (hm : CallsMade (l.env t) v rd.node top m) :
    m ≤ t.tally.flat name + t.width * (v.size * v.size) := by
  obtain ⟨k, _, rfl⟩ := hm
  have hl : (l.env t).lookup name = .ok rd := by
    simp only [Libs.env, RuleTable.lookup, find_last.mpr hr]
  have hE := RuleTable.frugal_rules l hf
  obtain ⟨h1, h2, _⟩ := hE name rd hl
  have h3 := (bounded hE k).val v rd.node top trivial hv h1
  have h4 := gain_le_work t.width (rd.node.shapes t.tally.shapes) v
  have h5 := Nat.mul_le_mul_left t.width v.work_le
  omega

/-- C69.  The number of calls is linear in the size of the data if there are no maps in it. -/
theorem C69_linear (l : Libs) {t : RuleTable} (hf : t.frugal = true) {name : String} {rd : RuleDef}
    (hr : LastRule t name rd) {v : Value} (hv : v.WF) (hn : v.mapless = true) {m : Nat}
    (hm : CallsMade (l.env t) v rd.node top m) :
    m ≤ t.tally.flat name + 2 * t.width * v.size := by
  obtain ⟨k, _, rfl⟩ := hm
  have hl : (l.env t).lookup name = .ok rd := by
    simp only [Libs.env, RuleTable.lookup, find_last.mpr hr]
  have hE := RuleTable.frugal_rules l hf
  obtain ⟨h1, h2, _⟩ := hE name rd hl
  have h3 := (bounded hE k).val v rd.node top trivial hv h1
  have h4 := gain_le_work t.width (rd.node.shapes t.tally.shapes) v
  have h5 := Nat.mul_le_mul_left t.width (Nat.le_of_succ_le (v.work_lt hn))
  rw [Nat.mul_comm 2, Nat.mul_assoc]
  omega

/-- C69.  The number of calls is unique, and there is one. -/
theorem C69_counted (l : Libs) (t : RuleTable) (v : Value) (n : Node) :
    ∃ m, CallsMade (l.env t) v n top m ∧ ∀ m', CallsMade (l.env t) v n top m' → m' = m := by
  obtain ⟨m, hm⟩ := callsMade_exists (l.env t) v n (c := top) rfl
  exact ⟨m, hm, fun m' h => callsMade_unique h hm⟩

/-! ## Examples -/

example : flattenFromStr demoLibs infixText = .ok infixTable := flattenFromStr_same (by decide +kernel)

/-- Data of 121 values, accepted after more than a thousand billion calls. -/
example : (product 40).size = 121 ∧ ∃ m, CallsMade (demoLibs.env infixTable) (product 40) exprNode top m ∧ 1000000000000 < m := by
  obtain ⟨_, ⟨m, hm⟩, h⟩ := C69_exponential demoLibs 40 (by decide)
  exact ⟨by decide, m, hm, Nat.lt_of_lt_of_le (by decide) (h m hm)⟩

/-- Written in front of its parts, the operator tells which option to look into. -/
def prefixText : String := "e = [\"+\", e, e] / [\"*\", e, e] / int"

/-- The rules. -/
def prefixTable : RuleTable :=
  [("e", ⟨[], .choice [.array [.literal (.text "+"), .rule "e" [], .rule "e" []],
    .array [.literal (.text "*"), .rule "e" [], .rule "e" []], .prelude .int]⟩)]

example : flattenFromStr demoLibs prefixText = .ok prefixTable := flattenFromStr_same (by decide +kernel)

example : prefixTable.frugal = true ∧ infixTable.frugal = false ∧ prefixTable.tally.flat "e" = 14 ∧ prefixTable.width = 36 := by
  decide +kernel

/-- For these rules, with the numbers filled in. -/
example {v : Value} (hv : v.WF) (hn : v.mapless = true) {m : Nat}
    (hm : CallsMade (demoLibs.env prefixTable) v (prefixTable.map fun p => p.2.node).head! top m) :
    m ≤ 14 + 2 * 36 * v.size :=
  C69_linear demoLibs (t := prefixTable) (by decide +kernel) ⟨[], [], rfl, by simp⟩ hv hn hm

/-- A tree of maps: the member `kind` tells the options apart. -/
def treeText : String := "t = {kind: \"leaf\", value: int} / {kind: \"node\", * tstr => t}"

/-- The rules. -/
def treeTable : RuleTable :=
  [("t", ⟨[], .choice [
    .map [.keyValue (.literal (.text "kind")) (.literal (.text "leaf")) true,
      .keyValue (.literal (.text "value")) (.prelude .int) true],
    .map [.keyValue (.literal (.text "kind")) (.literal (.text "node")) true,
      .occur .zeroOrMore (.keyValue (.prelude .tstr) (.rule "t" []) false)]]⟩)]

example : flattenFromStr demoLibs treeText = .ok treeTable := flattenFromStr_same (by decide +kernel)

example : treeTable.frugal = true ∧ treeTable.tally.flat "t" = 10 ∧ treeTable.width = 27 := by decide +kernel

/-- `{"kind": "node", "a": {"kind": "leaf", "value": 1}}` -/
def treeValue : Value := .map [(.text "a", .map [(.text "kind", .text "leaf"), (.text "value", .integer 1)]),
  (.text "kind", .text "node")]

example : (fns (demoEnv treeTable) 30).val treeValue (.rule "t" []) top = .ok () ∧
    (costs (demoEnv treeTable) 30).val treeValue (.rule "t" []) top = 19 ∧ treeValue.size = 9 := by decide +kernel

end Cddl
