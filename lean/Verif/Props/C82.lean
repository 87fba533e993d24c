import Verif.Proofs.Reword
import Verif.Proofs.RewordTree
import Verif.Proofs.Same
import Verif.Props.C42
import Verif.Props.C44
import Verif.Spec.Stages

/-! # C82  Keys and texts can be replaced in schema and data together -/

namespace Cddl

theorem VRel.sort {r s : Res Unit} (h : VRel r s) : SameSort r s := by
  cases h with
  | ok _ => exact .ok
  | err h => exact .err h
  | panic => exact .panic
  | fuel => exact .fuel

/-- C82.  Texts can be replaced one-to-one, in the literals of the schema and in the data together.  The verdict stays,
with an error of the same sort.  Where the schema has keys that are not literals, the keys of the data have to stay in
the same order. -/
theorem C82_reword {f : String → String} {ord : Prop} {env : Env} {n : Node} {c : Ctx} {v w : Value}
    (hf : ∀ s t, f s = f t → s = t) (he : env.Rewordable f ord) (hn : n.Rewordable f env.regexMatch ord)
    (hc : c.Rewordable f env.regexMatch ord) (hv : v.WF) (hw : w.WF) (h : Reworded f ord v w) :
    SameSort (validate env v n c) (validate (env.reword f) w (n.reword f) (c.reword f)) := by
  obtain ⟨N, hN⟩ := (lim_ev env).val v n c
  obtain ⟨M, hM⟩ := (lim_ev (env.reword f)).val w (n.reword f) (c.reword f)
  have := (fns_word (fmt := env.fmtF64) (fun s t => hf s t) he (max N M)).val ⟨h, hv, hw⟩ hn hc
  have e1 := hN (max N M) (by omega)
  have e2 := hM (max N M) (by omega)
  simp only at e1 e2
  unfold Env.reword at e2 ⊢
  rw [e1, e2] at this
  exact this.sort

theorem RuleTable.find_reword (f : String → String) (s : String) : ∀ t : RuleTable,
    (t.reword f).find s = (t.find s).map (RuleDef.reword f)
  | [] => rfl
  | p :: t => by
    have ih := RuleTable.find_reword f s t
    unfold RuleTable.reword at ih ⊢
    simp only [List.map_cons, RuleTable.find, ih]
    cases RuleTable.find t s with
    | some x => rfl
    | none =>
      simp only [Option.map_none]
      split <;> rfl

theorem Libs.env_reword (f : String → String) (l : Libs) (t : RuleTable) : l.env (t.reword f) = (l.env t).reword f := by
  unfold Libs.env Env.reword Env.reprint
  congr 1
  funext s
  simp only [RuleTable.lookup, RuleTable.find_reword]
  cases t.find s <;> rfl

/-- C82.  The same for the rules of a table. -/
theorem C82_rules {f : String → String} {ord : Prop} {l : Libs} {t : RuleTable} {name : String} {rd : RuleDef} {v w : Value}
    (hf : ∀ s t, f s = f t → s = t) (ht : ∀ p ∈ t, p.2.node.Rewordable f l.regexMatch ord) (hr : LastRule t name rd)
    (hv : v.WF) (hw : w.WF) (h : Reworded f ord v w) :
    LastRule (t.reword f) name (rd.reword f) ∧
    SameSort (doValidate (l.env t) v rd) (doValidate (l.env (t.reword f)) w (rd.reword f)) := by
  have hfind := find_last.mpr hr
  constructor
  · rw [← find_last, RuleTable.find_reword, hfind]
    rfl
  · have he : (l.env t).Rewordable f ord := by
      intro s d hd
      simp only [Libs.env, RuleTable.lookup] at hd
      cases hf : t.find s with
      | none => rw [hf] at hd; cases hd
      | some d' => rw [hf] at hd; cases hd; exact ht _ (RuleTable.find_mem hf)
    rw [Libs.env_reword]
    unfold doValidate
    by_cases hp : rd.params = []
    · simp only [RuleDef.reword, hp, ne_eq, not_true_eq_false, if_false]
      exact C82_reword hf he (ht _ (RuleTable.find_mem hfind)) (c := .root 0) trivial hv hw h
    · simp only [RuleDef.reword, ne_eq, hp, not_false_eq_true, if_true]
      exact .err rfl

/-- C82.  For whole calls with CBOR data: the second schema text gives the rules of the first in other words. -/
theorem C82_cbor {f : String → String} {ord : Prop} {l : Libs} {name cddl cddl' : String} {t : RuleTable}
    {a b : List UInt8} {c d : Cbor} {v w : Value}
    (hf : ∀ s t, f s = f t → s = t) (h1 : flattenFromStr l cddl = .ok t) (h2 : flattenFromStr l cddl' = .ok (t.reword f))
    (ht : ∀ p ∈ t, p.2.node.Rewordable f l.regexMatch ord) (ha : l.cborDecode a = .ok c) (hb : l.cborDecode b = .ok d)
    (hc : c.toValue = .ok v) (hd : d.toValue = .ok w) (h : Reworded f ord v w) :
    SameSort (validateCborBytes l name cddl a) (validateCborBytes l name cddl' b) := by
  unfold validateCborBytes findRule
  rw [ha, hb, h1, h2]
  simp only [hc, hd, Res.bind, RuleTable.find_reword]
  cases hfind : t.find name with
  | none => exact .err rfl
  | some rd => exact (C82_rules hf ht (find_last.mp hfind) (Cbor.toValue_WF _ _ hc) (Cbor.toValue_WF _ _ hd) h).2

/-- C82.  For whole calls with JSON texts. -/
theorem C82_json {f : String → String} {ord : Prop} {l : Libs} {name cddl cddl' : String} {t : RuleTable}
    {a b : String} {c d : Json} {v w : Value}
    (hf : ∀ s t, f s = f t → s = t) (h1 : flattenFromStr l cddl = .ok t) (h2 : flattenFromStr l cddl' = .ok (t.reword f))
    (ht : ∀ p ∈ t, p.2.node.Rewordable f l.regexMatch ord) (ha : l.jsonDecode a = .ok c) (hb : l.jsonDecode b = .ok d)
    (hc : c.toValue = .ok v) (hd : d.toValue = .ok w) (h : Reworded f ord v w) :
    SameSort (validateJsonStr l name cddl a) (validateJsonStr l name cddl' b) := by
  unfold validateJsonStr findRule
  rw [ha, hb, h1, h2]
  simp only [hc, hd, Res.bind, RuleTable.find_reword]
  cases hfind : t.find name with
  | none => exact .err rfl
  | some rd => exact (C82_rules hf ht (find_last.mp hfind) (Json.toValue_WF _ _ hc) (Json.toValue_WF _ _ hd) h).2

/-- C82.  A schema with other texts translates to the rules with other texts, or is refused with the same error. -/
theorem C82_tree (f : String → String) (re : String → Bool) (tree : Ast.Cddl) :
    flatten re (tree.reword f) = (flatten re tree).bind fun t => .ok (t.reword f) := flatten_reword tree

/-- C82.  Every schema text can be rewritten with other texts, if these can be written: a bareword has to become a
bareword, and a text something that can stand between quotes.  The rewritten schema has the rules of the first in other
words, or is refused with the same error. -/
theorem C82_text {f : String → String} {l : Libs} {p : PrintExt} {cddl : String} {tree : Ast.Cddl} (hw : Writes l.parse p)
    (hi : ∀ s : String, Ident s.toList → Ident (f s).toList)
    (ht : ∀ s, OkValue l.parse p (.text s) → OkValue l.parse p (.text (f s)))
    (hp : parseCddl l.parse cddl = .ok tree) :
    ∃ cddl', parseCddl l.parse cddl' = .ok (tree.reword f) ∧
      flattenFromStr l cddl' = (flattenFromStr l cddl).bind fun t => .ok (t.reword f) := by
  have h := C42_roundtrip (okCddl_reword hi ht ((C42_image hw tree).mp ⟨_, hp⟩))
  refine ⟨_, h, ?_⟩
  unfold flattenFromStr
  rw [h, hp]
  exact C82_tree f l.regexOk tree

/-- C82.  For whole calls with JSON texts, from the syntax trees: the second schema is the first with other texts. -/
theorem C82_schema {f : String → String} {ord : Prop} {l : Libs} {name cddl cddl' : String} {tree : Ast.Cddl}
    {a b : String} {c d : Json} {v w : Value}
    (hf : ∀ s t, f s = f t → s = t) (h1 : parseCddl l.parse cddl = .ok tree)
    (h2 : parseCddl l.parse cddl' = .ok (tree.reword f))
    (ht : ∀ t, flattenFromStr l cddl = .ok t → ∀ p ∈ t, p.2.node.Rewordable f l.regexMatch ord)
    (ha : l.jsonDecode a = .ok c) (hb : l.jsonDecode b = .ok d)
    (hc : c.toValue = .ok v) (hd : d.toValue = .ok w) (h : Reworded f ord v w) :
    SameSort (validateJsonStr l name cddl a) (validateJsonStr l name cddl' b) := by
  have e : flattenFromStr l cddl' = (flattenFromStr l cddl).bind fun t => .ok (t.reword f) := by
    unfold flattenFromStr
    rw [h1, h2]
    exact C82_tree f l.regexOk tree
  cases hr : flattenFromStr l cddl with
  | ok t =>
    rw [hr] at e
    exact C82_json hf hr e (ht t hr) ha hb hc hd h
  | err x =>
    rw [hr] at e
    unfold validateJsonStr findRule
    rw [ha, hb, hr, e]
    simp only [hc, hd, Res.bind]
    exact .err rfl
  | panic =>
    rw [hr] at e
    unfold validateJsonStr findRule
    rw [ha, hb, hr, e]
    simp only [hc, hd, Res.bind]
    exact .panic
  | fuel =>
    rw [hr] at e
    unfold validateJsonStr findRule
    rw [ha, hb, hr, e]
    simp only [hc, hd, Res.bind]
    exact .fuel

/-- Two texts change places. -/
def swapTexts (a b s : String) : String := if s = a then b else if s = b then a else s

theorem swapTexts_inj (a b : String) : ∀ s t, swapTexts a b s = swapTexts a b t → s = t := by
  intro s t h
  unfold swapTexts at h
  split at h <;> split at h <;> (try split at h) <;> (try split at h) <;> simp_all

/-- C82, the order of keys counts: with a key that is not a literal, renaming the keys changes the verdict.  The schema
`{tstr => int, "b" => tstr}` accepts `{"a": 1, "b": "x"}`.  With `a` and `b` exchanged in both, the data is refused, as
the pair with key `tstr` then meets the wrong key first. -/
theorem C82_order_refuted : ∃ (f : String → String) (n : Node) (v w : Value),
    (∀ s t, f s = f t → s = t) ∧ n.Rewordable f (demoEnv []).regexMatch True ∧ v.WF ∧ w.WF ∧ Reworded f False v w ∧
    validate (demoEnv []) v n top = .ok () ∧
    ∃ e, e.isFatal = false ∧ validate ((demoEnv []).reword f) w (n.reword f) (top.reword f) = .err e := by
  refine ⟨swapTexts "a" "b", .map [.keyValue (.prelude .tstr) (.prelude .int) false,
      .keyValue (.literal (.text "b")) (.prelude .tstr) false],
    .map [(.text "a", .integer 1), (.text "b", .text "x")], .map [(.text "a", .text "x"), (.text "b", .integer 1)],
    swapTexts_inj _ _, ?_, ?_, ?_, ?_, validate_of_fuel 20 (by decide +kernel), .mismatch "int", ?_, validate_of_fuel 20 (by decide +kernel)⟩
  · simp [Node.Rewordable, Node.RewordableL]
  · exact ⟨⟨by decide, trivial⟩, by simp [Value.WFMap, Value.WF]⟩
  · exact ⟨⟨by decide, trivial⟩, by simp [Value.WFMap, Value.WF]⟩
  · refine .map (l := [(.text "b", .integer 1), (.text "a", .text "x")]) ?_ ?_ (List.Perm.swap _ _ _) (fun h => h.elim)
    · exact .cons (.text "a") (.cons (.text "b") .nil)
    · exact .cons (.integer 1) (.cons (.text "x") .nil)
  · rfl

/-- The rules of `person = {name: tstr, ? age: uint, kind: "a" / "b"}`. -/
def wordTable : RuleTable := [("person", ⟨[], .map [
  .keyValue (.literal (.text "name")) (.prelude .tstr) true,
  .occur .optional (.keyValue (.literal (.text "age")) (.prelude .uint) true),
  .keyValue (.literal (.text "kind")) (.choice [.literal (.text "a"), .literal (.text "b")]) true]⟩)]

/-- C82, an instance: the key `name` is renamed to `Name`.  This also changes the order of the keys.  Data with the
renamed key gets the same verdict from the schema with the renamed key. -/
theorem C82_example :
    flattenFromStr demoLibs "person = {name: tstr, ? age: uint, kind: \"a\" / \"b\"}" = .ok wordTable ∧
    flattenFromStr demoLibs "person = {Name: tstr, ? age: uint, kind: \"a\" / \"b\"}" =
      .ok (wordTable.reword (swapTexts "name" "Name")) ∧
    (∀ p ∈ wordTable, p.2.node.Rewordable (swapTexts "name" "Name") demoLibs.regexMatch False) ∧
    Reworded (swapTexts "name" "Name") False (.map [(.text "age", .integer 7), (.text "kind", .text "b"), (.text "name", .text "x")])
      (.map [(.text "Name", .text "x"), (.text "age", .integer 7), (.text "kind", .text "b")]) ∧
    Accepts (demoLibs.env (wordTable.reword (swapTexts "name" "Name"))) top (.rule "person" [])
      (.map [(.text "Name", .text "x"), (.text "age", .integer 7), (.text "kind", .text "b")]) := by
  refine ⟨flattenFromStr_same (by decide +kernel), flattenFromStr_same (by decide +kernel), ?_, ?_,
    accepts_of_fuel 30 (by decide +kernel)⟩
  · simp [wordTable, Node.Rewordable, Node.RewordableL]
  · refine .map (l := [(.text "age", .integer 7), (.text "kind", .text "b"), (.text "Name", .text "x")]) ?_ ?_ ?_ (fun h => h.elim)
    · exact .cons (.text "age") (.cons (.text "kind") (.cons (.text "name") .nil))
    · exact .cons (.integer 7) (.cons (.text "b") (.cons (.text "x") .nil))
    · exact (List.Perm.swap _ _ _).trans (.cons _ (List.Perm.swap _ _ _))

/-- Two identifiers changing places: barewords stay barewords. -/
theorem swap_ident {a b : String} (ha : Ident a.toList) (hb : Ident b.toList) (s : String) (h : Ident s.toList) :
    Ident (swapTexts a b s).toList := by
  unfold swapTexts
  split
  · exact hb
  · split
    · exact ha
    · exact h

set_option maxRecDepth 100000 in
/-- C82, an instance for `C82_schema`: two schema texts of which the second is the first with another key; the pattern
of `.regexp` stays. -/
theorem C82_schema_example :
    ∃ tree, parseCddl asciiExt "a = {name: tstr .regexp \"name\"}" = .ok tree ∧
      parseCddl asciiExt "a = {Name: tstr .regexp \"name\"}" = .ok (tree.reword (swapTexts "name" "Name")) :=
  ⟨[⟨"a", [], .assignType [.simple (.map [[.mk none (.keyed (.bareword "name") true
    [.control (.typename "tstr" []) (.value (.text "name")) "regexp"])]])]⟩], rfl, rfl⟩

/-- C82, an instance for `C82_text`: the texts `x` and `y` can change places in every schema. -/
example {cddl : String} {tree : Ast.Cddl} (h : parseCddl asciiExt cddl = .ok tree) :
    ∃ cddl', parseCddl asciiExt cddl' = .ok (tree.reword (swapTexts "x" "y")) := by
  have hx : Ident "x".toList := .mk (by unfold EAlpha; decide) .nil
  have hy : Ident "y".toList := .mk (by unfold EAlpha; decide) .nil
  have ok : ∀ c : Char, PlainChar true c → c ≠ '"' → c ≠ '\\' → c.toNat ≤ 0x10FFD →
      OkValue asciiExt demoPrint (.text (String.ofList [c])) := by
    intro c h1 h2 h3 h4
    refine ⟨by simp only [demoPrint, String.toList_ofList]; exact .plain h1 h2 h3 .nil, ?_⟩
    simp [demoPrint, asciiExt, h4]
  obtain ⟨s, h, _⟩ := C82_text (f := swapTexts "x" "y") (l := { demoLibs with parse := asciiExt }) writes_ascii
    (swap_ident hx hy) (by
      intro s h
      unfold swapTexts
      split
      · exact ok 'y' (by unfold PlainChar; decide) (by decide) (by decide) (by decide)
      · split
        · exact ok 'x' (by unfold PlainChar; decide) (by decide) (by decide) (by decide)
        · exact h) h
  exact ⟨s, h⟩

end Cddl
