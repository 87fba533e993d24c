import Verif.Proofs.Rename
import Verif.Props.C44
import Verif.Props.C42

/-! # C57: the names of rules and parameters do not matter -/

namespace Cddl

variable {f : String → String}

/-- C57.  A renamed schema translates to the renamed rules, or fails with the same message. -/
theorem C57_flatten (re : String → Bool) {tree tree' : Ast.Cddl} (h : Renaming f tree tree') :
    (∃ t t', flatten re tree = .ok t ∧ flatten re tree' = .ok t' ∧
      All2 (fun p p' => p'.1 = f p.1 ∧ ∃ g : String → String, p'.2 = p.2.rename g) t t') ∨
      ∃ e, flatten re tree = .err e ∧ flatten re tree' = .err e := by
  rcases flatten_alpha (re := re) h.rules with ⟨t, t', h1, h2, h3⟩ | h
  · exact .inl ⟨t, t', h1, h2, h3.imp fun p p' ⟨g, he, _⟩ => by subst he; exact ⟨rfl, g, rfl⟩⟩
  · exact .inr h

theorem all2_left {α β : Type} {R : α → β → Prop} {l : List α} {m : List β} (h : All2 R l m) :
    ∀ b ∈ m, ∃ a ∈ l, R a b := by
  induction h with
  | nil => simp
  | cons h _ ih =>
    rw [List.forall_mem_cons]
    exact ⟨⟨_, .head _, h⟩, fun b hb => (ih b hb).imp fun a ha => ⟨.tail _ ha.1, ha.2⟩⟩

theorem find_some_of_mem {s : String} : ∀ {t : RuleTable}, s ∈ t.map Prod.fst → ∃ d, t.find s = some d
  | (n, d) :: t, h => by
    simp only [RuleTable.find]
    cases ht : RuleTable.find t s with
    | some x => exact ⟨x, rfl⟩
    | none =>
      rcases List.mem_cons.mp h with rfl | h
      · exact ⟨d, by simp⟩
      · obtain ⟨d', hd⟩ := find_some_of_mem h
        rw [ht] at hd; cases hd

theorem Renaming.table {re : String → Bool} {tree tree' : Ast.Cddl} (h : Renaming f tree tree') {t t' : RuleTable}
    (ht : flatten re tree = .ok t) (ha : All2 (DefAlpha f) t t') : TableAlpha f t t' := by
  have hfl := flatten_iff.mp ht
  have back : ∀ p ∈ t, ∃ r ∈ tree, p.1 = r.name ∧ ∀ a ∈ p.2.free, a ∈ r.free := fun p hp => by
    obtain ⟨r, hr, hf⟩ := all2_left hfl p hp
    have := flattenRule_free (flattenRule_iff.mpr hf)
    exact ⟨r, hr, this.1, this.2.2.2⟩
  have back' : ∀ p ∈ t, ∃ r ∈ tree, ∀ a ∈ p.1 :: p.2.free, a ∈ r.name :: r.free := fun p hp => by
    obtain ⟨r, hr, h1, h2⟩ := back p hp
    refine ⟨r, hr, fun a ha => ?_⟩
    rcases List.mem_cons.mp ha with rfl | ha
    · rw [h1]; exact .head _
    · exact .tail _ (h2 a ha)
  refine ⟨ha, fun p hp a ha q hq b hb he => ?_, fun p hp a ha hm => ?_⟩
  · obtain ⟨r, hr, h1⟩ := back' p hp
    obtain ⟨u, hu, h2⟩ := back' q hq
    exact h.apart r hr a (h1 a ha) u hu b (h2 b hb) he
  · obtain ⟨r, hr, _, h1⟩ := back p hp
    refine h.missing r hr a (h1 a ha) fun q hq hqa => ?_
    have : a ∈ t.map Prod.fst := by rw [all2_names hfl]; exact List.mem_map.mpr ⟨q, hq, hqa⟩
    obtain ⟨d, hd⟩ := find_some_of_mem this
    rw [hm] at hd; cases hd

theorem Renaming.find {l : Libs} {tree tree' : Ast.Cddl} (h : Renaming f tree tree') {text text' : String}
    (hp : parseCddl l.parse text = .ok tree) (hp' : parseCddl l.parse text' = .ok tree') {name : String}
    (hn : ∃ r ∈ tree, r.name = name) :
    (∃ t d t' d', findRule l name text = .ok (t, d) ∧ findRule l (f name) text' = .ok (t', d') ∧
      ∀ v, doValidate (l.env t') v d' = doValidate (l.env t) v d) ∨
      ∃ e, findRule l name text = .err e ∧ findRule l (f name) text' = .err e := by
  unfold findRule flattenFromStr
  simp only [hp, hp', Res.bind]
  rcases flatten_alpha (re := l.regexOk) h.rules with ⟨t, t', h1, h2, h3⟩ | ⟨e, h1, h2⟩
  · obtain ⟨r, hr, rfl⟩ := hn
    have hm : r.name ∈ t.map Prod.fst := by
      rw [all2_names (flatten_iff.mp h1)]; exact List.mem_map.mpr ⟨r, hr, rfl⟩
    obtain ⟨d, hd⟩ := find_some_of_mem hm
    obtain ⟨d', hd', hv⟩ := (h.table h1 h3).validate (l.env t) hd
    exact .inl ⟨t, d, t', d', by simp [h1, hd], by simp [h2, hd'], hv⟩
  · exact .inr ⟨e, by simp [h1], by simp [h2]⟩

/-- C57.  Two schemas that differ in nothing but the names of rules and parameters give the same answer, message included,
for every CBOR document. -/
theorem C57_cbor (l : Libs) {tree tree' : Ast.Cddl} (h : Renaming f tree tree') {text text' : String}
    (hp : parseCddl l.parse text = .ok tree) (hp' : parseCddl l.parse text' = .ok tree') {name : String}
    (hn : ∃ r ∈ tree, r.name = name) (cbor : List UInt8) :
    validateCborBytes l (f name) text' cbor = validateCborBytes l name text cbor := by
  unfold validateCborBytes
  rcases h.find hp hp' hn with ⟨t, d, t', d', h1, h2, hv⟩ | ⟨e, h1, h2⟩
  · simp only [h1, h2, Res.bind, hv]
  · simp only [h1, h2, Res.bind]

/-- C57.  The same for every JSON document. -/
theorem C57_json (l : Libs) {tree tree' : Ast.Cddl} (h : Renaming f tree tree') {text text' : String}
    (hp : parseCddl l.parse text = .ok tree) (hp' : parseCddl l.parse text' = .ok tree') {name : String}
    (hn : ∃ r ∈ tree, r.name = name) (json : String) :
    validateJsonStr l (f name) text' json = validateJsonStr l name text json := by
  unfold validateJsonStr
  rcases h.find hp hp' hn with ⟨t, d, t', d', h1, h2, hv⟩ | ⟨e, h1, h2⟩
  · simp only [h1, h2, Res.bind, hv]
  · simp only [h1, h2, Res.bind]

/-! ## Examples -/

/-- A schema with a rule named like a key, and a rule with two parameters. -/
def c57Tree : Ast.Cddl := [
  ⟨"a", [], .assignType [.simple (.map [[.mk none (.keyed (.bareword "b") true [.simple (.typename "b" [])]),
    .mk (some .optional) (.keyed (.bareword "x") true [.simple (.typename "pair"
      [.simple (.typename "b" []), .simple (.typename "tstr" [])])])]])]⟩,
  ⟨"b", [], .assignType [.simple (.typename "int" [])]⟩,
  ⟨"pair", ["p", "q"], .assignType [.simple (.array [[.mk none (.member [.simple (.typename "p" [])]),
    .mk none (.member [.simple (.typename "q" [])])]])]⟩]

/-- The same schema with other names: the key `b` stays, the rule `b` becomes `n`, and the parameter `q` becomes `p`. -/
def c57Tree' : Ast.Cddl := [
  ⟨"top", [], .assignType [.simple (.map [[.mk none (.keyed (.bareword "b") true [.simple (.typename "n" [])]),
    .mk (some .optional) (.keyed (.bareword "x") true [.simple (.typename "two"
      [.simple (.typename "n" []), .simple (.typename "tstr" [])])])]])]⟩,
  ⟨"n", [], .assignType [.simple (.typename "int" [])]⟩,
  ⟨"two", ["u", "p"], .assignType [.simple (.array [[.mk none (.member [.simple (.typename "u" [])]),
    .mk none (.member [.simple (.typename "p" [])])]])]⟩]

/-- How the rules are renamed. -/
def c57Name (s : String) : String := if s = "a" then "top" else if s = "b" then "n" else if s = "pair" then "two" else s

/-- How the parameters are renamed. -/
def c57Param (s : String) : String := if s = "p" then "u" else if s = "q" then "p" else s

theorem c57_renaming : Renaming c57Name c57Tree c57Tree' where
  rules := .cons ⟨c57Name, rfl, by decide +kernel⟩ (.cons ⟨c57Name, rfl, by decide +kernel⟩ (.cons ⟨c57Param, rfl, by decide +kernel⟩ .nil))
  apart := by decide +kernel
  missing := by decide +kernel

/-- All answers of the one text are those of the other. -/
example (l : Libs) (hl : l.parse = asciiExt) (json : String) (cbor : List UInt8) :
    validateJsonStr l "top" "top = {b: n, ? x: two<n, tstr>} n = int two<u, p> = [u, p]" json =
      validateJsonStr l "a" "a = {b: b, ? x: pair<b, tstr>} b = int pair<p, q> = [p, q]" json ∧
    validateCborBytes l "n" "top = {b: n, ? x: two<n, tstr>} n = int two<u, p> = [u, p]" cbor =
      validateCborBytes l "b" "a = {b: b, ? x: pair<b, tstr>} b = int pair<p, q> = [p, q]" cbor := by
  have h1 : parseCddl l.parse "a = {b: b, ? x: pair<b, tstr>} b = int pair<p, q> = [p, q]" = .ok c57Tree := by
    rw [hl]; set_option maxRecDepth 100000 in rfl
  have h2 : parseCddl l.parse "top = {b: n, ? x: two<n, tstr>} n = int two<u, p> = [u, p]" = .ok c57Tree' := by
    rw [hl]; set_option maxRecDepth 100000 in rfl
  exact ⟨C57_json l c57_renaming h1 h2 ⟨_, .head _, rfl⟩ json, C57_cbor l c57_renaming h1 h2 ⟨_, .tail _ (.head _), rfl⟩ cbor⟩

/-- Both branches of `C57_flatten` occur: this schema translates. -/
example : ∃ t, flatten (fun _ => true) c57Tree = .ok t := by
  rcases C57_flatten (fun _ => true) c57_renaming with ⟨t, _, h, _⟩ | ⟨e, h, _⟩
  · exact ⟨t, h⟩
  · have : flatten (fun _ => true) c57Tree = .err e → False := by
      unfold flatten c57Tree; intro h; cases h
    exact (this h).elim

/-- Libraries for the next examples: every JSON text is the array `[7, "t"]`. -/
def c57Libs : Libs := { demoLibs with jsonDecode := fun _ => .ok (.array [.number (.posInt 7), .string "t"]) }

/-- Why different names must stay different: a parameter named like a rule hides the rule. -/
example :
    validateJsonStr c57Libs "a" "a = g<int> g<p> = [p, b] b = tstr" "" = .ok () ∧
    validateJsonStr c57Libs "a" "a = g<int> g<b> = [b, b] b = tstr" "" ≠ .ok () := by
  refine ⟨validateJsonStr_of_fuel (k := 60) (by decide +kernel) (by simp), ?_⟩
  rw [validateJsonStr_of_fuel (k := 60) (r := .err (.mismatch "int")) (by decide +kernel) (by simp)]
  simp

/-- Why a name without a definition must stay: it is in the message. -/
example :
    validateJsonStr c57Libs "a" "a = x" "" = .err (.missingRule "x") ∧
    validateJsonStr c57Libs "a" "a = y" "" = .err (.missingRule "y") :=
  ⟨validateJsonStr_of_fuel (k := 60) (by decide +kernel) (by simp), validateJsonStr_of_fuel (k := 60) (by decide +kernel) (by simp)⟩

end Cddl
