import Verif.Proofs.Notation
import Verif.Props.C13
import Verif.Props.C44

/-! # C63: notation does not matter -/

namespace Cddl

/-- C63.  Schemas that differ in parentheses around types, in prelude names with the same meaning, and in the notation of literal
keys are translated to the same rules, or refused with the same error. -/
theorem C63_flatten (re : String → Bool) {c c' : Ast.Cddl} (h : SameSchema false c c') : flatten re c = flatten re c' := by
  have := rr_schema (re := re) h
  generalize flatten re c = r at this ⊢
  generalize flatten re c' = r' at this ⊢
  cases this with
  | ok h => rw [h.eq]
  | _ => rfl

/-- C63.  So their answers are the same for all data, messages included. -/
theorem C63_answers (l : Libs) {c c' : Ast.Cddl} (h : SameSchema false c c') {text text' : String}
    (hp : parseCddl l.parse text = .ok c) (hp' : parseCddl l.parse text' = .ok c') (name json : String) (cbor : List UInt8) :
    validateJsonStr l name text json = validateJsonStr l name text' json ∧
    validateCborBytes l name text cbor = validateCborBytes l name text' cbor := by
  have : findRule l name text = findRule l name text' := by
    unfold findRule flattenFromStr
    rw [hp, hp']
    simp only [Res.bind, C63_flatten l.regexOk h]
  unfold validateJsonStr validateCborBytes
  rw [this]
  exact ⟨rfl, rfl⟩

theorem sameVerdict_rfl (r : Res Unit) : SameVerdict r r := .inl rfl

/-- Rules found in schemas that differ in notation. -/
theorem SameSchema.find (l : Libs) {c c' : Ast.Cddl} (h : SameSchema true c c') {text text' : String}
    (hp : parseCddl l.parse text = .ok c) (hp' : parseCddl l.parse text' = .ok c') (name : String) :
    (∃ t d t' d', findRule l name text = .ok (t, d) ∧ findRule l name text' = .ok (t', d') ∧
      ∀ v, SameVerdict (doValidate (l.env t) v d) (doValidate (l.env t') v d')) ∨
    ∃ e, findRule l name text = .err e ∧ findRule l name text' = .err e := by
  unfold findRule flattenFromStr
  simp only [hp, hp', Res.bind]
  have := rr_schema (re := l.regexOk) h
  have hr : (flatten l.regexOk c).Returns := collectRes_returns flattenRule_returns c
  generalize flatten l.regexOk c = r at this hr ⊢
  generalize flatten l.regexOk c' = r' at this ⊢
  cases this with
  | ok h =>
    rename_i t t'
    dsimp only
    rcases KeyVariant.find h name with ⟨h1, h2⟩ | ⟨d, d', h1, h2, h3, h4⟩
    · rw [h1, h2]; exact .inr ⟨_, rfl, rfl⟩
    · rw [h1, h2]
      refine .inl ⟨t, d, t', d', rfl, rfl, fun v => ?_⟩
      unfold doValidate
      rw [h3]
      split
      · exact sameVerdict_rfl _
      · exact C13_keys_ignored (l.env t) t t' h d.node d'.node h4 v
  | err e => exact .inr ⟨e, rfl, rfl⟩
  | panic => exact (hr.1 rfl).elim
  | fuel => exact (hr.2 rfl).elim

/-- C63.  Schemas that also differ in the notation of occurrences with the same limits, or in the keys of array entries, give the
same verdict on every JSON document; only the text of mismatches may differ. -/
theorem C63_json (l : Libs) {c c' : Ast.Cddl} (h : SameSchema true c c') {text text' : String}
    (hp : parseCddl l.parse text = .ok c) (hp' : parseCddl l.parse text' = .ok c') (name json : String) :
    SameVerdict (validateJsonStr l name text json) (validateJsonStr l name text' json) := by
  unfold validateJsonStr
  rcases h.find l hp hp' name with ⟨t, d, t', d', h1, h2, hv⟩ | ⟨e, h1, h2⟩
  · simp only [h1, h2, Res.bind]
    cases l.jsonDecode json with
    | error => exact sameVerdict_rfl _
    | ok j =>
      dsimp only
      cases Res.ofExcept j.toValue with
      | ok v => exact hv v
      | _ => exact sameVerdict_rfl _
  · rw [h1, h2]; exact sameVerdict_rfl _

/-- C63.  The same for every CBOR document. -/
theorem C63_cbor (l : Libs) {c c' : Ast.Cddl} (h : SameSchema true c c') {text text' : String}
    (hp : parseCddl l.parse text = .ok c) (hp' : parseCddl l.parse text' = .ok c') (name : String) (cbor : List UInt8) :
    SameVerdict (validateCborBytes l name text cbor) (validateCborBytes l name text' cbor) := by
  unfold validateCborBytes
  rcases h.find l hp hp' name with ⟨t, d, t', d', h1, h2, hv⟩ | ⟨e, h1, h2⟩
  · simp only [h1, h2, Res.bind]
    cases l.cborDecode cbor with
    | error => exact sameVerdict_rfl _
    | ok j =>
      dsimp only
      cases Res.ofExcept j.toValue with
      | ok v => exact hv v
      | _ => exact sameVerdict_rfl _
  · rw [h1, h2]; exact sameVerdict_rfl _

/-! ## Examples -/

/-- `x = {a: tstr, "b" => (1..5), ? 1 => (nil / (y))} y = [* int]` -/
def c63Tree : Ast.Cddl := [
  ⟨"x", [], .assignType [.simple (.map [[
    .mk none (.keyed (.bareword "a") true [.simple (.typename "tstr" [])]),
    .mk none (.keyed (.type1 (.simple (.value (.text "b")))) false
      [.simple (.parens [.range (.value (.uint 1)) (.value (.uint 5)) true])]),
    .mk (some .optional) (.keyed (.type1 (.simple (.value (.uint 1)))) false
      [.simple (.parens [.simple (.typename "nil" []), .simple (.parens [.simple (.typename "y" [])])])])]])]⟩,
  ⟨"y", [], .assignType [.simple (.array [[.mk (some .zeroOrMore) (.member [.simple (.typename "int" [])])]])]⟩]

/-- `x = ({"a": text, "b" => 1..5, ? 1 => null / y}) y = [* (int)]` -/
def c63Tree' : Ast.Cddl := [
  ⟨"x", [], .assignType [.simple (.parens [.simple (.map [[
    .mk none (.keyed (.value (.text "a")) true [.simple (.typename "text" [])]),
    .mk none (.keyed (.type1 (.simple (.value (.text "b")))) false [.range (.value (.uint 1)) (.value (.uint 5)) true]),
    .mk (some .optional) (.keyed (.type1 (.simple (.value (.uint 1)))) false
      [.simple (.typename "null" []), .simple (.typename "y" [])])]])])]⟩,
  ⟨"y", [], .assignType [.simple (.array [[.mk (some .zeroOrMore) (.member [.simple (.parens [.simple (.typename "int" [])])])]])]⟩]

theorem c63_same : SameSchema false c63Tree c63Tree' :=
  .cons (.type _ _ (.openR (.options (.cons (.simple (.map (.cons (.cons
    (.same _ (.keyed _ _ (.literal (.bareword "a") (.value _)) (.options (.cons (.simple (.typename (.inr ⟨.prelude .tstr, by simp [preludeTable], by simp [preludeTable]⟩) .nil)) .nil))))
    (.cons (.same _ (.keyed _ _ (.literal (.type1 _) (.type1 _)) (.openL (.options (.cons (.range _ (.value _) (.value _)) .nil)))))
    (.cons (.same _ (.keyed _ _ (.literal (.type1 _) (.type1 _)) (.openL (.options
      (.cons (.simple (.typename (.inr ⟨.prelude .nil, by simp [preludeTable], by simp [preludeTable]⟩) .nil)) (.cons (.openL (.simple (.typename (.inl rfl) .nil))) .nil))))))
    (.nil _)))) (.nil _)))) .nil))))
  (.cons (.type _ _ (.options (.cons (.simple (.array (.cons (.cons (.same _ (.member _ (.openR (.options
    (.cons (.simple (.typename (.inl rfl) .nil)) .nil))))) (.nil _)) (.nil _)))) .nil))) .nil)

/-- All answers of the one text are those of the other. -/
example (l : Libs) (hl : l.parse = asciiExt) (json : String) (cbor : List UInt8) :
    validateJsonStr l "x" "x = {a: tstr, \"b\" => (1..5), ? 1 => (nil / (y))} y = [* int]" json =
      validateJsonStr l "x" "x = ({\"a\": text, \"b\" => 1..5, ? 1 => null / y}) y = [* (int)]" json ∧
    validateCborBytes l "x" "x = {a: tstr, \"b\" => (1..5), ? 1 => (nil / (y))} y = [* int]" cbor =
      validateCborBytes l "x" "x = ({\"a\": text, \"b\" => 1..5, ? 1 => null / y}) y = [* (int)]" cbor := by
  have h1 : parseCddl l.parse "x = {a: tstr, \"b\" => (1..5), ? 1 => (nil / (y))} y = [* int]" = .ok c63Tree := by
    rw [hl]; set_option maxRecDepth 100000 in rfl
  have h2 : parseCddl l.parse "x = ({\"a\": text, \"b\" => 1..5, ? 1 => null / y}) y = [* (int)]" = .ok c63Tree' := by
    rw [hl]; set_option maxRecDepth 100000 in rfl
  exact C63_answers l c63_same h1 h2 _ _ _

/-- `x = [a: int, ? b: tstr, + c: y] y = {* int => int}` -/
def c63Array : Ast.Cddl := [
  ⟨"x", [], .assignType [.simple (.array [[
    .mk none (.keyed (.bareword "a") true [.simple (.typename "int" [])]),
    .mk (some .optional) (.keyed (.bareword "b") true [.simple (.typename "tstr" [])]),
    .mk (some .oneOrMore) (.keyed (.bareword "c") true [.simple (.typename "y" [])])]])]⟩,
  ⟨"y", [], .assignType [.simple (.map [[.mk (some .zeroOrMore)
    (.keyed (.type1 (.simple (.typename "int" []))) false [.simple (.typename "int" [])])]])]⟩]

/-- `x = [int, 0*1 c: tstr, 1* c: y] y = {0* int => int}` -/
def c63Array' : Ast.Cddl := [
  ⟨"x", [], .assignType [.simple (.array [[
    .mk none (.member [.simple (.typename "int" [])]),
    .mk (some (.numbered 0 1)) (.keyed (.bareword "c") true [.simple (.typename "tstr" [])]),
    .mk (some (.numbered 1 18446744073709551615)) (.keyed (.bareword "c") true [.simple (.typename "y" [])])]])]⟩,
  ⟨"y", [], .assignType [.simple (.map [[.mk (some (.numbered 0 18446744073709551615))
    (.keyed (.type1 (.simple (.typename "int" []))) false [.simple (.typename "int" [])])]])]⟩]

theorem c63_array : SameSchema true c63Array c63Array' :=
  have int {s : String} : SameT true [.simple (.typename s [])] [.simple (.typename s [])] :=
    .options (.cons (.simple (.typename (.inl rfl) .nil)) .nil)
  .cons (.type _ _ (.options (.cons (.simple (.array (.cons (.cons
    (.same _ (.noKey _ rfl (.bareword _) (.text _) int (.prelude (n := .prelude .int) (by simp [preludeTable]))))
    (.cons (.limits _ _ rfl rfl (.newKey _ _ rfl (.bareword _) (.text _) (.bareword _) (.text _) int))
    (.cons (.limits _ _ rfl rfl (.keyed _ _ (.literal (.bareword _) (.bareword _)) int)) (.nil _)))) (.nil _)))) .nil)))
  (.cons (.type _ _ (.options (.cons (.simple (.map (.cons (.cons (.limits _ _ rfl rfl
    (.keyed _ _ (.type1 (.simple (.typename (.inl rfl) .nil))) int)) (.nil _)) (.nil _)))) .nil))) .nil)

/-- The verdicts of the one text are those of the other. -/
example (l : Libs) (hl : l.parse = asciiExt) (json : String) (cbor : List UInt8) :
    SameVerdict (validateJsonStr l "x" "x = [a: int, ? b: tstr, + c: y] y = {* int => int}" json)
      (validateJsonStr l "x" "x = [int, 0*1 c: tstr, 1* c: y] y = {0* int => int}" json) ∧
    SameVerdict (validateCborBytes l "x" "x = [a: int, ? b: tstr, + c: y] y = {* int => int}" cbor)
      (validateCborBytes l "x" "x = [int, 0*1 c: tstr, 1* c: y] y = {0* int => int}" cbor) := by
  have h1 : parseCddl l.parse "x = [a: int, ? b: tstr, + c: y] y = {* int => int}" = .ok c63Array := by
    rw [hl]; set_option maxRecDepth 100000 in rfl
  have h2 : parseCddl l.parse "x = [int, 0*1 c: tstr, 1* c: y] y = {0* int => int}" = .ok c63Array' := by
    rw [hl]; set_option maxRecDepth 100000 in rfl
  exact ⟨C63_json l c63_array h1 h2 _ _, C63_cbor l c63_array h1 h2 _ _⟩

/-- Libraries for the next examples: every JSON text is the array `[7]`. -/
def c63Libs : Libs := { demoLibs with jsonDecode := fun _ => .ok (.array [.number (.posInt 7)]) }

/-- Only the text of mismatches differs. -/
example :
    validateJsonStr c63Libs "x" "x = [+ tstr]" "" = .err (.mismatch "more array element [+ Tstr]") ∧
    validateJsonStr c63Libs "x" "x = [1* tstr]" "" = .err (.mismatch "more array element [1*18446744073709551615 Tstr]") := by
  exact ⟨validateJsonStr_of_fuel (k := 60) (by decide +kernel) (by simp), validateJsonStr_of_fuel (k := 60) (by decide +kernel) (by simp)⟩

/-- Parentheses at the end of a range are not redundant. -/
example :
    validateJsonStr c63Libs "x" "x = [1..9]" "" = .ok () ∧
    validateJsonStr c63Libs "x" "x = [1..(9)]" "" = .err (.structural "bad type on range operator") := by
  exact ⟨validateJsonStr_of_fuel (k := 60) (by decide +kernel) (by simp), validateJsonStr_of_fuel (k := 60) (by decide +kernel) (by simp)⟩

end Cddl
