import Verif.Proofs.FlattenError
import Verif.Proofs.TextError
import Verif.Props.C44
import Verif.Props.C47
import Verif.Props.C58

/-! # C60  Errors of translation name the first part of the schema that is at fault -/

namespace Cddl

/-- C60.  A rule is refused exactly with the errors of Spec/SyntaxError. -/
theorem C60_rule (re : String → Bool) (r : Ast.Rule) (e : Err) : flattenRule re r = .err e ↔ BadRule re r e :=
  flattenRule_err_iff

/-- C60.  A schema is refused with the error of the first rule that is at fault. -/
theorem C60_schema (re : String → Bool) (l : Ast.Cddl) (e : Err) :
    flatten re l = .err e ↔
      ∃ pre r post, l = pre ++ r :: post ∧ (∀ q ∈ pre, ∃ p, FlatRule re q p) ∧ BadRule re r e :=
  flatten_err_iff

/-- C60.  At most one thing is wrong with a rule, and only if it stands for nothing; and a rule that stands for nothing has
something wrong with it. -/
theorem C60_exclusive (re : String → Bool) (r : Ast.Rule) :
    ((∃ p, FlatRule re r p) ∨ ∃ e, BadRule re r e) ∧ (∀ p e, FlatRule re r p → ¬ BadRule re r e) ∧
      ∀ e e', BadRule re r e → BadRule re r e' → e = e' := by
  refine ⟨?_, ?_, ?_⟩
  · cases h : flattenRule re r with
    | ok p => exact .inl ⟨p, flattenRule_iff.mp h⟩
    | err e => exact .inr ⟨e, flattenRule_err_iff.mp h⟩
    | panic => exact absurd h (flattenRule_returns r).1
    | fuel => exact absurd h (flattenRule_returns r).2
  · intro p e h1 h2
    have := flattenRule_err_iff.mpr h2
    rw [flattenRule_iff.mpr h1] at this
    cases this
  · intro e e' h1 h2
    have := flattenRule_err_iff.mpr h1
    rw [flattenRule_err_iff.mpr h2] at this
    cases this
    rfl

/-- C60.  From the text: a text that does not parse is refused by the parser, any other with the error of its first rule that
is at fault. -/
theorem C60_text (l : Libs) (cddl : String) (e : Err) :
    flattenFromStr l cddl = .err e ↔
      parseCddl l.parse cddl = .err e ∨
      ∃ pre r post, parseCddl l.parse cddl = .ok (pre ++ r :: post) ∧ (∀ q ∈ pre, ∃ p, FlatRule l.regexOk q p) ∧
        BadRule l.regexOk r e := by
  unfold flattenFromStr
  rw [Res.bind_eq_err]
  constructor
  · rintro (h | ⟨t, h, h'⟩)
    · exact .inl h
    · obtain ⟨pre, r, post, rfl, h1, h2⟩ := flatten_err_iff.mp h'
      exact .inr ⟨pre, r, post, h, h1, h2⟩
  · rintro (h | ⟨pre, r, post, h, h1, h2⟩)
    · exact .inl h
    · exact .inr ⟨_, h, flatten_err_iff.mpr ⟨pre, r, post, rfl, h1, h2⟩⟩

/-- C60.  The errors that the text of a schema can be refused with: a parse error or one of those listed in `TextError`.  So
types without options and integers beyond the range of the crate, which trees built by a program may have, do not come from
texts. -/
theorem C60_kinds (l : Libs) (cddl : String) (e : Err) (h : flattenFromStr l cddl = .err e) :
    (∃ p, e = .parseError p) ∨ TextError e := by
  rcases (C60_text l cddl e).mp h with h | ⟨pre, r, post, h, -, hb⟩
  · rcases C39_returns l.parse cddl with ⟨c, hc⟩ | ⟨p, hp⟩
    · rw [hc] at h; cases h
    · rw [hp] at h; cases h; exact .inl ⟨p, rfl⟩
  · right
    rcases C47_sound h with hg | hg
    · exact hg.err (by simp) hb
    · exact hg.err (by simp) hb

/-- C60.  Such errors come before the name of the rule and the data are looked at. -/
theorem C60_answer (l : Libs) (cddl name json : String) (cbor : List UInt8) (e : Err)
    (h : flattenFromStr l cddl = .err e) :
    validateJsonStr l name cddl json = .err e ∧ validateCborBytes l name cddl cbor = .err e := by
  constructor
  · unfold validateJsonStr findRule; rw [h]; rfl
  · unfold validateCborBytes findRule; rw [h]; rfl

/-! ## Examples -/

/-- `x = [* int] y = {a: foo<time>, b: ~int}`: the second rule is at fault, and its first fault is the argument. -/
example (re : String → Bool) : flatten re
    [⟨"x", [], .assignType [.simple (.array [[.mk (some .zeroOrMore) (.member [.simple (.typename "int" [])])]])]⟩,
     ⟨"y", [], .assignType [.simple (.map [[
        .mk none (.keyed (.bareword "a") true [.simple (.typename "foo" [.simple (.typename "time" [])])]),
        .mk none (.keyed (.bareword "b") true [.simple (.unwrap "int" [])])]])]⟩] =
      .err (.unsupported "prelude type 'time'") := by
  refine (C60_schema re _ _).mpr ⟨[_], _, [], rfl, ?_, .type (.head (.simple (.map (.head (.head
    (.keyed (.bareword _) (.head (.simple (.args (by decide) (.head (.simple (.name (.mk (by decide)))))))))))))) ⟩
  simp only [List.mem_singleton, forall_eq]
  exact ⟨_, .type (.cons (.simple (.array (.one (.cons (.mk (.member (.cons (.simple (.preludeName (n := .prelude .int)
    (by simp [preludeTable]))) .nil) (.one _)) (.some _ _)) .nil)))) .nil) (.one _)⟩

/-- The error that a text is refused with. -/
def c60Error (cddl : String) : Option Err :=
  match flattenFromStr c58Libs cddl with
  | .err e => some e
  | _ => none

/-- Every error of the list comes from some text. -/
example :
    c60Error "x = ~int" = some .genericError ∧
    c60Error "x = int<y>" = some .genericError ∧
    c60Error "x = &time" = some .genericError ∧
    c60Error "x = [y: bigint]" = some (.unsupported "prelude type 'bigint'") ∧
    c60Error "x = ~int .le time" = some .genericError ∧
    c60Error "x = ~int .within time" = some (.unsupported "control operator") := by
  decide +kernel

example :
    c60Error "x = int .lt \"a\"" = some (.unsupported ".lt limit type") ∧
    c60Error "x = int .le (1..2)" = some (.unsupported ".le limit type") ∧
    c60Error "x = bstr .size tstr" = some (.unsupported ".size limit type") := by
  decide +kernel

example :
    c60Error "x = int .regexp int" = some (.structural "bad regexp target type") ∧
    c60Error "x = tstr .regexp int" = some (.structural "improper regexp type") ∧
    c60Error "x = tstr .regexp \"(\"" = some (.structural "malformed regexp") ∧
    c60Error "x = tstr .cbor int" = some (.structural "bad .cbor target type") ∧
    c60Error "x = 1..int" = some (.structural "bad type on range operator") ∧
    c60Error "x = 1..(2)" = some (.structural "bad type on range operator") := by
  decide +kernel

/-- The other two, from trees. -/
example (re : String → Bool) :
    flattenRule re ⟨"x", [], .assignType []⟩ = .err (.unsupported "flatten type with 0 options") ∧
    flattenRule re ⟨"x", [], .assignType [.simple (.value (.uint (2 ^ 127)))]⟩ =
      .err (.structural ("integer conversion failed: " ++ toString ((2 ^ 127 : Nat) : Int))) :=
  ⟨(C60_rule _ _ _).mpr .empty, (C60_rule _ _ _).mpr (.type (.head (.simple (.value (.uint _ (by decide))))))⟩

end Cddl
