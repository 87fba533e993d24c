import Verif.Proofs.FlatErr
import Verif.Proofs.FlatTable
import Verif.Proofs.ParseFull
import Verif.Props.C47

/-! # C35  Flattening never panics and yields well-formed trees -/

namespace Cddl

/-- C35.  Flattening any syntax tree gives a table or an error; no panic. -/
theorem C35_no_panic (re : String → Bool) (cddl : Ast.Cddl) :
    (∃ t, flatten re cddl = .ok t) ∨ ∃ e, flatten re cddl = .err e := flatten_outcome cddl

/-- C35.  If every group written in the rules has at least one group choice (the parser produces no other,
`C35_parsed_full`), each flattened rule is a well-formed entry: occurrences do not nest and wrap only entries,
choices have two or more options, group choices stand alone as the only member, ranges end in literals or
names, control operators have an argument of a permitted kind, `~` and `&` apply to names the author can
define, and every regular expression compiled. -/
theorem C35_well_formed {re : String → Bool} {cddl : Ast.Cddl} {t : RuleTable} (h : flatten re cddl = .ok t)
    (hf : ∀ r ∈ cddl, r.full) : ∀ p ∈ t, EntryTree re p.2.node := by
  intro p hp
  obtain ⟨r, hr, hfl⟩ := (flatten_iff.mp h).mem_right hp
  have := hf r hr
  cases hfl with
  | type h ho =>
    exact .bare (.type (oneOf_tree (flat1s_tree h (by simpa [Ast.Rule.full] using this)) ho))
  | group h => exact flatEntry_tree h (by simpa [Ast.Rule.full] using this)

/-- C35.  A rule assigned a type (not a group entry) flattens to a type. -/
theorem C35_type_rule {re : String → Bool} {r : Ast.Rule} {ty : Ast.Ty} {p : String × RuleDef}
    (h : flattenRule re r = .ok p) (hv : r.val = .assignType ty) (hf : r.full) : TypeTree re p.2.node := by
  have := flattenRule_iff.mp h
  cases this with
  | type h' ho => exact oneOf_tree (flat1s_tree h' (by simpa [Ast.Rule.full] using hf)) ho
  | group h => cases hv

/-- C35.  In a parsed schema every group has at least one group choice. -/
theorem C35_parsed_full {x : ParseExt} {s : String} {cddl : Ast.Cddl} (h : parseCddl x s = .ok cddl) :
    ∀ r ∈ cddl, r.full := by
  rcases C47_sound h with h | h <;> exact h.full

/-- C35.  So every rule of a schema text that flattens is a well-formed entry. -/
theorem C35_from_text {x : ParseExt} {re : String → Bool} {s : String} {cddl : Ast.Cddl} {t : RuleTable}
    (hp : parseCddl x s = .ok cddl) (h : flatten re cddl = .ok t) : ∀ p ∈ t, EntryTree re p.2.node :=
  C35_well_formed h (C35_parsed_full hp)

/-- C35.  When flattening fails the error is about the schema: something that makes no sense, that is not
supported, or a misused generic; never a data error, a missing rule or a syntax error. -/
theorem C35_errors {re : String → Bool} {cddl : Ast.Cddl} {e : Err} (h : flatten re cddl = .err e) :
    (∃ m, e = .structural m) ∨ (∃ m, e = .unsupported m) ∨ e = .genericError := by
  cases flatten_err h with
  | structural m => exact .inl ⟨m, rfl⟩
  | unsupported m => exact .inr (.inl ⟨m, rfl⟩)
  | generic => exact .inr (.inr rfl)

/-- The hypothesis is needed: a group with no group choice (which no schema text gives) flattens to a choice
without options. -/
theorem C35_needs_full : flatten (fun _ => true) [⟨"x", [], .assignType [.simple (.map [])]⟩] =
    .ok [("x", ⟨[], .map [.choice []]⟩)] := by rfl

/-- `x<a> = { ? "k" ^ => a .size (1..3) // * tstr => any }`; `y = ( int )` as a group entry. -/
def demoCddl : Ast.Cddl :=
  [⟨"x", ["a"], .assignType [.simple (.map
      [[.mk (some .optional) (.keyed (.type1 (.simple (.value (.text "k")))) true
          [.control (.typename "a" []) (.parens [.range (.value (.uint 1)) (.value (.uint 3)) true]) "size"])],
       [.mk (some .zeroOrMore) (.keyed (.type1 (.simple (.typename "tstr" []))) false
          [.simple (.typename "any" [])])]])]⟩,
   ⟨"y", [], .assignGroup (.mk (some .zeroOrMore) (.member [.simple (.typename "int" [])]))⟩]

example : (∀ r ∈ demoCddl, r.full) ∧ flatten (fun _ => true) demoCddl = .ok
    [("x", ⟨["a"], .map [.choice
        [.group [.occur .optional (.keyValue (.literal (.text "k"))
          (.ctl .size (.rule "a" []) (.range (.literal (.int 1)) (.literal (.int 3)) true)) true)],
         .group [.occur .zeroOrMore (.keyValue (.prelude .tstr) (.prelude .any) false)]]]⟩),
     ("y", ⟨[], .occur .zeroOrMore (.prelude .int)⟩)] := by
  refine ⟨?_, rfl⟩
  simp [demoCddl, Ast.Rule.full, Ast.full1s, Ast.full1, Ast.full2, Ast.fullGroup, Ast.fullEntries, Ast.fullEntry,
    Ast.fullEntryVal, Ast.fullKey]

/-- Errors are errors, not panics: an unknown operator, and no options. -/
example : flatten (fun _ => true) [⟨"x", [], .assignType [.control (.typename "int" []) (.value (.uint 1)) "foo"]⟩] =
      .err (.unsupported "control operator") ∧
    flatten (fun _ => true) [⟨"x", [], .assignType []⟩] = .err (.unsupported "flatten type with 0 options") := by
  exact ⟨rfl, rfl⟩

/-- A schema text that parses and flattens. -/
example : parseCddl demoExt "a = { b // ? c => [d] }" = .ok [⟨"a", [], .assignType [.simple (.map
      [[.mk none (.member [.simple (.typename "b" [])])], [.mk (some .optional)
        (.keyed (.type1 (.simple (.typename "c" []))) false [.simple (.array [[.mk none (.member
          [.simple (.typename "d" [])])]])])]])]⟩] := by
  set_option maxRecDepth 100000 in rfl

end Cddl
