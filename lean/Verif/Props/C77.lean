import Verif.Proofs.Alphabet
import Verif.Proofs.FlatOps
import Verif.Proofs.Same
import Verif.Props.C37
import Verif.Props.C42
import Verif.Props.C60

/-! # C77  What is not supported is refused, not misread -/

namespace Cddl

theorem parse_runs {x : ParseExt} {s : String} {t : Ast.Cddl} (h : parseCddl x s = .ok t) :
    ∃ r, Runs false (s.toList ++ r) false := by
  rcases C47_sound h with h | h
  · exact ⟨[], by rw [List.append_nil]; exact h.runs⟩
  · exact ⟨['\n'], h.runs⟩

/-- C77.  Outside of literals and comments, a text that is parsed has only the characters of CDDL, without `#`. -/
theorem C77_alphabet {x : ParseExt} {s : String} {t : Ast.Cddl} (h : parseCddl x s = .ok t) {a b : List Char} {c : Char}
    (hs : s.toList = a ++ c :: b) (ha : Outside a) : CodeChar c := by
  obtain ⟨r, hr⟩ := parse_runs h
  rw [hs, List.append_assoc, List.cons_append] at hr
  exact hr.codeChar ha

/-- C77.  So a text with any other character there is refused by the parser; in particular one with a tag. -/
theorem C77_refused {x : ParseExt} {s : String} {a b : List Char} {c : Char} (hs : s.toList = a ++ c :: b) (ha : Outside a)
    (hc : ¬ CodeChar c) : ∃ e, parseCddl x s = .err (.parseError e) := by
  rcases C39_returns x s with ⟨t, ht⟩ | h
  · exact absurd (C77_alphabet ht hs ha) hc
  · exact h

theorem C77_tag {x : ParseExt} {s : String} {a b : List Char} (hs : s.toList = a ++ '#' :: b) (ha : Outside a) :
    ∃ e, parseCddl x s = .err (.parseError e) := C77_refused hs ha (by decide)

/-- C77.  A text that extends a type or a group, with `/=` or `//=`, is refused by the parser, wherever this stands. -/
theorem C77_extend {x : ParseExt} {s : String} {a w b : List Char} (hs : s.toList = a ++ '/' :: (w ++ '=' :: b))
    (ha : Outside a) (hw : WS w) : ∃ e, parseCddl x s = .err (.parseError e) := by
  rcases C39_returns x s with ⟨t, ht⟩ | h
  · obtain ⟨r, hr⟩ := parse_runs ht
    rw [hs] at hr
    simp only [List.append_assoc, List.cons_append] at hr
    exact (hr.noExtend ha hw).elim
  · exact h

/-- C77.  A schema with a control operator other than the seven supported ones is refused, wherever the operator stands. -/
theorem C77_control {re : String → Bool} {cddl : Ast.Cddl} {r : Ast.Rule} (hr : r ∈ cddl) {op : String} (ho : op ∈ r.ops)
    (hs : op ∉ supportedOps) : ∃ e, flatten re cddl = .err e := by
  rcases flatten_outcome (re := re) cddl with ⟨t, h⟩ | h
  · obtain ⟨p, _, hf⟩ := (flatten_iff.mp h).mem_left hr
    exact absurd (hf.opsOK op ho) hs
  · exact h

/-- C77.  Where such an operator is the type of a rule, the error says so, whatever its target and argument are. -/
theorem C77_control_error (re : String → Bool) (name : String) (ps : List String) (target arg : Ast.Ty2) (op : String)
    (hs : op ∉ supportedOps) :
    flattenRule re ⟨name, ps, .assignType [.control target arg op]⟩ = .err (.unsupported "control operator") := by
  refine (C60_rule _ _ _).mpr (.type (.head (.operator ?_)))
  rintro (⟨c, rfl⟩ | rfl | rfl)
  · exact hs (by cases c <;> simp [supportedOps, CtlOp.text])
  · exact hs (by simp [supportedOps])
  · exact hs (by simp [supportedOps])

/-- C77.  In the first cases neither the data nor the name of the rule is looked at. -/
theorem C77_answer {l : Libs} {cddl : String} {e : ParseError} (h : parseCddl l.parse cddl = .err (.parseError e))
    (name json : String) (cbor : List UInt8) : validateJsonStr l name cddl json = .err (.parseError e) ∧
      validateCborBytes l name cddl cbor = .err (.parseError e) :=
  C60_answer l cddl name json cbor _ ((C60_text l cddl _).mpr (.inl h))

/-- C77.  The names of the prelude for tagged data are the exception: although listed as not supported
(/repo/src/lib.rs:118), they are read as the types of what the tags enclose, without the tags. -/
theorem C77_tags_dropped (re : String → Bool) : ∀ p ∈ taggedNames, flattenTy2 re (.typename p.1 []) = .ok (.prelude p.2) := by
  intro p hp
  refine C37_prelude ?_
  simp only [taggedNames, List.mem_cons, List.not_mem_nil, or_false] at hp
  rcases hp with rfl | rfl | rfl | rfl | rfl | rfl | rfl | rfl | rfl | rfl | rfl | rfl | rfl <;> simp [preludeTable]

/-- A text with all the punctuation. -/
def allSigns : String := "; c\nx<$a> = {? -1.5e+1 ^ => (&b / ~c), k: 'x', * 1 : [2*3 \"t\"]}"

/-- C77.  None of these characters is left out by mistake: each stands outside of literals and comments in some text that
is parsed. -/
theorem C77_exact (c : Char) : CodeChar c ↔
    ∃ s t a b, parseCddl asciiExt s = .ok t ∧ s.toList = a ++ c :: b ∧ Outside a := by
  constructor
  · rintro (h | h | h | h)
    · obtain ⟨t, ht⟩ : ∃ t, parseCddl asciiExt (String.ofList ("x=".toList ++ c :: ['1'])) = .ok t :=
        ⟨_, C42_layout (.mk (w := []) .nil (.one (w := []) (.mk (n := ['x']) (ps := []) (w := []) (w' := [c]) (s := ['1'])
          (.mk (.inl (by decide)) .nil) .none .nil (.blank h .nil)
          (.type (.one (.simple (.value (.uint (.dec (ds := []) (by unfold Digit; decide) (by decide) (by simp)) (by decide))))))) .nil (fun _ => by
            simp [AfterRuleVal, AfterTy, AfterTy1, AfterTy2, AfterNumber, NotHead])))⟩
      exact ⟨_, t, "x=".toList, ['1'], ht, by simp, by decide⟩
    · obtain ⟨t, ht⟩ : ∃ t, parseCddl asciiExt (String.ofList ([] ++ c :: "=1".toList)) = .ok t :=
        ⟨_, C42_layout (.mk (w := []) .nil (.one (w := []) (.mk (n := [c]) (ps := []) (w := []) (w' := []) (s := ['1'])
          (.mk h .nil) .none .nil .nil
          (.type (.one (.simple (.value (.uint (.dec (ds := []) (by unfold Digit; decide) (by decide) (by simp)) (by decide))))))) .nil (fun _ => by
            simp [AfterRuleVal, AfterTy, AfterTy1, AfterTy2, AfterNumber, NotHead])))⟩
      exact ⟨_, t, [], "=1".toList, ht, by simp, by decide⟩
    · obtain ⟨t, ht⟩ : ∃ t, parseCddl asciiExt (String.ofList (['x'] ++ c :: "=1".toList)) = .ok t :=
        ⟨_, C42_layout (.mk (w := []) .nil (.one (w := []) (.mk (n := ['x', c]) (ps := []) (w := []) (w' := []) (s := ['1'])
          (.mk (.inl (by decide)) (.cons (ps := []) (by simp) (.inr h) .nil)) .none .nil .nil
          (.type (.one (.simple (.value (.uint (.dec (ds := []) (by unfold Digit; decide) (by decide) (by simp)) (by decide))))))) .nil (fun _ => by
            simp [AfterRuleVal, AfterTy, AfterTy1, AfterTy2, AfterNumber, NotHead])))⟩
      exact ⟨_, t, ['x'], "=1".toList, ht, by simp, by decide⟩
    · have ht : (match parseCddl asciiExt allSigns with | .ok _ => true | _ => false) = true := by decide +kernel
      have hall : ∀ d ∈ ['-', '+', '.', '(', ')', '[', ']', '{', '}', '<', '>', ',', ':', '?', '*', '^', '&', '~', '/', '=', '"',
          '\'', ';'], (List.range allSigns.toList.length).any (fun i =>
            allSigns.toList[i]? == some d && decide (Outside (allSigns.toList.take i))) = true := by decide +kernel
      obtain ⟨i, hi, hd⟩ := List.any_eq_true.1 (hall c h)
      simp only [Bool.and_eq_true, beq_iff_eq, decide_eq_true_eq] at hd
      have hl : i < allSigns.toList.length := List.mem_range.1 hi
      have he : allSigns.toList = allSigns.toList.take i ++ c :: allSigns.toList.drop (i + 1) := by
        have : allSigns.toList[i] = c := by
          have := hd.1
          rw [List.getElem?_eq_getElem hl] at this
          exact Option.some.inj this
        rw [← this, ← List.drop_eq_getElem_cons hl, List.take_append_drop]
      split at ht
      · next t h1 => exact ⟨_, t, _, _, h1, he, hd.2⟩
      · cases ht
  · rintro ⟨s, t, a, b, h, hs, ha⟩
    exact C77_alphabet h hs ha

/-! ## Examples -/

/-- The characters of ASCII that are refused outside of literals and comments, besides the control characters. -/
example : (((List.range 128).drop 32).map Char.ofNat).filter (fun c => ¬ CodeChar c) =
    ['!', '#', '%', '\\', '`', '|', '\x7f'] := by decide +kernel

/-- A tag behind a comment and a literal that each have a `#`. -/
example (x : ParseExt) : ∃ e, parseCddl x "a = \"#\" ; #\n / #6.0(tstr)" = .err (.parseError e) :=
  C77_tag (a := "a = \"#\" ; #\n / ".toList) (b := "6.0(tstr)".toList) (by decide) (by decide)

/-- In the literal and in the comment it does no harm. -/
example : flattenFromStr c58Libs "a = \"#\" ; #\n / tstr" =
    .ok [("a", ⟨[], .choice [.literal (.text "#"), .prelude .tstr]⟩)] := flattenFromStr_same (by decide +kernel)

/-- A type extended later. -/
example (x : ParseExt) : ∃ e, parseCddl x "a = int b = [a] a /= tstr" = .err (.parseError e) :=
  C77_extend (a := "a = int b = [a] a ".toList) (w := []) (b := " tstr".toList) (by decide) (by decide) .nil

/-- A group socket that is filled, with white space in between. -/
example (x : ParseExt) : ∃ e, parseCddl x "a = {$$g} $$g // = (b: int)" = .err (.parseError e) :=
  C77_extend (a := "a = {$$g} $$g /".toList) (w := [' ']) (b := " (b: int)".toList) (by decide) (by decide)
    (.blank (.inl rfl) .nil)

/-- The slash before the last bracket of a group is followed by nothing, and the equals sign of an arrow follows no slash. -/
example : flattenFromStr c58Libs "a = [int // ]" =
    .ok [("a", ⟨[], .array [.choice [.group [.prelude .int], .group []]]⟩)] := flattenFromStr_same (by decide +kernel)

/-- An operator of the standard that is not supported, deep in a schema. -/
example (re : String → Bool) : ∃ e, flatten re [⟨"a", [], .assignType [.simple (.map [[.mk none (.keyed (.bareword "k") true
    [.simple (.array [[.mk none (.member [.control (.typename "uint" []) (.typename "flags" []) "bits"])]])])]])]⟩] = .err e :=
  C77_control (List.mem_singleton.2 rfl) (op := "bits")
    (by simp [Ast.Rule.ops, Ast.ops1s, Ast.ops1, Ast.ops2, Ast.opsGroup, Ast.opsEntries, Ast.opsEntry, Ast.opsEntryVal,
      Ast.opsKey]) (by decide)

example : c60Error "a = {k: [uint .bits flags]}" = some (.unsupported "control operator") := by decide +kernel

/-- A hexadecimal float, whether or not a number is made of its beginning. -/
example : (match parseCddl asciiExt "a = 0x1.921fb5p+1" with | .err (.parseError _) => true | _ => false) = true ∧
    (match parseCddl { asciiExt with parseF64 := fun _ => none } "a = 0x1.921fb5p+1" with
      | .err (.parseError _) => true | _ => false) = true := by decide +kernel

/-- Sockets are names like others. -/
example : flattenFromStr c58Libs "a = $x / [$$g]" =
    .ok [("a", ⟨[], .choice [.rule "$x" [], .array [.rule "$$g" []]]⟩)] := flattenFromStr_same (by decide +kernel)

end Cddl
