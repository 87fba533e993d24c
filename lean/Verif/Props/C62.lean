import Verif.Proofs.Blame

/-!
# C62: errors of the parser quote the text
-/

namespace Cddl

/-- C62.  When a text cannot be parsed, the error is a parse error, and either it quotes all of the text from the place
where reading got stuck — behind some rules, where a rule needs a name, where the first rule needs its `=`, or somewhere
behind that — or there is a literal in the text that cannot be represented, or a key with generic arguments before `:`,
and the error says which.  (The line ending of a final comment may be missing.) -/
theorem C62_blame {x : ParseExt} {s : String} {err : Err} (h : parseCddl x s = .err err) : ∃ e, err = .parseError e ∧
    ((∃ pre post, e = ⟨.unparseable, String.ofList post⟩ ∧ s.toList = pre ++ post ∧
        (Stuck x pre post ∨ (post = [] ∧ Stuck x (pre ++ ['\n']) post))) ∨
      ∃ pre t post, s.toList = pre ++ t ++ post ∧ BadToken x t e) := by
  obtain ⟨e, rfl, ⟨t, rfl, pre, h1, h2⟩ | ⟨t, ⟨pre, post, h1⟩, h2⟩⟩ := parse_blame h
  · exact ⟨_, rfl, .inl ⟨pre, t, rfl, h1, h2⟩⟩
  · exact ⟨_, rfl, .inr ⟨pre, t, post, h1.symm, h2⟩⟩

/-- C62.  The same for the variant of the parser that keeps the texts of the rules. -/
theorem C62_slice {x : ParseExt} {s : String} {err : Err} : sliceParseCddl x s = .err err ↔ parseCddl x s = .err err := by
  unfold sliceParseCddl parseCddl
  rw [← cddlSlice_map]
  cases allConsuming (cddlSlice x) s.toList <;> simp [PR.map, PR.toRes]

theorem NumeralText.infix {s ds : List Char} {n : Nat} (h : NumeralText s ds n) : ds <:+: s := by
  cases h with
  | dec => exact List.infix_refl _
  | hex => exact ⟨['0', 'x'], [], by simp⟩
  | bin => exact ⟨['0', 'b'], [], by simp⟩

/-- C62.  As documented, an error of the parser holds a piece of the text — with two exceptions: blanks are left out of
what is quoted of a string of hexadecimal digits, and for a key with generic arguments nothing is quoted. -/
theorem C62_snippet {x : ParseExt} {s : String} {e : ParseError} (h : parseCddl x s = .err (.parseError e)) :
    (∃ pre post, s.toList = pre ++ e.ctx.toList ++ post) ∨
    (e.kind = .malformedHex ∧ ∃ pre t post, s.toList = pre ++ t ++ post ∧ e.ctx.toList = t.filter fun c => ¬ HexBlank c) ∨
    e = ⟨.unparseable, "Bareword with generic arguments"⟩ := by
  obtain ⟨e', he, hb⟩ := C62_blame h
  cases he
  rcases hb with ⟨pre, post, rfl, h1, -⟩ | ⟨pre, t, post, h1, h2⟩
  · exact .inl ⟨pre, [], by simpa using h1⟩
  have lift : ∀ {u : List Char}, u <:+: t → ∃ pre post, s.toList = pre ++ u ++ post := by
    rintro u ⟨a, b, rfl⟩
    exact ⟨pre ++ a, b ++ post, by simpa using h1⟩
  cases h2 with
  | uint hn _ => exact .inl (by simpa using lift hn.infix)
  | nint hn _ => exact .inl (by simpa using lift (hn.infix.trans ⟨['-'], [], by simp⟩))
  | float => exact .inl (by simpa using lift (List.infix_refl _))
  | text => rename_i u _ _; exact .inl (by simpa using lift (u := u) ⟨['"'], ['"'], by simp⟩)
  | bytes => rename_i u _ _; exact .inl (by simpa using lift (u := u) ⟨['\''], ['\''], by simp⟩)
  | hex => rename_i u _ _; exact .inr (.inl ⟨rfl, pre ++ ['h', '\''], u, ['\''] ++ post, by simpa using h1, by simp⟩)
  | base64 => rename_i u _ _; exact .inl (by simpa using lift (u := u) ⟨['b', '6', '4', '\''], ['\''], by simp⟩)
  | generic => exact .inr (.inr rfl)

/-- The error of a text that is not parsed. -/
def parseErrorOf (x : ParseExt) (s : String) : Option ParseError :=
  match parseCddl x s with
  | .err (.parseError e) => some e
  | _ => none

theorem parseErrorOf_some {x : ParseExt} {s : String} {e : ParseError} (h : parseErrorOf x s = some e) :
    parseCddl x s = .err (.parseError e) := by
  unfold parseErrorOf at h
  split at h
  · rename_i h'; cases h; exact h'
  · cases h

/-- C62, refuted: that every error of the parser holds a piece of the text. -/
theorem C62_snippet_refuted : ¬ ∀ (x : ParseExt) (s : String) (e : ParseError),
    parseCddl x s = .err (.parseError e) → ∃ pre post, s.toList = pre ++ e.ctx.toList ++ post := by
  intro h
  obtain ⟨pre, post, h⟩ := h demoExt "x = h'0 1 2'" _
    (parseErrorOf_some (e := ⟨.malformedHex, "012"⟩) (by decide +kernel))
  have : ['0', '1', '2'] <:+: "x = h'0 1 2'".toList := ⟨pre, post, h.symm⟩
  revert this
  decide +kernel

/-! Concrete texts: literals, names, `=`, the body of the first rule, a later rule.  In the second group a number that is too
large is reported in an array, but lost behind a key or in a choice; there the error is about the map or array as a whole. -/

example : parseErrorOf demoExt "x = -9223372036854775809" = some ⟨.malformedInteger, "9223372036854775809"⟩ ∧
    parseErrorOf demoExt "x = 0x1ffffffffffffffffffff" = some ⟨.malformedInteger, "1ffffffffffffffffffff"⟩ ∧
    parseErrorOf demoExt "x = 1.5" = some ⟨.malformedFloat, "1.5"⟩ := by decide +kernel

example : parseErrorOf demoExt "x = h'0 1 2'" = some ⟨.malformedHex, "012"⟩ ∧
    parseErrorOf demoExt "x = b64'AQ=='" = some ⟨.malformedBase64, "AQ=="⟩ ∧
    parseErrorOf demoExt "x = { a<int>: 1 }" = some ⟨.unparseable, "Bareword with generic arguments"⟩ := by decide +kernel

example : parseErrorOf demoExt " 1 = 2" = some ⟨.unparseable, "1 = 2"⟩ ∧
    parseErrorOf demoExt "x < y = 1" = some ⟨.unparseable, "< y = 1"⟩ ∧
    parseErrorOf demoExt "x = ? ( 1 ! )" = some ⟨.unparseable, "! )"⟩ := by decide +kernel

example : parseErrorOf demoExt "x = 1 y = [ 1 ! ] z = 3" = some ⟨.unparseable, "y = [ 1 ! ] z = 3"⟩ ∧
    parseErrorOf demoExt "; nothing" = some ⟨.unparseable, ""⟩ := by decide +kernel

example : parseErrorOf demoExt "x = [ 99999999999999999999 ]" = some ⟨.malformedInteger, "99999999999999999999"⟩ ∧
    parseErrorOf demoExt "x = [ 1 / 99999999999999999999 ]" =
      some ⟨.unparseable, "[ 1 / 99999999999999999999 ]"⟩ ∧
    parseErrorOf demoExt "x = { 1 => 99999999999999999999 }" =
      some ⟨.unparseable, "{ 1 => 99999999999999999999 }"⟩ := by decide +kernel

end Cddl
