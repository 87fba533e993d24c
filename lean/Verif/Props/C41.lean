import Verif.Proofs.ParseRunAll
import Verif.Proofs.ParseSlice
import Verif.Proofs.Malformed

/-! # C41  Integer literals -/

namespace Cddl

/-- What an integer literal of the given sign and magnitude is read as. -/
def intLiteral (neg : Bool) (n : Nat) : Option Ast.Value :=
  if neg then if n < 2 ^ 63 then some (.nint (-(n : Int))) else none
  else if n < 2 ^ 64 then some (.uint n) else none

/-- C41.  A decimal, hexadecimal or binary literal, with or without a minus sign, is read as its mathematical value,
or is reported as malformed if that does not fit. -/
theorem C41_literal {x : ParseExt} {u r : List Char} {n : Nat} (neg : Bool) (hu : UintText u n) (hr : AfterNumber r) :
    match intLiteral neg n with
    | some v => value x ((if neg then ['-'] else []) ++ u ++ r) = .ok r v
    | none => ∃ m, value x ((if neg then ['-'] else []) ++ u ++ r) = .fail ⟨.malformedInteger, m⟩ := by
  obtain ⟨raw, h1, h2, h3⟩ := floatOrInt_int x (sg := if neg then ['-'] else []) (by cases neg <;> simp) hu hr
  have hneg : raw.neg = neg := by rw [h2]; cases neg <;> rfl
  have hv : ∀ {y : PR Ast.Value}, floatOrInt x ((if neg then ['-'] else []) ++ u ++ r) = y → (∀ e, y ≠ .err e) →
      value x ((if neg then ['-'] else []) ++ u ++ r) = y := by
    intro y h hne
    unfold value alt
    rw [h]
    cases y with
    | err e => exact absurd rfl (hne e)
    | _ => rfl
  unfold parseInt at h1
  rw [h3, hneg] at h1
  unfold intLiteral
  cases neg with
  | false =>
    by_cases h : n < 18446744073709551616
    · rw [if_pos h] at h1
      rw [if_neg (by decide), if_pos (by simpa using h)]
      exact hv h1 (by simp)
    · rw [if_neg h] at h1
      rw [if_neg (by decide), if_neg (by simpa using h)]
      exact ⟨_, hv h1 (by simp)⟩
  | true =>
    rw [if_pos rfl]
    by_cases h : n < 9223372036854775808
    · rw [if_pos (show n < 18446744073709551616 by omega)] at h1
      simp only [if_true, h] at h1
      rw [if_pos (by simpa using h)]
      exact hv h1 (by simp)
    · rw [if_neg (by simpa using h)]
      by_cases h' : n < 18446744073709551616
      · rw [if_pos h'] at h1
        dsimp only at h1
        rw [if_pos rfl, if_neg h] at h1
        exact ⟨_, hv h1 (by simp)⟩
      · rw [if_neg h'] at h1
        exact ⟨_, hv h1 (by simp)⟩

/-- C41.  A rule that is an integer literal: the whole text parses to the value of the literal. -/
theorem C41_rule {x : ParseExt} {name w w' u : List Char} {n : Nat} (neg : Bool) {v : Ast.Value} (hn : Ident name)
    (hw : WS w) (hw' : WS w') (hu : UintText u n) (hv : intLiteral neg n = some v) :
    parseCddl x (String.ofList (name ++ w ++ '=' :: w' ++ ((if neg then ['-'] else []) ++ u))) =
      .ok [⟨String.ofList name, [], .assignType [.simple (.value v)]⟩] := by
  have hval : ValueText x true ((if neg then ['-'] else []) ++ u) v := by
    unfold intLiteral at hv
    cases neg with
    | false =>
      rw [if_neg (by decide)] at hv
      split at hv
      · rename_i h; cases hv; exact .uint hu h
      · cases hv
    | true =>
      rw [if_pos rfl] at hv
      split at hv
      · rename_i h; cases hv; exact .nint hu h
      · cases hv
  refine parseCddl_run (x := x) ?_
  have hafter : AfterRuleVal (.assignType [.simple (.value v)]) [] := by
    intro t ht
    cases ht
    unfold intLiteral at hv
    cases v <;> trivial
  have := GCddl.mk (w := []) .nil (GRules.one (GRule.mk hn .none hw hw' (.type (.one (.simple (.value hval))))) .nil
    fun _ => hafter)
  simpa using this

/-- C41.  A text that is read without trouble up to an integer literal that does not fit is reported as
`MalformedInteger` with its digits, whatever stands behind the literal: be it in the first rule or a later one, in any alternative, in
parentheses, arrays, maps and generic arguments, as the argument of an operator, in the key of an entry, or as a bound
of an occurrence.  Missing is what `MalEntries` leaves out: the value behind a key, and alternatives behind the first
one of an entry without key. -/
theorem C41_too_large_partial {x : ParseExt} {w s : List Char} {m : String} (hw : WS w)
    (h : MalRules x ⟨.malformedInteger, m⟩ s) :
    parseCddl x (String.ofList (w ++ s)) = .err (.parseError ⟨.malformedInteger, m⟩) := h.parse hw

/-- C41.  In particular a rule that begins with such a literal. -/
theorem C41_too_large_rule {x : ParseExt} {name w w' u r : List Char} {n : Nat} (neg : Bool) (hn : Ident name)
    (hw : WS w) (hw' : WS w') (hu : UintText u n) (hr : AfterNumber r) (hv : intLiteral neg n = none) :
    ∃ m, parseCddl x (String.ofList (name ++ w ++ '=' :: w' ++ ((if neg then ['-'] else []) ++ u ++ r))) =
      .err (.parseError ⟨.malformedInteger, m⟩) := by
  obtain ⟨ds, hd⟩ := hu.numeral
  have hl : MalLiteral x ⟨.malformedInteger, String.ofList ds⟩ ((if neg then ['-'] else []) ++ u) r := by
    unfold intLiteral at hv
    cases neg with
    | false => exact .uint hd (Nat.le_of_not_lt fun h => by rw [if_neg (by decide), if_pos h] at hv; cases hv) hr
    | true => exact .nint hd (Nat.le_of_not_lt fun h => by rw [if_pos rfl, if_pos h] at hv; cases hv) hr
  have := C41_too_large_partial (x := x) (w := []) .nil (.here hn .none hw hw' (.here (.here (.literal hl))))
  exact ⟨_, by simpa using this⟩

/-- `2 ^ 64`, written down. -/
theorem tooLarge_text : UintText "18446744073709551616".toList (2 ^ 64) :=
  .dec (c := '1') (ds := "8446744073709551616".toList) (by unfold Digit; decide) (by decide) (by unfold Digit; decide)

theorem tooLarge_numeral : NumeralText "18446744073709551616".toList "18446744073709551616".toList (2 ^ 64) :=
  .dec tooLarge_text (by unfold Digit; decide)

/-- C41 is false as stated: a literal that does not fit is not always reported as `MalformedInteger`.  In the value of
a map entry the error is swallowed and the text is reported as unparseable at the bracket
(/repo/src/parser/mod.rs:651-657). -/
theorem C41_refuted : ¬ ∀ (x : ParseExt) (u : List Char) (n : Nat), UintText u n → 2 ^ 64 ≤ n →
    ∃ m, parseCddl x (String.ofList ("x = {a: ".toList ++ u ++ "}".toList)) = .err (.parseError ⟨.malformedInteger, m⟩) := by
  intro h
  obtain ⟨m, hm⟩ := h demoExt _ _ tooLarge_text (Nat.le_refl _)
  have : parseCddl demoExt (String.ofList ("x = {a: ".toList ++ "18446744073709551616".toList ++ "}".toList)) =
      .err (.parseError ⟨.unparseable, "{a: 18446744073709551616}"⟩) := by
    rw [show "x = {a: ".toList ++ "18446744073709551616".toList ++ "}".toList = "x = {a: 18446744073709551616}".toList from rfl,
      String.ofList_toList]
    rfl
  rw [this] at hm
  cases hm

/-- C41 is false as stated also behind the first alternative of an entry without key
(/repo/src/parser/mod.rs:690-702). -/
theorem C41_alternative_refuted : ¬ ∀ (x : ParseExt) (u : List Char) (n : Nat), UintText u n → 2 ^ 64 ≤ n →
    ∃ m, parseCddl x (String.ofList ("x = [1 / ".toList ++ u ++ "]".toList)) = .err (.parseError ⟨.malformedInteger, m⟩) := by
  intro h
  obtain ⟨m, hm⟩ := h demoExt _ _ tooLarge_text (Nat.le_refl _)
  have : parseCddl demoExt (String.ofList ("x = [1 / ".toList ++ "18446744073709551616".toList ++ "]".toList)) =
      .err (.parseError ⟨.unparseable, "[1 / 18446744073709551616]"⟩) := by
    rw [show "x = [1 / ".toList ++ "18446744073709551616".toList ++ "]".toList = "x = [1 / 18446744073709551616]".toList from rfl,
      String.ofList_toList]
    rfl
  rw [this] at hm
  cases hm

set_option maxRecDepth 100000 in
example : parseCddl demoExt "x = 0xffffffffffffffff" = .ok [⟨"x", [], .assignType [.simple (.value (.uint (2 ^ 64 - 1)))]⟩] ∧
    parseCddl demoExt "x = -9223372036854775807" = .ok [⟨"x", [], .assignType [.simple (.value (.nint (-9223372036854775807)))]⟩] ∧
    parseCddl demoExt "x = -9223372036854775808" = .err (.parseError ⟨.malformedInteger, "9223372036854775808"⟩) ∧
    parseCddl demoExt "x = 0x10000000000000000" = .err (.parseError ⟨.malformedInteger, "10000000000000000"⟩) := by
  refine ⟨?_, ?_, ?_, ?_⟩ <;> rfl

/-- In a later rule, in an alternative, in an array in a map, behind an entry: `a = b c = 1 / {[b, 18446744073709551616 ?`
is reported as `MalformedInteger`. -/
example : parseCddl demoExt "a=b c=1/{[b,18446744073709551616 ?" =
    .err (.parseError ⟨.malformedInteger, "18446744073709551616"⟩) := by
  have hb : ∀ {c : Char}, EAlpha c → Ident [c] := fun h => .mk h .nil
  have ha : Ident ['a'] := hb (by unfold EAlpha; decide)
  have hb' : Ident ['b'] := hb (by unfold EAlpha; decide)
  have hc : Ident ['c'] := hb (by unfold EAlpha; decide)
  have h1 : UintText ['1'] 1 := .dec (c := '1') (ds := []) (by unfold Digit; decide) (by decide) (by simp)
  have hin : MalEntries demoExt ⟨.malformedInteger, "18446744073709551616"⟩ "b,18446744073709551616 ?".toList :=
    .later (s := ['b']) (o := none) (v := .member [.simple (.typename "b" [])]) (c := [','])
      (.plain (.member (w := []) (.one (.simple (.name (.plain hb')))) .nil fun _ => rfl)) (.some (w := []) (w' := []) .nil .nil)
      (by simp [AfterVal, AfterTy, AfterTy1, AfterTy2, AfterIdent, NotHead, EAlpha, Digit])
      (.here (.here (.literal (.uint (r := [' ', '?']) tooLarge_numeral (by decide)
        (by simp [AfterNumber, NotHead, EAlpha, Digit])))) (by simp))
  have hty : MalTy demoExt ⟨.malformedInteger, "18446744073709551616"⟩ "1/{[b,18446744073709551616 ?".toList :=
    .later (s := ['1']) (w := []) (w' := []) (.simple (.value (.uint h1 (by decide)))) .nil .nil
      (.here (.here (.map (w := []) .nil (.here (.here (.here (.array (w := []) .nil (.here hin))) (by simp))))))
  have hr : MalRules demoExt ⟨.malformedInteger, "18446744073709551616"⟩ "a=b c=1/{[b,18446744073709551616 ?".toList :=
    .later (s := "a=b".toList) (w := [' ']) (q := ⟨"a", [], .assignType [.simple (.typename "b" [])]⟩)
      (.mk (n := ['a']) (ps := []) (w := []) (w' := []) ha .none .nil .nil (.type (.one (.simple (.name (.plain hb'))))))
      (.blank (.inl rfl) .nil)
      (by simp [AfterRuleVal, AfterTy, AfterTy1, AfterTy2, AfterIdent, NotHead, EAlpha, Digit])
      (.here (n := ['c']) (ps := []) (w := []) (w' := []) hc .none .nil .nil hty)
  have := C41_too_large_partial (w := []) .nil hr
  simpa using this

end Cddl
