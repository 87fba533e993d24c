import Verif.Spec.Grammar

/-!
# What the parser may complain about

The literals a text can be refused for, and the places where reading a text can end.  Independent of the functions of
Model/Parse.
-/

namespace Cddl

/-- The digits of an unsigned number, and what is written in front of them. -/
inductive NumeralText : List Char → List Char → Nat → Prop
  | dec {ds n} : UintText ds n → (∀ d ∈ ds, Digit d) → NumeralText ds ds n
  | hex {ds n} : UintText ('0' :: 'x' :: ds) n → NumeralText ('0' :: 'x' :: ds) ds n
  | bin {ds n} : UintText ('0' :: 'b' :: ds) n → NumeralText ('0' :: 'b' :: ds) ds n

/-- A literal, or a key, that the crate cannot represent, and the error for it. -/
inductive BadToken (x : ParseExt) : List Char → ParseError → Prop
  | uint {s ds n} : NumeralText s ds n → 2 ^ 64 ≤ n → BadToken x s ⟨.malformedInteger, String.ofList ds⟩
  | nint {s ds n} : NumeralText s ds n → 2 ^ 63 ≤ n → BadToken x ('-' :: s) ⟨.malformedInteger, String.ofList ds⟩
  | float {sg u n fr ex} : sg = [] ∨ sg = ['-'] → UintText u n → FracText fr → ExpText ex → fr ≠ [] ∨ ex ≠ [] →
      x.parseF64 (String.ofList (sg ++ u ++ fr ++ ex)) = none →
      BadToken x (sg ++ u ++ fr ++ ex) ⟨.malformedFloat, String.ofList (sg ++ u ++ fr ++ ex)⟩
  | text {s} : Quoted true '"' s → x.unescape (String.ofList s) = none →
      BadToken x ('"' :: s ++ ['"']) ⟨.malformedText, String.ofList s⟩
  | bytes {s} : Quoted true '\'' s → x.unescape (String.ofList s) = none →
      BadToken x ('\'' :: s ++ ['\'']) ⟨.malformedText, String.ofList s⟩
  /-- the text quoted lacks the blanks between the digits -/
  | hex {s} : Quoted true '\'' s → (∀ b, ¬ HexBytes (s.filter fun c => ¬ HexBlank c) b) →
      BadToken x ('h' :: '\'' :: s ++ ['\'']) ⟨.malformedHex, String.ofList (s.filter fun c => ¬ HexBlank c)⟩
  | base64 {s} : Quoted true '\'' s → x.base64 (String.ofList s) = none →
      BadToken x ('b' :: '6' :: '4' :: '\'' :: s ++ ['\'']) ⟨.malformedBase64, String.ofList s⟩
  /-- the only error that quotes nothing -/
  | generic {s n as w} : GName x false s n as → as ≠ [] → WS w →
      BadToken x (s ++ w ++ [':']) ⟨.unparseable, "Bareword with generic arguments"⟩

/-- `Stuck x s t`: nothing in `t`, the rest of a text, continues the rules read from `s`. -/
inductive Stuck (x : ParseExt) : List Char → List Char → Prop
  /-- behind a series of rules -/
  | rules {s c t} : GCddl x false s c → t ≠ [] → Stuck x s t
  /-- at the beginning, where the name of a rule is expected -/
  | name {w t} : WS w → NotHead EAlpha t → Stuck x w t
  /-- where the first rule should have its `=` -/
  | assign {w n ps names w' t} : WS w → Ident n → GOptParams ps names → WS w' → NotHead (· = '=') t →
      Stuck x (w ++ (n ++ (ps ++ w'))) t
  /-- somewhere behind the `=` of the first rule -/
  | body {w n ps names w' s t} : WS w → Ident n → GOptParams ps names → WS w' →
      Stuck x (w ++ (n ++ (ps ++ (w' ++ '=' :: s)))) t

end Cddl
