import Verif.Spec.Blame

/-!
# Texts with a literal that cannot be represented

Texts that are read without trouble up to a literal that cannot be represented, whatever stands behind it, with the
error for the literal; and likewise keys with generic arguments in front of `:`.  Left out are the two kinds of places where the parser takes the error for a sign to try
something else: behind the key of a group entry, and behind a `/` in a group entry without key.
-/

namespace Cddl

/-- Such a literal, and what stands behind it; a number must end there. -/
inductive MalLiteral (x : ParseExt) : ParseError → List Char → List Char → Prop
  | uint {s ds n r} : NumeralText s ds n → 2 ^ 64 ≤ n → AfterNumber r →
      MalLiteral x ⟨.malformedInteger, String.ofList ds⟩ s r
  | nint {s ds n r} : NumeralText s ds n → 2 ^ 63 ≤ n → AfterNumber r →
      MalLiteral x ⟨.malformedInteger, String.ofList ds⟩ ('-' :: s) r
  /-- the digits of a number that is not decimal must not run on into an exponent -/
  | float {sg u n fr ex r} : sg = [] ∨ sg = ['-'] → UintText u n → (∀ d ∈ u, Digit d) ∨ fr ≠ [] → FracText fr →
      ExpText ex → fr ≠ [] ∨ ex ≠ [] → x.parseF64 (String.ofList (sg ++ u ++ fr ++ ex)) = none → AfterNumber r →
      MalLiteral x ⟨.malformedFloat, String.ofList (sg ++ u ++ fr ++ ex)⟩ (sg ++ u ++ fr ++ ex) r
  | text {s r} : Quoted true '"' s → x.unescape (String.ofList s) = none →
      MalLiteral x ⟨.malformedText, String.ofList s⟩ ('"' :: s ++ ['"']) r
  | bytes {s r} : Quoted true '\'' s → x.unescape (String.ofList s) = none →
      MalLiteral x ⟨.malformedText, String.ofList s⟩ ('\'' :: s ++ ['\'']) r
  /-- the text quoted lacks the blanks between the digits -/
  | hex {s r} : Quoted true '\'' s → (∀ b, ¬ HexBytes (s.filter fun c => ¬ HexBlank c) b) →
      MalLiteral x ⟨.malformedHex, String.ofList (s.filter fun c => ¬ HexBlank c)⟩ ('h' :: '\'' :: s ++ ['\'']) r
  | base64 {s r} : Quoted true '\'' s → x.base64 (String.ofList s) = none →
      MalLiteral x ⟨.malformedBase64, String.ofList s⟩ ('b' :: '6' :: '4' :: '\'' :: s ++ ['\'']) r

/-- A number that does not fit begins here; `e` quotes its digits. -/
def LargeNumber (e : ParseError) (i : List Char) : Prop :=
  ∃ s ds n r, i = s ++ r ∧ NumeralText s ds n ∧ 2 ^ 64 ≤ n ∧ e = ⟨.malformedInteger, String.ofList ds⟩ ∧
    (NotHead (fun c => HexDigit c ∨ c = 'x') r ∨ ((∀ d ∈ s, Digit d) ∧ NotHead (fun c => Digit c ∨ c = 'x' ∨ c = 'b') r))

/-- A group entry whose key is a name with generic arguments in front of `:`, and which ends before a comma or a closing
bracket. -/
inductive GenericKey (x : ParseExt) : List Char → Prop
  | mk {k n as w w' s t v c r} : GName x true k n as → as ≠ [] → WS w → WS w' → GTy x true s t → WS v →
      c ∈ ",)]}".toList → GenericKey x (k ++ (w ++ ':' :: (w' ++ (s ++ (v ++ c :: r)))))

/-- The error for such a key. -/
def genericKeyError : ParseError := ⟨.unparseable, "Bareword with generic arguments"⟩

mutual
/-- A `type2` with such a literal: the literal itself, or it is in parentheses, in a map, in an array, in a group made a
choice, or among generic arguments. -/
inductive MalTy2 (x : ParseExt) (e : ParseError) : List Char → Prop
  | literal {s r} : MalLiteral x e s r → MalTy2 x e (s ++ r)
  | name {i} : MalName x e i → MalTy2 x e i
  | parens {w i} : WS w → MalTy x e i → MalTy2 x e ('(' :: (w ++ i))
  | map {w i} : WS w → MalGroup x e i → MalTy2 x e ('{' :: (w ++ i))
  | array {w i} : WS w → MalGroup x e i → MalTy2 x e ('[' :: (w ++ i))
  | unwrap {w i} : WS w → MalName x e i → MalTy2 x e ('~' :: (w ++ i))
  | inline {v w i} : WS v → WS w → MalGroup x e i → MalTy2 x e ('&' :: (v ++ '(' :: (w ++ i)))
  | choiceify {w i} : WS w → MalName x e i → MalTy2 x e ('&' :: (w ++ i))
/-- A name with generic arguments. -/
inductive MalName (x : ParseExt) (e : ParseError) : List Char → Prop
  | args {s w i} : Ident s → WS w → MalArgs x e i → MalName x e (s ++ '<' :: (w ++ i))
/-- Generic arguments. -/
inductive MalArgs (x : ParseExt) (e : ParseError) : List Char → Prop
  | here {i} : MalTy1 x e i → MalArgs x e i
  | later {s t w w' i} : GTy1 x true s t → WS w → WS w' → MalArgs x e i → MalArgs x e (s ++ (w ++ ',' :: (w' ++ i)))
/-- A `type1`: the literal is in its target or in its argument. -/
inductive MalTy1 (x : ParseExt) (e : ParseError) : List Char → Prop
  | here {i} : MalTy2 x e i → MalTy1 x e i
  | range {s a w w' i} : GTy2 x true s a → WS w → WS w' → AfterTy2 a (w ++ ['.', '.']) → MalTy2 x e i →
      MalTy1 x e (s ++ (w ++ '.' :: '.' :: (w' ++ i)))
  | rangeExcl {s a w w' i} : GTy2 x true s a → WS w → WS w' → AfterTy2 a (w ++ ['.', '.']) → MalTy2 x e i →
      MalTy1 x e (s ++ (w ++ '.' :: '.' :: '.' :: (w' ++ i)))
  | control {s a w op w' i} : GTy2 x true s a → WS w → Ident op → WS w' → AfterTy2 a (w ++ '.' :: op) →
      AfterIdent (w' ++ i) → MalTy2 x e i → MalTy1 x e (s ++ (w ++ '.' :: (op ++ (w' ++ i))))
/-- A type: the literal is in one of its alternatives. -/
inductive MalTy (x : ParseExt) (e : ParseError) : List Char → Prop
  | here {i} : MalTy1 x e i → MalTy x e i
  | later {s t w w' i} : GTy1 x true s t → WS w → WS w' → MalTy x e i → MalTy x e (s ++ (w ++ '/' :: (w' ++ i)))
/-- The entries of a group: the literal is in the key of an entry, or in the first alternative of one without key, or a
bound of an occurrence; or a key has generic arguments.  What begins an entry is taken for a bound first, so an integer part that does not fit is
reported instead of the float. -/
inductive MalEntries (x : ParseExt) (e : ParseError) : List Char → Prop
  | here {i} : MalTy1 x e i → (e.kind = .malformedFloat → ∀ e', ¬ LargeNumber e' i) → MalEntries x e i
  | lower {i} : LargeNumber e i → MalEntries x e i
  | upper {u i} : u = [] ∨ (∃ n, UintText u n ∧ n < 2 ^ 64) → LargeNumber e i → MalEntries x e (u ++ '*' :: i)
  | occur {s o w i} : OccurText s o → WS w → AfterOccur o (w ++ i) → MalTy1 x e i → MalEntries x e (s ++ (w ++ i))
  | key {i} : GenericKey x i → e = genericKeyError → MalEntries x e i
  | occurKey {s o w i} : OccurText s o → WS w → AfterOccur o (w ++ i) → GenericKey x i → e = genericKeyError →
      MalEntries x e (s ++ (w ++ i))
  | later {s o v c i} : GEntry x true s (.mk o v) → OptComma c → AfterVal v (c ++ i) → MalEntries x e i →
      MalEntries x e (s ++ (c ++ i))
/-- A group: the literal is in one of its alternatives. -/
inductive MalGroup (x : ParseExt) (e : ParseError) : List Char → Prop
  | here {i} : MalEntries x e i → MalGroup x e i
  | later {s g w w' i} : GChoice x true s g → WS w → WS w' → MalGroup x e i →
      MalGroup x e (s ++ (w ++ '/' :: '/' :: (w' ++ i)))
end

/-- Rules: the literal is in the type of one of them. -/
inductive MalRules (x : ParseExt) (e : ParseError) : List Char → Prop
  | here {n ps names w w' i} : Ident n → GOptParams ps names → WS w → WS w' → MalTy x e i →
      MalRules x e (n ++ (ps ++ (w ++ '=' :: (w' ++ i))))
  | later {s q w i} : GRule x true s q → WS w → AfterRuleVal q.val (w ++ i) → MalRules x e i → MalRules x e (s ++ (w ++ i))

end Cddl
