import Verif.Spec.Malformed
import Verif.Proofs.Blame
import Verif.Proofs.ParseRunAll

/-! # A literal that cannot be represented is reported, wherever the parser does not try something else -/

namespace Cddl

open Ast (Ty Ty1 Ty2 GrpEntVal GrpEnt Group GrpChoice)

variable {x : ParseExt} {e : ParseError}


theorem NumeralText.uint {s ds : List Char} {n : Nat} (h : NumeralText s ds n) : UintText s n := by
  cases h with
  | dec h _ => exact h
  | hex h => exact h
  | bin h => exact h

theorem UintText.numeral {u : List Char} {n : Nat} (h : UintText u n) : ∃ ds, NumeralText u ds n := by
  cases h with
  | zero => exact ⟨_, .dec .zero (by unfold Digit; decide)⟩
  | dec hc h0 hds => exact ⟨_, .dec (.dec hc h0 hds) (by simpa using ⟨hc, hds⟩)⟩
  | hex hne h => exact ⟨_, .hex (.hex hne h)⟩
  | bin hne h => exact ⟨_, .bin (.bin hne h)⟩

theorem NumeralText.digits {s ds ds' : List Char} {n n' : Nat} (h : NumeralText s ds n) (h' : NumeralText s ds' n') :
    ds = ds' := by
  have hx : ¬ Digit 'x' := by unfold Digit; decide
  have hb : ¬ Digit 'b' := by unfold Digit; decide
  cases h with
  | dec _ hd =>
    cases h' with
    | dec => rfl
    | hex => exact absurd (hd 'x' (by simp)) hx
    | bin => exact absurd (hd 'b' (by simp)) hb
  | hex _ =>
    cases h' with
    | dec _ hd => exact absurd (hd 'x' (by simp)) hx
    | hex => rfl
  | bin _ =>
    cases h' with
    | dec _ hd => exact absurd (hd 'b' (by simp)) hb
    | bin => rfl

/-- The digits of a number as the parser finds them. -/
theorem uint_digits {s ds r : List Char} {n : Nat} (h : NumeralText s ds n) (hr : UintEnd s r) :
    ∃ b, uint (s ++ r) = .ok r ⟨ds, b⟩ ∧ fromStrRadix ds b = if n < 18446744073709551616 then some n else none := by
  obtain ⟨raw, h1, h2⟩ := uint_run h.uint hr
  have h3 := sound_uint_text (n := (s ++ r).length) (s ++ r) (Nat.le_refl _)
  rw [h1] at h3
  obtain ⟨s', h4, h5⟩ := h3
  have h6 : s' = s := (List.append_cancel_right h4).symm
  subst h6
  have h7 := h.digits h5.2
  subst h7
  exact ⟨raw.base, h1, h2⟩

theorem uintU64_large {i : List Char} (h : LargeNumber e i) : uintU64 i = .fail e := by
  obtain ⟨s, ds, n, r, rfl, hs, hn, rfl, hr⟩ := h
  obtain ⟨b, h1, h2⟩ := uint_digits hs hr
  rw [if_neg (by simpa using hn)] at h2
  simp only [uintU64, mapResFail, h1, PR.bind, h2]

theorem LargeNumber.digit {i : List Char} (h : LargeNumber e i) : ∃ c t, i = c :: t ∧ Digit c := by
  obtain ⟨s, ds, n, r, rfl, hs, -⟩ := h
  obtain ⟨c, t, rfl, hc⟩ := hs.uint.head
  exact ⟨c, t ++ r, rfl, hc⟩

/-- Where a number that fits begins, none begins that does not. -/
theorem not_largeNumber {u r : List Char} {n : Nat} (hu : UintText u n) (hn : n < 2 ^ 64) (hr : UintEnd u r) :
    ¬ LargeNumber e (u ++ r) := by
  intro h
  have := uintU64_large h
  rw [uintU64_run hu hn hr] at this
  cases this

theorem floatOrInt_mal {sg s ds r : List Char} {n : Nat} (hsg : sg = [] ∨ sg = ['-']) (h : NumeralText s ds n)
    (hr : AfterNumber r) (hn : if sg = ['-'] then 2 ^ 63 ≤ n else 2 ^ 64 ≤ n) :
    floatOrInt x (sg ++ s ++ r) = .fail ⟨.malformedInteger, String.ofList ds⟩ := by
  obtain ⟨b, h1, h2⟩ := uint_digits h (hr.uintEnd s)
  have h3 : int (sg ++ (s ++ r)) = .ok r ⟨ds, b, sg == ['-']⟩ := by
    rcases hsg with rfl | rfl
    · have : opt (chr '-') (s ++ r) = .ok (s ++ r) none := by
        refine opt_minus_none ?_
        obtain ⟨c, t, rfl, hc⟩ := h.uint.head
        exact digit_ne_minus hc
      simp only [List.nil_append, int, pmap, pair, this, PR.bind, h1, Option.isSome_none]
      rfl
    · have : opt (chr '-') ('-' :: (s ++ r)) = .ok (s ++ r) (some '-') := by
        simp only [opt, chr_ok]
      simp only [List.cons_append, List.nil_append, int, pmap, pair, this, PR.bind, h1, Option.isSome_some]
      rfl
  have h4 : recognizer (pair int (pair (opt dotFraction) (opt eExponent))) (sg ++ s ++ r) =
      .ok r (sg ++ s, ⟨ds, b, sg == ['-']⟩, none, none) := by
    refine recognizer_ok ?_
    rw [List.append_assoc]
    simp only [pair, h3, PR.bind, hr.noFrac, hr.noExp]
  have h5 : parseInt ⟨ds, b, sg == ['-']⟩ = .error ⟨.malformedInteger, String.ofList ds⟩ := by
    unfold parseInt
    dsimp only
    rw [h2]
    by_cases h : n < 18446744073709551616
    · rw [if_pos h]
      rcases hsg with rfl | rfl
      · exact absurd hn (by simp; omega)
      · have : ¬ n < 9223372036854775808 := by simpa using hn
        dsimp only
        rw [if_neg this]
        rfl
    · rw [if_neg h]
  simp only [floatOrInt, mapResFail, h4, PR.bind, Option.isSome_none, Bool.or_self, Bool.false_eq_true, if_false, h5]

theorem float_uintEnd {u fr ex r : List Char} (hu : (∀ d ∈ u, Digit d) ∨ fr ≠ []) (hfr : FracText fr) (hex : ExpText ex)
    (hr : AfterNumber r) : UintEnd u (fr ++ (ex ++ r)) := by
  rcases hu with hu | hu
  · exact .inr ⟨hu, float_end hfr hex hr⟩
  · cases hfr with
    | none => exact absurd rfl hu
    | some _ _ => exact .inl (notHead_cons (by unfold HexDigit Digit; decide) _)

/-- A literal that cannot be represented is reported. -/
theorem MalLiteral.value {s r : List Char} (h : MalLiteral x e s r) : value x (s ++ r) = .fail e := by
  cases h with
  | uint h hn hr =>
    have := floatOrInt_mal (x := x) (sg := []) (.inl rfl) h hr (by simpa using hn)
    simp only [List.nil_append] at this
    simp only [Cddl.value, alt, this]
  | nint h hn hr =>
    have := floatOrInt_mal (x := x) (sg := ['-']) (.inr rfl) h hr (by simpa using hn)
    simp only [List.cons_append, List.nil_append] at this ⊢
    simp only [Cddl.value, alt, this]
  | float hsg h hu hfr hex hne hf hr =>
    obtain ⟨raw, o1, o2, hsome, this⟩ := float_recognizer hsg h (float_uintEnd hu hfr hex hr) hfr hex hne hr
    simp only [Cddl.value, alt, floatOrInt, mapResFail, this, PR.bind, hsome, if_true, parseFloat, hf]
  | @text s r hq hu =>
    have e1 : '"' :: s ++ ['"'] ++ r = '"' :: (s ++ '"' :: r) := by simp
    rw [e1]
    obtain ⟨e, he⟩ := floatOrInt_err x (i := '"' :: (s ++ '"' :: r)) (by simp only [NotHead]; unfold Digit; decide)
    simp only [Cddl.value, alt, he, pmap, textLiteral, mapResFail, delimited, preceded, terminated, chr_ok, PR.bind,
      schar_run hq, unescapeOr, hu]
  | @bytes s r hq hu =>
    have e1 : '\'' :: s ++ ['\''] ++ r = '\'' :: (s ++ '\'' :: r) := by simp
    rw [e1]
    obtain ⟨e, he⟩ := floatOrInt_err x (i := '\'' :: (s ++ '\'' :: r)) (by simp only [NotHead]; unfold Digit; decide)
    obtain ⟨e2, he2⟩ := textLiteral_err x (i := '\'' :: (s ++ '\'' :: r)) (by simp [NotHead])
    have t1 : tag "'" ('\'' :: (s ++ '\'' :: r)) = .ok (s ++ '\'' :: r) ['\''] := tag_ok "'" ['\''] _ rfl
    have t2 : tag "'" ('\'' :: r) = .ok r ['\''] := tag_ok "'" ['\''] _ rfl
    simp only [Cddl.value, alt, he, he2, pmap, bytestring, bytestringUtf8, mapResFail, delimited, preceded, terminated,
      t1, t2, PR.bind, bchar_run hq, unescapeOr, hu]
  | @hex s r hq hb =>
    have e1 : 'h' :: '\'' :: s ++ ['\''] ++ r = 'h' :: '\'' :: (s ++ '\'' :: r) := by simp
    rw [e1]
    obtain ⟨e, he⟩ := floatOrInt_err x (i := 'h' :: '\'' :: (s ++ '\'' :: r)) (by
      simp only [NotHead]; unfold Digit; decide)
    obtain ⟨e2, he2⟩ := textLiteral_err x (i := 'h' :: '\'' :: (s ++ '\'' :: r)) (by simp [NotHead])
    obtain ⟨e3, he3⟩ := tag_err (t := "'") (i := 'h' :: '\'' :: (s ++ '\'' :: r)) (by intro r' h; simp at h)
    have t1 : tag "h'" ('h' :: '\'' :: (s ++ '\'' :: r)) = .ok (s ++ '\'' :: r) ['h', '\''] :=
      tag_ok "h'" ['h', '\''] _ rfl
    have t2 : tag "'" ('\'' :: r) = .ok r ['\''] := tag_ok "'" ['\''] _ rfl
    have hd : hexDecode (s.filter fun c => ¬ HexBlank c) = none := by
      cases hd : hexDecode (s.filter fun c => ¬ HexBlank c) with
      | none => rfl
      | some b => exact absurd (hexDecode_sound _ _ hd) (hb b)
    simp only [Cddl.value, alt, he, he2, pmap, bytestring, bytestringUtf8, bytestringHex, mapResFail, delimited, preceded,
      terminated, he3, t1, t2, PR.bind, bchar_run hq, parseHex, hexBlank_filter, hd]
  | @base64 s r hq hb =>
    have e1 : 'b' :: '6' :: '4' :: '\'' :: s ++ ['\''] ++ r = 'b' :: '6' :: '4' :: '\'' :: (s ++ '\'' :: r) := by simp
    rw [e1]
    obtain ⟨e, he⟩ := floatOrInt_err x (i := 'b' :: '6' :: '4' :: '\'' :: (s ++ '\'' :: r)) (by
      simp only [NotHead]; unfold Digit; decide)
    obtain ⟨e2, he2⟩ := textLiteral_err x (i := 'b' :: '6' :: '4' :: '\'' :: (s ++ '\'' :: r)) (by simp [NotHead])
    obtain ⟨e3, he3⟩ := tag_err (t := "'") (i := 'b' :: '6' :: '4' :: '\'' :: (s ++ '\'' :: r)) (by
      intro r' h; simp at h)
    obtain ⟨e4, he4⟩ := tag_err (t := "h'") (i := 'b' :: '6' :: '4' :: '\'' :: (s ++ '\'' :: r)) (by
      intro r' h; simp at h)
    have t1 : tag "b64'" ('b' :: '6' :: '4' :: '\'' :: (s ++ '\'' :: r)) =
        .ok (s ++ '\'' :: r) ['b', '6', '4', '\''] := tag_ok "b64'" ['b', '6', '4', '\''] _ rfl
    simp only [Cddl.value, alt, he, he2, pmap, bytestring, bytestringUtf8, bytestringHex, bytestringBase64, mapResFail,
      delimited, preceded, terminated, he3, he4, t1, chr_ok, PR.bind, bchar_run hq, parseBase64, hb]

theorem MalLiteral.starts {s r : List Char} (h : MalLiteral x e s r) : Starts s := by
  cases h with
  | uint h _ _ => exact h.uint.starts
  | nint _ _ _ => exact ⟨_, _, rfl, by unfold Starter; decide⟩
  | float hsg h _ _ _ _ _ _ =>
    rcases hsg with rfl | rfl
    · rw [List.nil_append, List.append_assoc]
      exact h.starts.app _
    · exact ⟨_, _, rfl, by unfold Starter; decide⟩
  | text _ _ => exact ⟨_, _, rfl, by unfold Starter; decide⟩
  | bytes _ _ => exact ⟨_, _, rfl, by unfold Starter; decide⟩
  | hex _ _ => exact ⟨_, _, rfl, by unfold Starter; decide⟩
  | base64 _ _ => exact ⟨_, _, rfl, by unfold Starter; decide⟩

/-- An occurrence is looked for before a literal: there is none, or it is the same error. -/
theorem MalLiteral.occur {s r : List Char} (h : MalLiteral x e s r)
    (hl : e.kind = .malformedFloat → ∀ e', ¬ LargeNumber e' (s ++ r)) :
    opt (terminated occur ws) (s ++ r) = .ok (s ++ r) none ∨ opt (terminated occur ws) (s ++ r) = .fail e := by
  have hc : ∀ {c : Char} {u : List Char}, ¬ (Digit c ∨ c = '*' ∨ c = '+' ∨ c = '?') →
      opt (terminated Cddl.occur ws) (c :: u) = .ok (c :: u) none := fun h => occur_none (.inl h)
  cases h with
  | @uint s ds n r h hn hr =>
    right
    have h := uintU64_large (e := ⟨.malformedInteger, String.ofList ds⟩) ⟨s, ds, n, r, rfl, h, hn, rfl, hr.uintEnd s⟩
    simp only [opt, terminated, Cddl.occur, alt, occurStar, mapRes, pair, h, PR.bind]
  | nint _ _ _ => exact .inl (hc (by unfold Digit; decide))
  | @float sg u n fr ex r hsg h hu hfr hex hne hf hr =>
    left
    rcases hsg with rfl | rfl
    · have e1 : [] ++ u ++ fr ++ ex ++ r = u ++ (fr ++ (ex ++ r)) := by simp
      rw [e1] at hl ⊢
      have hend := float_uintEnd hu hfr hex hr
      refine occur_none (.inr ⟨u, n, _, rfl, h, ?_, hend, ?_⟩)
      · refine Nat.lt_of_not_le fun hn => ?_
        obtain ⟨ds, h'⟩ := h.numeral
        exact hl rfl _ ⟨u, ds, n, _, rfl, h', hn, rfl, hend⟩
      · cases hfr with
        | some _ _ => exact notHead_cons (by decide) _
        | none =>
          cases hex with
          | none => simp at hne
          | plain _ _ => exact notHead_cons (by decide) _
          | signed _ _ _ => exact notHead_cons (by decide) _
    · exact hc (by unfold Digit; decide)
  | text _ _ => exact .inl (hc (by unfold Digit; decide))
  | bytes _ _ => exact .inl (hc (by unfold Digit; decide))
  | hex _ _ => exact .inl (hc (by unfold Digit; decide))
  | base64 _ _ => exact .inl (hc (by unfold Digit; decide))

theorem MalName.starts {i : List Char} (h : MalName x e i) : ∃ c t, i = c :: t ∧ EAlpha c := by
  cases h with
  | args h _ _ => cases h with | mk h _ => exact ⟨_, _, rfl, h⟩

theorem starts_ealpha {i : List Char} (h : ∃ c t, i = c :: t ∧ EAlpha c) : Starts i := by
  obtain ⟨c, t, rfl, hc⟩ := h
  exact ⟨_, _, rfl, starter_ealpha hc⟩

theorem MalTy2.starts {i : List Char} (h : MalTy2 x e i) : Starts i := by
  cases h with
  | literal h => exact h.starts.app _
  | name h => exact starts_ealpha h.starts
  | parens _ _ => exact ⟨_, _, rfl, by decide⟩
  | map _ _ => exact ⟨_, _, rfl, by decide⟩
  | array _ _ => exact ⟨_, _, rfl, by decide⟩
  | unwrap _ _ => exact ⟨_, _, rfl, by decide⟩
  | inline _ _ _ => exact ⟨_, _, rfl, by decide⟩
  | choiceify _ _ => exact ⟨_, _, rfl, by decide⟩

theorem MalName.noValue {i : List Char} (h : MalName x e i) : ∃ e', Cddl.value x i = .err e' := by
  cases h with
  | args hs _ _ => exact value_ident x hs (notHead_cons (by unfold Digit; decide) _)

theorem MalTy1.starts {i : List Char} (h : MalTy1 x e i) : Starts i := by
  cases h with
  | here h => exact h.starts
  | range h _ _ _ _ => exact h.starts.app _
  | rangeExcl h _ _ _ _ => exact h.starts.app _
  | control h _ _ _ _ _ _ => exact h.starts.app _

theorem MalArgs.starts {i : List Char} (h : MalArgs x e i) : Starts i := by
  cases h with
  | here h => exact h.starts
  | later h _ _ _ => exact h.starts.app _

theorem MalTy.starts {i : List Char} (h : MalTy x e i) : Starts i := by
  cases h with
  | here h => exact h.starts
  | later h _ _ _ => exact h.starts.app _

theorem GName.alpha {k : List Char} {n : String} {as : List Ty1} (h : GName x true k n as) : ∃ c t, k = c :: t ∧ EAlpha c := by
  cases h with
  | plain h => cases h with | mk h _ => exact ⟨_, _, rfl, h⟩
  | generic h _ _ => cases h with | mk h _ => exact ⟨_, _, rfl, h⟩

theorem GenericKey.starts {i : List Char} (h : GenericKey x i) : ∃ c t, i = c :: t ∧ EAlpha c := by
  cases h with
  | mk h _ _ _ _ _ _ =>
    obtain ⟨c, t, rfl, hc⟩ := h.alpha
    exact ⟨c, _, rfl, hc⟩

theorem MalEntries.starts {i : List Char} (h : MalEntries x e i) : Starts i := by
  cases h with
  | here h _ => exact h.starts
  | lower h =>
    obtain ⟨c, t, rfl, hc⟩ := h.digit
    exact ⟨c, t, rfl, starter_digit hc⟩
  | upper h _ =>
    rcases h with rfl | ⟨n, h, _⟩
    · exact ⟨_, _, rfl, by decide⟩
    · exact h.starts.app _
  | occur h _ _ _ => exact h.starts.app _
  | key h _ => exact starts_ealpha h.starts
  | occurKey h _ _ _ _ => exact h.starts.app _
  | later h _ _ _ => exact h.starts.app _

theorem after_dots {a : Ty2} {w u : List Char} (h : AfterTy2 a (w ++ ['.', '.'])) : AfterTy2 a (w ++ '.' :: '.' :: u) := by
  have := h.ext (b := u) (by simp) (by intro h; have := congrArg List.length h; simp at this)
  simpa using this

theorem after_op {a : Ty2} {w op u : List Char} (ho : Ident op) (h : AfterTy2 a (w ++ '.' :: op)) :
    AfterTy2 a (w ++ '.' :: (op ++ u)) := by
  have := h.ext (b := u) (by simp) (by
    intro h
    have := congrArg List.length h
    have := List.length_pos_iff.2 ho.starts.ne
    simp at *
    omega)
  simpa using this

/-- What stands behind an entry: another one. -/
theorem follow_starts {i c : List Char} (hs : Starts i) (hc : OptComma c) : EntFollow (c ++ i) := by
  cases hc with
  | none hw =>
    unfold EntFollow
    rw [trim_ws hw, hs.trim]
    refine ⟨hs.notHead ?_, .inl (hs.notHead ?_)⟩
    · have key : ∀ c ∈ ".:^=".toList, ¬ Starter c := by decide
      exact key
    · rintro c rfl; decide
  | @some w w' hw hw' =>
    have e : trim (w ++ ',' :: w' ++ i) = ',' :: (w' ++ i) := by
      rw [List.append_assoc]
      exact trim_punct hw (by decide) _
    unfold EntFollow
    rw [e]
    exact ⟨notHead_cons (by decide) _, .inl (notHead_cons (by decide) _)⟩

theorem optcom_starts {i c j : List Char} (hs : Starts i) (hc : OptComma c) (hj : trim j = trim (c ++ i)) :
    optcom j = .ok i () := by
  obtain ⟨t, h1⟩ := ws_trim j
  rw [hj] at h1
  cases hc with
  | none hw =>
    rw [trim_ws hw, hs.trim] at h1
    obtain ⟨e, h2⟩ : ∃ e, tag "," i = .err e := tag_err (by
      intro q e
      obtain ⟨d, t, h, hd⟩ := hs
      rw [h] at e
      simp at e
      rw [e.1] at hd
      exact absurd hd (by decide))
    simp only [optcom, pmap, pair, opt, h1, h2, PR.bind]
  | @some w w' hw hw' =>
    rw [List.append_assoc, List.cons_append, trim_punct hw (by decide)] at h1
    have h2 : tag "," (',' :: (w' ++ i)) = .ok (w' ++ i) [','] := tag_ok "," [','] _ rfl
    obtain ⟨t3, h3⟩ := ws_trim (w' ++ i)
    rw [trim_ws hw', hs.trim] at h3
    simp only [optcom, pmap, pair, opt, h1, h2, h3, PR.bind]

theorem ealpha_noOccur {c : Char} (h : EAlpha c) : ¬ (Digit c ∨ c = '*' ∨ c = '+' ∨ c = '?') := by
  have key : ∀ c ∈ "*+?".toList, ¬ EAlpha c := by unfold EAlpha; decide
  rintro (hd | rfl | rfl | rfl)
  · obtain ⟨h1, h2⟩ := hd
    unfold EAlpha at h
    rcases h with ⟨h3, _⟩ | ⟨h3, _⟩ | rfl | rfl | rfl
    · exact absurd (Char.le_trans h3 h2) (by decide)
    · exact absurd (Char.le_trans h3 h2) (by decide)
    all_goals revert h1 h2; decide
  · exact key _ (by decide) h
  · exact key _ (by decide) h
  · exact key _ (by decide) h

/-- Before such a `type1` there is no occurrence, or it is taken for one with a bound that does not fit. -/
theorem MalTy1.occur {i : List Char} (h : MalTy1 x e i) (hl : e.kind = .malformedFloat → ∀ e', ¬ LargeNumber e' i) :
    opt (terminated occur ws) i = .ok i none ∨ opt (terminated occur ws) i = .fail e := by
  have hc : ∀ {c : Char} {u : List Char}, ¬ (Digit c ∨ c = '*' ∨ c = '+' ∨ c = '?') →
      opt (terminated Cddl.occur ws) (c :: u) = .ok (c :: u) none := fun h => occur_none (.inl h)
  have h2 : ∀ {s a r}, GTy2 x true s a → AfterTy2 a r → opt (terminated Cddl.occur ws) (s ++ r) = .ok (s ++ r) none :=
    fun h ha => occur_none (h.noOccur ha)
  cases h with
  | here h =>
    cases h with
    | literal h => exact h.occur hl
    | name h =>
      obtain ⟨c, t, rfl, h'⟩ := h.starts
      exact .inl (hc (ealpha_noOccur h'))
    | parens _ _ => exact .inl (hc (by unfold Digit; decide))
    | map _ _ => exact .inl (hc (by unfold Digit; decide))
    | array _ _ => exact .inl (hc (by unfold Digit; decide))
    | unwrap _ _ => exact .inl (hc (by unfold Digit; decide))
    | inline _ _ _ => exact .inl (hc (by unfold Digit; decide))
    | choiceify _ _ => exact .inl (hc (by unfold Digit; decide))
  | range h _ _ ha _ => exact .inl (h2 h (after_dots ha))
  | rangeExcl h _ _ ha _ => exact .inl (h2 h (after_dots ha))
  | control h _ ho _ ha _ _ => exact .inl (h2 h (after_op ho ha))

theorem comp_over (x : ParseExt) (n : Nat) : Comp x (parserRec x) n := (comp_rec x n).toComp

/-- A text that is read as an operator, and behind it fails. -/
theorem type1_over {s i k : List Char} {a : Ty2} {op : List Char} (h : (parserRec x).type2 (s ++ i) = .ok i a)
    (hop : ∃ t, ws i = .ok k t) {j : List Char} (hk : alt (tag "...") (alt (tag "..") controlOp) k = .ok j op)
    {j' : List Char} (hj : ∃ t, ws j = .ok j' t) (hf : (parserRec x).type2 j' = .fail e) :
    type1 (parserRec x) (s ++ i) = .fail e := by
  obtain ⟨t1, h1⟩ := hop
  obtain ⟨t2, h2⟩ := hj
  have hf := hf
  simp only [type1, pmap, pair, h, PR.bind, opt, preceded, h1, rangeOrControlOp, hk, h2, hf]

theorem MalTy2.noDot {i w : List Char} (h : MalTy2 x e i) (hw : WS w) : ∀ t, w ++ i ≠ '.' :: t := by
  refine ws_dots ?_ hw
  rintro t rfl
  obtain ⟨c, t', h, hc⟩ := h.starts
  simp at h
  obtain ⟨rfl, -⟩ := h
  exact absurd hc (by decide)

theorem ws_starts {w i : List Char} (hw : WS w) (h : Starts i) : ∃ t, ws (w ++ i) = .ok i t := by
  obtain ⟨t, h1⟩ := ws_trim (w ++ i)
  rw [trim_ws hw, h.trim] at h1
  exact ⟨t, h1⟩

theorem ws_dot {w : List Char} (hw : WS w) (u : List Char) : ∃ t, ws (w ++ '.' :: u) = .ok ('.' :: u) t := by
  obtain ⟨t, h1⟩ := ws_trim (w ++ '.' :: u)
  rw [trim_punct hw (by decide)] at h1
  exact ⟨t, h1⟩

/-- A loop over entries, the first of which fails. -/
theorem many0Loop_fails {α : Type} {p : P α} {k : Nat} {i : List Char} (hk : i.length < k) (h : p i = .fail e) :
    many0Loop p k i = .fail e := by
  have h := h
  cases k with
  | zero => omega
  | succ k => simp only [many0Loop, h]

theorem many0Loop_later {α : Type} {p : P α} {k : Nat} {i r : List Char} {a : α} (hk : i.length < k) (h : p i = .ok r a)
    (hr : r.length < i.length) (hl : ∀ k, r.length < k → many0Loop p k r = .fail e) : many0Loop p k i = .fail e := by
  cases k with
  | zero => omega
  | succ k =>
    have hl := hl k (by omega)
    simp only [many0Loop, h, if_neg (Nat.ne_of_lt hr), hl, PR.bind]

theorem sepLoop_later {α β : Type} {sep : P β} {p : P α} {k : Nat} {i j : List Char} {b : β} (hk : i.length < k)
    (h : sep i = .ok j b) (hj : j.length < i.length)
    (hl : p j = .fail e ∨ ∃ r a, p j = .ok r a ∧ r.length ≤ j.length ∧ ∀ k, r.length < k → sepLoop sep p k r = .fail e) :
    sepLoop sep p k i = .fail e := by
  cases k with
  | zero => omega
  | succ k =>
    rcases hl with hl | ⟨r, a, h1, h2, h3⟩
    · simp only [sepLoop, h, if_neg (Nat.ne_of_lt hj), hl]
    · have h3 := h3 k (by omega)
      simp only [sepLoop, h, if_neg (Nat.ne_of_lt hj), h1, h3, PR.bind]

/-- What a list with separators does on a text: the first element fails, or the loop does behind it. -/
def SepFails {α β : Type} (e : ParseError) (sep : P β) (p : P α) (i : List Char) : Prop :=
  p i = .fail e ∨ ∃ r a, p i = .ok r a ∧ r.length ≤ i.length ∧ ∀ k, r.length < k → sepLoop sep p k r = .fail e

theorem SepFails.list {α β : Type} {sep : P β} {p : P α} {i : List Char} (h : SepFails e sep p i) : sepList1 sep p i = .fail e := by
  rcases h with h | ⟨r, a, h1, h2, h3⟩
  · simp only [sepList1, h, PR.bind]
  · have h3 := h3 (r.length + 1) (by omega)
    simp only [sepList1, h1, h3, PR.bind]

theorem grpent_over {i : List Char} (ho : opt (terminated occur ws) i = .ok i none ∨ opt (terminated occur ws) i = .fail e)
    (h : type1 (parserRec x) i = .fail e) : grpent (parserRec x) i = .fail e := by
  have h := h
  rcases ho with ho | ho
  · simp only [grpent, pmap, pair, ho, grpentVal, alt, grpentMember, terminated, h, PR.bind]
  · simp only [grpent, pmap, pair, ho, PR.bind]

/-- A key with generic arguments is read, and then refused. -/
theorem GenericKey.fails {i : List Char} (h : GenericKey x i) : grpentVal (parserRec x) i = .fail genericKeyError := by
  cases h with
  | @mk k n as w w' s t v c r h has hw hw' h' hv hc =>
    have key : ∀ c ∈ ",)]}".toList, c ∈ "/,)]}:^=>".toList ∧ c ∈ "./,)]}:^=>*+?(){}[]~&".toList ∧ c ≠ '.' ∧ c ≠ '/' := by
      decide
    obtain ⟨k1, k2, k3, k4⟩ := key c hc
    have et := trim_punct hw (c := ':') (by decide) (w' ++ (s ++ (v ++ c :: r)))
    have h1 := term_type1 (rest := w ++ ':' :: (w' ++ (s ++ (v ++ c :: r)))) (comp_over x k.length) (s := k)
      (t := .simple (.typename n as)) (Nat.le_refl _) (.simple (.name h)) ((safe_ws hw (safe_punct (by decide) _)).ty1 _)
      (by rw [et]; simp [NotHead])
    rw [et] at h1
    have h2 : tag ":" (':' :: (w' ++ (s ++ (v ++ c :: r)))) = .ok (w' ++ (s ++ (v ++ c :: r))) [':'] := tag_ok ":" [':'] _ rfl
    obtain ⟨t3, h3⟩ := ws_trim (w' ++ (s ++ (v ++ c :: r)))
    rw [trim_ws hw', (h'.starts.app _).trim] at h3
    have et' := trim_punct hv k2 r
    have h4 := ty_run (rest := v ++ c :: r) parserRec_type2_eq (comp_over x s.length) (Nat.le_refl _) h'
      (fun u _ => (safe_ws hv (safe_punct k1 _)).ty1 u) ⟨by rw [et']; exact k3, .inl (by rw [et']; exact k4)⟩
    have h5 : as.isEmpty = false := by cases as with | nil => exact absurd rfl has | cons _ _ => rfl
    have h6 : grpentMember (parserRec x) (k ++ (w ++ ':' :: (w' ++ (s ++ (v ++ c :: r))))) = .fail genericKeyError := by
      unfold grpentMember
      simp only [h1, PR.bind, memberkeyTail, preceded, pair, h2, h3, h4, ifOk, assembleBasicMember, h5, Bool.false_eq_true,
        if_false, genericKeyError]
    simp only [grpentVal, alt, h6]

/-- What a group does on a text. -/
def GroupFails (x : ParseExt) (e : ParseError) (i : List Char) : Prop :=
  grpchoice (parserRec x) (trim i) = .fail e ∨ ∃ r c, grpchoice (parserRec x) (trim i) = .ok r c ∧ r.length ≤ i.length ∧
    ∀ k, r.length < k → many0Loop (preceded (delimited ws (tag "//") ws) (grpchoice (parserRec x))) k r = .fail e

theorem GroupFails.group {i : List Char} (h : GroupFails x e i) : (parserRec x).group (trim i) = .fail e := by
  rw [parserRec_group_eq]
  rcases h with h | ⟨r, c, h1, _, h2⟩
  · simp only [Cddl.group, pmap, pair, h, PR.bind]
  · have h2 := h2 (r.length + 1) (by omega)
    simp only [Cddl.group, pmap, pair, h1, many0, h2, PR.bind]

theorem GroupFails.map {w i : List Char} (hw : WS w) (h : GroupFails x e i) : (parserRec x).type2 ('{' :: (w ++ i)) = .fail e := by
  have h := h.group
  obtain ⟨⟨e1, h1⟩, e2, h2⟩ := open_err x (parserRec x) (c := '{') (by decide) (w ++ i)
  obtain ⟨t, h3⟩ := ws_trim (w ++ i)
  rw [trim_ws hw] at h3
  obtain ⟨e4, h4⟩ : ∃ e, chr '(' ('{' :: (w ++ i)) = .err e := chr_err (by simp [NotHead])
  rw [parserRec_type2_eq]
  simp only [type2, alt, pmap, h1, h2, type2Parens, type2Map, delimited, preceded, terminated, h4, chr_ok, h3, h, PR.bind]

theorem GroupFails.array {w i : List Char} (hw : WS w) (h : GroupFails x e i) : (parserRec x).type2 ('[' :: (w ++ i)) = .fail e := by
  have h := h.group
  obtain ⟨⟨e1, h1⟩, e2, h2⟩ := open_err x (parserRec x) (c := '[') (by decide) (w ++ i)
  obtain ⟨t, h3⟩ := ws_trim (w ++ i)
  rw [trim_ws hw] at h3
  obtain ⟨e4, h4⟩ : ∃ e, chr '(' ('[' :: (w ++ i)) = .err e := chr_err (by simp [NotHead])
  obtain ⟨e5, h5⟩ : ∃ e, chr '{' ('[' :: (w ++ i)) = .err e := chr_err (by simp [NotHead])
  rw [parserRec_type2_eq]
  simp only [type2, alt, pmap, h1, h2, type2Parens, type2Map, type2Array, delimited, preceded, terminated, h4, h5, chr_ok,
    h3, h, PR.bind]

mutual
theorem MalTy2.fails {i : List Char} : MalTy2 x e i → (parserRec x).type2 i = .fail e
  | .literal h => by
    have h := h.value
    rw [parserRec_type2_eq]
    simp only [type2, alt, pmap, h, PR.bind]
  | .name (i := i) h => by
    have hf := h.fails
    have h2 : ∃ e', Cddl.value x i = .err e' := h.noValue
    obtain ⟨e2, h2⟩ := h2
    rw [parserRec_type2_eq]
    simp only [type2, alt, pmap, h2, hf, PR.bind]
  | .parens (w := w) (i := i) hw h => by
    have hf : ty (parserRec x) i = .fail e := h.fails.list
    obtain ⟨⟨e1, h1⟩, e2, h2⟩ := open_err x (parserRec x) (c := '(') (by decide) (w ++ i)
    obtain ⟨t, h3⟩ := ws_starts hw h.starts
    rw [parserRec_type2_eq]
    simp only [type2, alt, pmap, h1, h2, type2Parens, delimited, preceded, terminated, chr_ok, h3, hf, PR.bind]
  | .map hw h => h.fails.map hw
  | .array hw h => h.fails.array hw
  | .unwrap (w := w) (i := i) hw h => by
    have hf := h.fails
    obtain ⟨⟨e1, h1⟩, e2, h2⟩ := open_err x (parserRec x) (c := '~') (by decide) (w ++ i)
    obtain ⟨e4, h4⟩ := chr_err (c := '(') (i := '~' :: (w ++ i)) (notHead_cons (by decide) _)
    obtain ⟨e5, h5⟩ := chr_err (c := '{') (i := '~' :: (w ++ i)) (notHead_cons (by decide) _)
    obtain ⟨e6, h6⟩ := chr_err (c := '[') (i := '~' :: (w ++ i)) (notHead_cons (by decide) _)
    have h7 : tag "~" ('~' :: (w ++ i)) = .ok (w ++ i) ['~'] := tag_ok "~" ['~'] _ rfl
    obtain ⟨t, h8⟩ := ws_starts hw (starts_ealpha h.starts)
    rw [parserRec_type2_eq]
    simp only [type2, alt, pmap, h1, h2, type2Parens, type2Map, type2Array, delimited, preceded, h4, h5, h6, h7, h8, hf,
      PR.bind]
  | .inline (v := v) (w := w) (i := i) hv hw h => by
    have hf := h.fails.group
    obtain ⟨⟨e1, h1⟩, e2, h2⟩ := open_err x (parserRec x) (c := '&') (by decide) (v ++ '(' :: (w ++ i))
    obtain ⟨e4, h4⟩ := chr_err (c := '(') (i := '&' :: (v ++ '(' :: (w ++ i))) (notHead_cons (by decide) _)
    obtain ⟨e5, h5⟩ := chr_err (c := '{') (i := '&' :: (v ++ '(' :: (w ++ i))) (notHead_cons (by decide) _)
    obtain ⟨e6, h6⟩ := chr_err (c := '[') (i := '&' :: (v ++ '(' :: (w ++ i))) (notHead_cons (by decide) _)
    obtain ⟨e9, h9⟩ : ∃ e, tag "~" ('&' :: (v ++ '(' :: (w ++ i))) = .err e := tag_err (by intro r e; simp at e)
    have h7 : tag "&" ('&' :: (v ++ '(' :: (w ++ i))) = .ok (v ++ '(' :: (w ++ i)) ['&'] := tag_ok "&" ['&'] _ rfl
    obtain ⟨t, h8⟩ := ws_starts hv (i := '(' :: (w ++ i)) ⟨_, _, rfl, by decide⟩
    obtain ⟨t', h10⟩ := ws_trim (w ++ i)
    rw [trim_ws hw] at h10
    rw [parserRec_type2_eq]
    simp only [type2, alt, pmap, h1, h2, type2Parens, type2Map, type2Array, inParens, delimited, preceded, terminated, h4,
      h5, h6, h7, h8, h9, chr_ok, h10, hf, PR.bind]
  | .choiceify (w := w) (i := i) hw h => by
    have hf := h.fails
    obtain ⟨⟨e1, h1⟩, e2, h2⟩ := open_err x (parserRec x) (c := '&') (by decide) (w ++ i)
    obtain ⟨e4, h4⟩ := chr_err (c := '(') (i := '&' :: (w ++ i)) (notHead_cons (by decide) _)
    obtain ⟨e5, h5⟩ := chr_err (c := '{') (i := '&' :: (w ++ i)) (notHead_cons (by decide) _)
    obtain ⟨e6, h6⟩ := chr_err (c := '[') (i := '&' :: (w ++ i)) (notHead_cons (by decide) _)
    obtain ⟨e9, h9⟩ : ∃ e, tag "~" ('&' :: (w ++ i)) = .err e := tag_err (by intro r e; simp at e)
    have h7 : tag "&" ('&' :: (w ++ i)) = .ok (w ++ i) ['&'] := tag_ok "&" ['&'] _ rfl
    obtain ⟨t, h8⟩ := ws_starts hw (starts_ealpha h.starts)
    obtain ⟨e10, h10⟩ : ∃ e, chr '(' i = .err e := by
      obtain ⟨c, t, rfl, hc⟩ := h.starts
      refine chr_err (c := '(') (notHead_cons ?_ _)
      rintro rfl
      revert hc
      unfold EAlpha
      decide
    rw [parserRec_type2_eq]
    simp only [type2, alt, pmap, h1, h2, type2Parens, type2Map, type2Array, inParens, delimited, preceded, terminated, h4,
      h5, h6, h7, h8, h9, h10, hf, PR.bind]
theorem MalName.fails {i : List Char} : MalName x e i → nameGenericP (parserRec x) i = .fail e
  | .args (s := s) (w := w) (i := i) hs hw h => by
    have hf := h.fails.list
    have h1 := ident_run (r := '<' :: (w ++ i)) hs (notHead_cons (by unfold EAlpha Digit; decide) _)
    have h3 : tag "<" ('<' :: (w ++ i)) = .ok (w ++ i) ['<'] := tag_ok "<" ['<'] _ rfl
    obtain ⟨t, h4⟩ := ws_starts hw h.starts
    simp only [nameGenericP, pmap, pair, h1, opt, genericArg, delimited, preceded, terminated, h3, h4, hf, PR.bind]
theorem MalArgs.fails {i : List Char} : MalArgs x e i →
    SepFails e (pair (tag ",") ws) (terminated (type1 (parserRec x)) ws) i
  | .here h => by
    have hf := h.fails
    exact .inl (by simp only [terminated, hf, PR.bind])
  | .later (s := s) (w := w) (w' := w') (i := i) h hw hw' h' => by
    have et := trim_punct hw (c := ',') (by decide) (w' ++ i)
    have h1 := term_type1 (rest := w ++ ',' :: (w' ++ i)) (comp_over x s.length) (Nat.le_refl _) h
      ((safe_ws hw (safe_punct (by decide) _)).ty1 _) (by rw [et]; simp [NotHead])
    rw [et] at h1
    have h2 : tag "," (',' :: (w' ++ i)) = .ok (w' ++ i) [','] := tag_ok "," [','] _ rfl
    obtain ⟨t, h3⟩ := ws_starts hw' h'.starts
    exact .inr ⟨_, _, h1, by simp; omega, fun k hk => sepLoop_later hk (by simp only [pair, h2, h3, PR.bind]; rfl)
      (by simp; omega) h'.fails⟩
theorem MalTy1.fails {i : List Char} : MalTy1 x e i → type1 (parserRec x) i = .fail e
  | .here h => by
    have hf := h.fails
    simp only [type1, pmap, pair, hf, PR.bind]
  | .range (s := s) (w' := w') (i := i) h hw hw' ha h' => by
    refine type1_over ((comp_over x s.length).t2 (Nat.le_refl _) h (after_dots ha)) (ws_dot hw _) (op := ['.', '.']) ?_
      (ws_starts hw' h'.starts) h'.fails
    have h3 : tag ".." ('.' :: '.' :: (w' ++ i)) = .ok (w' ++ i) ['.', '.'] := tag_ok ".." ['.', '.'] _ rfl
    obtain ⟨e4, h4⟩ : ∃ e, tag "..." ('.' :: '.' :: (w' ++ i)) = .err e := tag_err (by
      intro q e
      simp at e
      exact h'.noDot hw' q e)
    simp only [alt, h3, h4]
  | .rangeExcl (s := s) (w' := w') (i := i) h hw hw' ha h' => by
    refine type1_over ((comp_over x s.length).t2 (Nat.le_refl _) h (after_dots ha)) (ws_dot hw _) (op := ['.', '.', '.']) ?_
      (ws_starts hw' h'.starts) h'.fails
    have h3 : tag "..." ('.' :: '.' :: '.' :: (w' ++ i)) = .ok (w' ++ i) ['.', '.', '.'] := tag_ok "..." ['.', '.', '.'] _ rfl
    simp only [alt, h3]
  | .control (s := s) (op := op) (w' := w') (i := i) h hw ho hw' ha hb h' => by
    refine type1_over ((comp_over x s.length).t2 (Nat.le_refl _) h (after_op ho ha)) (ws_dot hw _) (op := op) ?_
      (ws_starts hw' h'.starts) h'.fails
    have hnd : ∀ q, op ++ (w' ++ i) ≠ '.' :: q := by
      intro q e
      obtain ⟨c, t, rfl, hc⟩ := ho.starts
      simp at e
      rw [e.1] at hc
      exact absurd hc (by decide)
    obtain ⟨e3, h3⟩ : ∃ e, tag "..." ('.' :: (op ++ (w' ++ i))) = .err e := tag_err (by
      intro q e; simp at e; exact hnd _ e)
    obtain ⟨e4, h4⟩ : ∃ e, tag ".." ('.' :: (op ++ (w' ++ i))) = .err e := tag_err (by
      intro q e; simp at e; exact hnd _ e)
    have h5 : tag "." ('.' :: (op ++ (w' ++ i))) = .ok (op ++ (w' ++ i)) ['.'] := tag_ok "." ['.'] _ rfl
    have h6 := ident_run ho (AfterIdent.end hb)
    simp only [alt, h3, h4, controlOp, preceded, h5, h6, PR.bind]
theorem MalTy.fails {i : List Char} : MalTy x e i → SepFails e slash (type1 (parserRec x)) i
  | .here h => .inl h.fails
  | .later (s := s) (w := w) (w' := w') (i := i) h hw hw' h' => by
    have et := trim_punct hw (c := '/') (by decide) (w' ++ i)
    have h1 := type1_run (rest := w ++ '/' :: (w' ++ i)) (comp_over x s.length) (Nat.le_refl _) h
      ((safe_ws hw (safe_punct (by decide) _)).ty1 _) (by rw [et]; simp [NotHead])
    have h2 := slash_run et
    rw [trim_ws hw', h'.starts.trim] at h2
    exact .inr ⟨_, _, h1, by simp, fun k hk => sepLoop_later hk h2 (by simp; omega) h'.fails⟩
theorem MalEntries.fails {i : List Char} : MalEntries x e i →
    ∀ k, i.length < k → many0Loop (terminated (grpent (parserRec x)) optcom) k i = .fail e
  | .here h hl, k, hk => by
    have hf := grpent_over (h.occur hl) h.fails
    exact many0Loop_fails hk (by simp only [terminated, hf, PR.bind])
  | .lower h, k, hk => by
    have hf := uintU64_large h
    exact many0Loop_fails hk (by
      simp only [terminated, grpent, opt, Cddl.occur, alt, occurStar, mapRes, pmap, pair, hf, PR.bind])
  | .upper (u := u) (i := i) hu h, k, hk => by
    have hf := uintU64_large h
    have h1 : ∃ o, opt uintU64 (u ++ '*' :: i) = .ok ('*' :: i) o := by
      rcases hu with rfl | ⟨n, hu, hn⟩
      · obtain ⟨e1, h1⟩ := uintU64_err (i := '*' :: i) (notHead_cons (by unfold Digit; decide) _)
        exact ⟨none, by simp only [List.nil_append, opt, h1]⟩
      · exact ⟨some n, by simp only [opt, uintU64_run hu hn (star_end u i)]⟩
    obtain ⟨o, h1⟩ := h1
    have h2 : tag "*" ('*' :: i) = .ok i ['*'] := tag_ok "*" ['*'] _ rfl
    have h3 : opt uintU64 i = .fail e := by simp only [opt, hf]
    have h4 : opt (terminated Cddl.occur ws) (u ++ '*' :: i) = .fail e := by
      have : occurStar (u ++ '*' :: i) = .fail e := by simp only [occurStar, mapRes, pair, h1, h2, h3, PR.bind]
      unfold opt
      simp only [terminated, Cddl.occur, alt, this, PR.bind]
    exact many0Loop_fails hk (by simp only [terminated, grpent, pmap, pair, h4, PR.bind])
  | .occur (w := w) (i := i) ho hw ha h, k, hk => by
    have hf := h.fails
    have h1 := occur_run ho ha
    obtain ⟨t, h2⟩ := ws_starts hw h.starts
    exact many0Loop_fails hk (by
      simp only [terminated, grpent, pmap, pair, opt, h1, h2, grpentVal, alt, grpentMember, hf, PR.bind])
  | .key (i := i) h he, k, hk => by
    subst he
    have hf := h.fails
    have h1 : opt (terminated Cddl.occur ws) i = .ok i none := by
      obtain ⟨c, t, rfl, hc⟩ := h.starts
      exact occur_none (.inl (ealpha_noOccur hc))
    exact many0Loop_fails hk (by simp only [terminated, grpent, pmap, pair, h1, hf, PR.bind])
  | .occurKey (w := w) (i := i) ho hw ha h he, k, hk => by
    subst he
    have hf := h.fails
    have h1 := occur_run ho ha
    obtain ⟨t, h2⟩ := ws_starts hw (starts_ealpha h.starts)
    exact many0Loop_fails hk (by simp only [terminated, grpent, pmap, pair, opt, h1, h2, hf, PR.bind])
  | .later (s := s) (c := c) (i := i) h hc ha h', k, hk => by
    obtain ⟨rest', h1, h2⟩ := entry_run (rest := c ++ i) parserRec_type2_eq (comp_over x s.length) (comp_rec x s.length).ip
      (Nat.le_refl _) h ha (follow_starts h'.starts hc)
    have h3 := optcom_starts h'.starts hc h2.trim
    refine many0Loop_later (r := i) hk (by simp only [terminated, h1, h3, PR.bind]; rfl) ?_ h'.fails
    have := List.length_pos_iff.2 h.ne
    simp; omega
theorem MalGroup.fails {i : List Char} : MalGroup x e i → GroupFails x e i
  | .here h => .inl (by rw [h.starts.trim]; exact h.fails _ (by omega))
  | .later (s := s) (w := w) (w' := w') (i := i) h hw hw' h' => by
    have et := trim_punct hw (c := '/') (by decide) ('/' :: (w' ++ i))
    have h1 := choice_run (rest := w ++ '/' :: ('/' :: (w' ++ i))) parserRec_type2_eq (comp_over x s.length)
      (comp_rec x s.length).ip _ (Nat.le_refl _) (Nat.le_refl _) h (.inr ⟨_, et⟩)
    rw [et] at h1
    refine .inr ⟨_, _, h1.many0, by simp; omega, fun k hk => ?_⟩
    have h2 := dslash_run (i := '/' :: ('/' :: (w' ++ i))) (u := w' ++ i) (trim_noWs (noWs_slash _))
    rw [trim_ws hw'] at h2
    rcases h'.fails with h3 | ⟨r, c, h3, h4, h5⟩
    · exact many0Loop_fails hk (by unfold preceded; simp only [h2, h3, PR.bind])
    · exact many0Loop_later (r := r) (a := c) hk (by unfold preceded; simp only [h2, h3, PR.bind]) (by simp; omega) h5
end

theorem MalRules.starts {i : List Char} (h : MalRules x e i) : ∃ c t, i = c :: t ∧ EAlpha c := by
  cases h with
  | here h _ _ _ _ => cases h with | mk h _ => exact ⟨_, _, rfl, h⟩
  | later h _ _ _ => cases h with | mk h _ _ _ _ => cases h with | mk h _ => exact ⟨_, _, rfl, h⟩

theorem MalRules.fails {i : List Char} (h : MalRules x e i) :
    terminated (rule x) ws i = .fail e ∨ ∃ r q, terminated (rule x) ws i = .ok r q ∧ r.length < i.length ∧
      ∀ k, r.length < k → many0Loop (terminated (rule x) ws) k r = .fail e := by
  induction h with
  | @here nm ps names w w' i hn hp hw hw' h =>
    left
    have hf : ty (parserRec x) i = .fail e := h.fails.list
    have hsafe : Safe (w ++ '=' :: (w' ++ i)) := safe_ws hw (safe_punct (by decide) _)
    obtain ⟨o, h3, h4⟩ := optParams_run (rest := w ++ '=' :: (w' ++ i)) hp (NotHead.imp hsafe fun c hc => by simp [hc])
    have h5 := ident_run (r := ps ++ (w ++ '=' :: (w' ++ i))) hn (by
      cases hp with
      | none => exact AfterIdent.end hsafe.afterIdent
      | some _ _ => exact notHead_cons (by unfold EAlpha Digit; decide) _)
    obtain ⟨t6, h6⟩ := ws_trim (w ++ '=' :: (w' ++ i))
    rw [trim_punct hw (by decide)] at h6
    have h7 : tag "=" ('=' :: (w' ++ i)) = .ok (w' ++ i) ['='] := tag_ok "=" ['='] _ rfl
    obtain ⟨t8, h8⟩ := ws_starts hw' h.starts
    simp only [terminated, rule, pmap, pair, preceded, h5, h3, h6, ruleVal, h7, h8, alt, hf, PR.bind]
  | @later s q w i h hw ha h' ih =>
    right
    obtain ⟨c, t, rfl, hcm⟩ := h'.starts
    have et : trim (w ++ c :: t) = c :: t := by rw [trim_ws hw, (starter_ealpha hcm).trim]
    obtain ⟨rest', h4, h5⟩ := rule_run (rest := w ++ c :: t) h ha (by unfold RuleFollow; rw [et]; exact fun h => h hcm)
    obtain ⟨t6, h6⟩ := ws_trim rest'
    rw [h5.trim, et] at h6
    have hl := List.length_pos_iff.2 h.ne
    refine ⟨c :: t, q, by simp only [terminated, h4, h6, PR.bind], by simp; omega, fun k hk => ?_⟩
    rcases ih with hf | ⟨r, q', h7, h8, h9⟩
    · exact many0Loop_fails hk hf
    · exact many0Loop_later hk h7 h8 h9

theorem MalRules.parse {w i : List Char} (hw : WS w) (h : MalRules x e i) :
    parseCddl x (String.ofList (w ++ i)) = .err (.parseError e) := by
  have hst : Starts i := by
    obtain ⟨c, t, rfl, hc⟩ := h.starts
    exact ⟨_, _, rfl, starter_ealpha hc⟩
  obtain ⟨t, h1⟩ := ws_starts hw hst
  rcases h.fails with hf | ⟨r, q, h2, _, h3⟩
  · simp only [parseCddl, allConsuming, String.toList_ofList, cddl, preceded, h1, many1, hf, PR.bind, PR.toRes]
  · have h3 := h3 (r.length + 1) (by omega)
    simp only [parseCddl, allConsuming, String.toList_ofList, cddl, preceded, h1, many1, h2, many0, h3, PR.bind, PR.toRes]

end Cddl
