import Verif.Proofs.Malformed
import Verif.Props.C41
import Verif.Props.C44
import Verif.Props.C62

/-! # C80  A literal that cannot be represented is reported as such -/

namespace Cddl

/-- C80.  A text that is read without trouble up to a literal that cannot be represented gives the error for that literal,
with its kind and its text, whatever stands behind it; likewise, up to an entry whose key has generic arguments in front of
`:`, the error that says so. -/
theorem C80_reported {x : ParseExt} {e : ParseError} {w s : List Char} (hw : WS w) (h : MalRules x e s) :
    parseCddl x (String.ofList (w ++ s)) = .err (.parseError e) := h.parse hw

/-- C80.  The same for the variant of the parser that keeps the texts of the rules. -/
theorem C80_slice {x : ParseExt} {e : ParseError} {w s : List Char} (hw : WS w) (h : MalRules x e s) :
    sliceParseCddl x (String.ofList (w ++ s)) = .err (.parseError e) := C62_slice.2 (h.parse hw)

/-- C80.  The entry points of the crate give the same error, whatever the rule asked for and whatever the data. -/
theorem C80_entry {l : Libs} {e : ParseError} {w s : List Char} (hw : WS w) (h : MalRules l.parse e s) (name : String) :
    (∀ json, validateJsonStr l name (String.ofList (w ++ s)) json = .err (.parseError e)) ∧
    ∀ cbor, validateCborBytes l name (String.ofList (w ++ s)) cbor = .err (.parseError e) :=
  ⟨fun json => (C44_json_str l name _ json _).2 (.notCddl (h.parse hw)),
    fun cbor => (C44_cbor_bytes l name _ cbor _).2 (.notCddl (h.parse hw))⟩

/-- C80.  The literals are among the ones of C62, and any text may stand behind a string. -/
theorem C80_literal {x : ParseExt} {e : ParseError} {s r : List Char} (h : MalLiteral x e s r) : BadToken x s e := by
  cases h with
  | uint h hn _ => exact .uint h hn
  | nint h hn _ => exact .nint h hn
  | float hsg h _ hfr hex hne hf _ => exact .float hsg h hfr hex hne hf
  | text hq hu => exact .text hq hu
  | bytes hq hu => exact .bytes hq hu
  | hex hq hb => exact .hex hq hb
  | base64 hq hb => exact .base64 hq hb

/-- C80.  Where an entry may begin, the integer part of a float is taken for a bound of an occurrence first: if it does not
fit, it is reported instead of the float, be that malformed or not. -/
theorem C80_integer_part {x : ParseExt} {name u fr ex r : List Char} {n : Nat} (hn : Ident name) (hu : UintText u n)
    (hd : ∀ d ∈ u, Digit d) (h64 : 2 ^ 64 ≤ n) (hfr : FracText fr) (hex : ExpText ex) (hr : AfterNumber r) :
    parseCddl x (String.ofList (name ++ '=' :: '[' :: (u ++ fr ++ ex ++ r))) =
      .err (.parseError ⟨.malformedInteger, String.ofList u⟩) := by
  have hl : LargeNumber ⟨.malformedInteger, String.ofList u⟩ (u ++ (fr ++ (ex ++ r))) :=
    ⟨u, u, n, _, rfl, .dec hu hd, h64, rfl, .inr ⟨hd, float_end hfr hex hr⟩⟩
  have := C80_reported (x := x) (w := []) .nil (.here (w := []) (w' := []) hn .none .nil .nil
    (.here (.here (.array (w := []) .nil (.here (.lower hl))))))
  simpa using this

/-- C80.  In particular an array or map of one entry whose key has generic arguments, whatever stands behind it. -/
theorem C80_generic_key {x : ParseExt} {name k w w' s v r : List Char} {n : String} {as : List Ast.Ty1} {t : Ast.Ty}
    (b : Bool) (hn : Ident name) (hk : GName x true k n as) (has : as ≠ []) (hw : WS w) (hw' : WS w') (ht : GTy x true s t)
    (hv : WS v) : parseCddl x (String.ofList (name ++ '=' :: (if b then '[' else '{') :: (k ++ (w ++ ':' :: (w' ++ (s ++
      (v ++ (if b then ']' else '}') :: r))))))) = .err (.parseError ⟨.unparseable, "Bareword with generic arguments"⟩) := by
  have hg : MalGroup x genericKeyError (k ++ (w ++ ':' :: (w' ++ (s ++ (v ++ (if b then ']' else '}') :: r))))) :=
    .here (.key (.mk hk has hw hw' ht hv (by cases b <;> decide)) rfl)
  cases b with
  | true =>
    have := C80_reported (x := x) (w := []) .nil (.here (w := []) (w' := []) hn .none .nil .nil
      (.here (.here (.array (w := []) .nil hg))))
    simpa [genericKeyError] using this
  | false =>
    have := C80_reported (x := x) (w := []) .nil (.here (w := []) (w' := []) hn .none .nil .nil
      (.here (.here (.map (w := []) .nil hg))))
    simpa [genericKeyError] using this

/-- C80 does not extend to the places left out: in the value behind a key a string of hexadecimal digits that is none is
not reported (/repo/src/parser/mod.rs:651-657), nor behind the first alternative of an entry without key
(/repo/src/parser/mod.rs:690-702). -/
theorem C80_swallowed :
    parseCddl demoExt "x = {a: h'0'}" = .err (.parseError ⟨.unparseable, "{a: h'0'}"⟩) ∧
    parseCddl demoExt "x = [1 / h'0']" = .err (.parseError ⟨.unparseable, "[1 / h'0']"⟩) := by
  constructor <;> rfl

/-- `h'0'` is no string of bytes. -/
theorem odd_hex (b : List UInt8) : ¬ HexBytes (['0'].filter fun c => ¬ HexBlank c) b := by
  intro h
  have := hexDecode_complete h
  revert this
  rw [show (['0'].filter fun c => decide ¬ HexBlank c) = ['0'] by unfold HexBlank; decide]
  intro h
  cases h

/-- Behind a rule and an operator, in an array in generic arguments: `a=b c=1..&d<[? h'0'{` is reported as
`MalformedHex`. -/
example : parseCddl demoExt "a=b c=1..&d<[? h'0'{" = .err (.parseError ⟨.malformedHex, "0"⟩) := by
  have hid : ∀ {c : Char}, EAlpha c → Ident [c] := fun h => .mk h .nil
  have ha : Ident ['a'] := hid (by unfold EAlpha; decide)
  have hb : Ident ['b'] := hid (by unfold EAlpha; decide)
  have hc : Ident ['c'] := hid (by unfold EAlpha; decide)
  have hd : Ident ['d'] := hid (by unfold EAlpha; decide)
  have h1 : UintText ['1'] 1 := .dec (c := '1') (ds := []) (by unfold Digit; decide) (by decide) (by simp)
  have hq : Quoted true '\'' ['0'] := .plain (by unfold PlainChar; decide) (by decide) (by decide) .nil
  have hlit : MalLiteral demoExt ⟨.malformedHex, String.ofList (['0'].filter fun c => ¬ HexBlank c)⟩ "h'0'".toList ['{'] :=
    .hex hq odd_hex
  rw [show (['0'].filter fun c => decide ¬ HexBlank c) = ['0'] by unfold HexBlank; decide] at hlit
  have hin : MalEntries demoExt ⟨.malformedHex, "0"⟩ "? h'0'{".toList :=
    .occur (s := ['?']) (w := [' ']) .optional (.blank (.inl rfl) .nil) (by simp [AfterOccur]) (.here (.literal hlit))
  have hty : MalTy demoExt ⟨.malformedHex, "0"⟩ "1..&d<[? h'0'{".toList :=
    .here (.range (s := ['1']) (w := []) (w' := []) (.value (.uint h1 (by decide))) .nil .nil
      (by simp [AfterTy2, AfterNumber, NotHead, Digit])
      (.choiceify (w := []) .nil (.args (s := ['d']) (w := []) hd .nil (.here (.here (.array (w := []) .nil (.here hin)))))))
  have hr : MalRules demoExt ⟨.malformedHex, "0"⟩ "a=b c=1..&d<[? h'0'{".toList :=
    .later (s := "a=b".toList) (w := [' ']) (q := ⟨"a", [], .assignType [.simple (.typename "b" [])]⟩)
      (.mk (n := ['a']) (ps := []) (w := []) (w' := []) ha .none .nil .nil (.type (.one (.simple (.name (.plain hb))))))
      (.blank (.inl rfl) .nil)
      (by simp [AfterRuleVal, AfterTy, AfterTy1, AfterTy2, AfterIdent, NotHead, EAlpha, Digit])
      (.here (n := ['c']) (ps := []) (w := []) (w' := []) hc .none .nil .nil hty)
  have := C80_reported (w := []) .nil hr
  simpa using this

set_option maxRecDepth 100000 in
/-- Each kind of literal. -/
example : parseCddl demoExt "x = [18446744073709551616, y" = .err (.parseError ⟨.malformedInteger, "18446744073709551616"⟩) ∧
    parseCddl demoExt "x = [0x1.5, y" = .err (.parseError ⟨.malformedFloat, "0x1.5"⟩) ∧
    parseCddl ⟨fun _ => none, fun _ => none, fun _ => none⟩ "x = {\"\\q\" => y" = .err (.parseError ⟨.malformedText, "\\q"⟩) ∧
    parseCddl ⟨fun _ => none, fun _ => none, fun _ => none⟩ "x = (tstr / '\\q'" = .err (.parseError ⟨.malformedText, "\\q"⟩) ∧
    parseCddl demoExt "x = h'0 g'" = .err (.parseError ⟨.malformedHex, "0g"⟩) ∧
    parseCddl demoExt "x = b64'?'" = .err (.parseError ⟨.malformedBase64, "?"⟩) ∧
    parseCddl demoExt "x = [99999999999999999999.5]" = .err (.parseError ⟨.malformedInteger, "99999999999999999999"⟩) ∧
    parseCddl demoExt "x = 99999999999999999999.5" = .err (.parseError ⟨.malformedFloat, "99999999999999999999.5"⟩) := by
  refine ⟨?_, ?_, ?_, ?_, ?_, ?_, ?_, ?_⟩ <;> rfl

/-- `x={a<b>:c}?` -/
example : parseCddl demoExt "x={a<b>:c}?" = .err (.parseError ⟨.unparseable, "Bareword with generic arguments"⟩) := by
  have hid : ∀ {c : Char}, EAlpha c → Ident [c] := fun h => .mk h .nil
  have hx : Ident ['x'] := hid (by unfold EAlpha; decide)
  have ha : Ident ['a'] := hid (by unfold EAlpha; decide)
  have hb : Ident ['b'] := hid (by unfold EAlpha; decide)
  have hc : Ident ['c'] := hid (by unfold EAlpha; decide)
  have := C80_generic_key (x := demoExt) (w := []) (w' := []) (v := []) (r := ['?']) false hx
    (.generic (w := []) ha .nil (.one (w := []) (.simple (.name (.plain hb))) .nil)) (by simp) .nil .nil
    (.one (.simple (.name (.plain hc)))) .nil
  simpa using this

end Cddl
