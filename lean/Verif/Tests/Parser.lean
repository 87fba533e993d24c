import Verif.Tests.Common

/-!
# The unit tests of /repo/src/parser/mod.rs:1172-1811

Each assertion of the tests of the parser, evaluated in the model.
-/

namespace Cddl.Tests

open Ast (Ty2 Ty1 GrpEnt GrpEntVal MemberKeyVal)

/-- The libraries on the arguments that occur in these tests. -/
def px : ParseExt :=
  { parseF64 := table [("0.0", ⟨0⟩), ("1e99", ⟨0x547d42aea2879f2e⟩), ("-1e-99", ⟨0xab617f7d4ed8c33e⟩)]
    unescape := fun s =>
      if s.toList.contains '\\' then
        table [("a\\nb", "a\nb"), ("\\uD834\\uDD1E", "𝄞")] s
      else some s
    base64 := table [("YWJj", [97, 98, 99]), ("AP8Bfw==", [0, 0xFF, 1, 0x7F]), ("", [])] }

def r : PRec := parserRec px

/-- The rest of the input and the result. -/
def got {α : Type} (p : P α) (s : String) : Option (String × α) :=
  match p s.toList with
  | .ok rest a => some (String.ofList rest, a)
  | _ => none

def text (p : P (List Char)) (s : String) : Option (String × String) :=
  (got p s).map fun q => (q.1, String.ofList q.2)

/-- The kind of a `nom::Err::Failure`. -/
def failKind {α : Type} (p : P α) (s : String) : Option ParseErrorKind :=
  match p s.toList with
  | .fail e => some e.kind
  | _ => none

def tn (s : String) : Ty2 := .typename s []
def t1 (s : String) : Ty1 := .simple (tn s)

theorem test_whitespace : (got ws "  ; a comment\n        \r\n; another;;;comment\n  ").map Prod.fst = some "" := by
  decide +kernel

theorem test_ident : text ident "a" = some ("", "a") ∧ text ident "a1" = some ("", "a1") ∧
    text ident "a.1" = some ("", "a.1") ∧ text ident "a1." = some (".", "a1") ∧ text ident "@a1" = some ("", "@a1") ∧
    text ident "a..b" = some ("", "a..b") ∧ text ident "1a" = none := by decide +kernel

theorem test_uint : got uintU64 "999" = some ("", 999) ∧ got uintU64 "0" = some ("", 0) ∧
    got uintU64 "0x100" = some ("", 256) ∧ got uintU64 "0b101" = some ("", 5) ∧ got uintU64 "00" = some ("0", 0) := by
  decide +kernel

theorem test_float_or_int : got (floatOrInt px) "0.0" = some ("", .float ⟨0⟩) ∧
    got (floatOrInt px) "1e99" = some ("", .float ⟨0x547d42aea2879f2e⟩) ∧
    got (floatOrInt px) "-1e-99" = some ("", .float ⟨0xab617f7d4ed8c33e⟩) ∧
    got (floatOrInt px) "123" = some ("", .uint 123) ∧ got (floatOrInt px) "-123" = some ("", .nint (-123)) ∧
    got (floatOrInt px) "1e" = some ("e", .uint 1) ∧ got (floatOrInt px) "1." = some (".", .uint 1) ∧
    got (floatOrInt px) "abc" = none ∧ got (floatOrInt px) "0x100" = some ("", .uint 256) ∧
    got (floatOrInt px) "0b101" = some ("", .uint 5) ∧ got (floatOrInt px) "00" = some ("0", .uint 0) ∧
    got (floatOrInt px) "-0x100" = some ("", .nint (-256)) ∧ got (floatOrInt px) "-0b101" = some ("", .nint (-5)) ∧
    got (floatOrInt px) "0b1e99" = none ∧ got (floatOrInt px) "0b1.1" = none := by decide +kernel

theorem test_bytestring : got (bytestring px) "'abc'" = some ("", [97, 98, 99]) ∧
    got (bytestring px) "h'61 62 63'" = some ("", [97, 98, 99]) ∧
    got (bytestring px) "h' 6 1626 3  '" = some ("", [97, 98, 99]) ∧
    got (bytestring px) "b64'YWJj'" = some ("", [97, 98, 99]) ∧
    got (bytestring px) "'a\\nb'" = some ("", [97, 10, 98]) ∧
    got (bytestring px) "'\\uD834\\uDD1E'" = some ("", [0xf0, 0x9d, 0x84, 0x9e]) ∧
    got (bytestring px) "h'00FF017f'" = some ("", [0, 0xFF, 1, 0x7F]) ∧
    got (bytestring px) "b64'AP8Bfw=='" = some ("", [0, 0xFF, 1, 0x7F]) ∧
    got (bytestring px) "h''" = some ("", []) ∧ got (bytestring px) "b64''" = some ("", []) ∧
    failKind (bytestring px) "h'0g1234'" = some .malformedHex ∧
    failKind (bytestring px) "b64'AP!Bfw=='" = some .malformedBase64 ∧
    failKind (bytestring px) "b64'++8A'" = some .malformedBase64 ∧
    failKind (bytestring px) "b64'////'" = some .malformedBase64 := by decide +kernel

theorem test_text : isUnescapedSchar 'A' = true ∧ isUnescapedSchar 'の' = true ∧
    isUnescapedSchar (Char.ofNat 0x10FF0) = true ∧ isUnescapedSchar (Char.ofNat 0x7F) = false ∧
    text (takeWhile1 isUnescapedSchar) "Aの" = some ("", "Aの") ∧
    text sesc "\\n" = some ("", "n") ∧ text sesc "\\nn" = some ("n", "n") ∧ text sesc "\\の" = some ("", "の") ∧
    text schar "Ab! \\c の \\\\" = some ("", "Ab! \\c の \\\\") ∧ text schar "a\\nb" = some ("", "a\\nb") ∧
    text schar "a\nb" = some ("\nb", "a") ∧ got (textLiteral px) "\"a\nb" = none ∧ got (textLiteral px) "abc" = none ∧
    got (textLiteral px) "\"\"" = some ("", "") ∧ got (textLiteral px) "\"a\\nb\"" = some ("", "a\nb") ∧
    got (textLiteral px) "\"\\uD834\\uDD1E\"" = some ("", "𝄞") ∧ got (textLiteral px) "\"の\"" = some ("", "の") := by
  decide +kernel

theorem test_value : got (value px) "123" = some ("", .uint 123) ∧ got (value px) "\"abc\"" = some ("", .text "abc") ∧
    got (value px) "abc" = none := by decide +kernel

set_option maxRecDepth 100000

theorem test_member : (got (grpentMember r) "a:b").map Prod.snd = some (.keyed (.bareword "a") true [t1 "b"]) ∧
    (got (grpentMember r) "foo").map Prod.snd = some (.member [t1 "foo"]) ∧
    (got (grpentMember r) "a => b").map Prod.snd = some (.keyed (.type1 (t1 "a")) false [t1 "b"]) ∧
    (got (grpentMember r) "42 ^ => b").map Prod.snd =
      some (.keyed (.type1 (.simple (.value (.uint 42)))) true [t1 "b"]) ∧
    (got (grpentMember r) "abc<T> => def").map Prod.snd =
      some (.keyed (.type1 (.simple (.typename "abc" [t1 "T"]))) false [t1 "def"]) ∧
    got (grpentMember r) "abc<T> : def" = none := ⟨rfl, rfl, rfl, rfl, rfl, rfl⟩

theorem test_grpent_parens : (got (inParens r) "()").map Prod.snd = some [[]] := rfl

theorem test_grpent_val : (got (grpentVal r) "foo").map Prod.snd = some (.member [t1 "foo"]) ∧
    (got (grpentVal r) "17").map Prod.snd = some (.member [.simple (.value (.uint 17))]) := ⟨rfl, rfl⟩

theorem test_occur : got occur "?" = some ("", .optional) ∧ got occur "+" = some ("", .oneOrMore) ∧
    got occur "*" = some ("", .zeroOrMore) ∧ got occur "*9" = some ("", .numbered 0 9) ∧
    got occur "7*" = some ("", .numbered 7 18446744073709551615) ∧ got occur "7*9" = some ("", .numbered 7 9) ∧
    got occur "0b100*0x10" = some ("", .numbered 4 16) := by decide +kernel

theorem test_grpent : (got (grpent r) "foo").map Prod.snd = some (.mk none (.member [t1 "foo"])) ∧
    (got (grpent r) "foo: bar").map Prod.snd = some (.mk none (.keyed (.bareword "foo") true [t1 "bar"])) := ⟨rfl, rfl⟩

theorem test_grpchoice_empty : (got (grpchoice r) "").map Prod.snd = some [] := rfl

theorem test_group_empty : (got r.group "").map Prod.snd = some [[]] := rfl

theorem test_type1 :
    (got (type1 r) "1 .. 9").map Prod.snd = some (.range (.value (.uint 1)) (.value (.uint 9)) true) ∧
    (got (type1 r) "0x10 .. 0x1C").map Prod.snd = some (.range (.value (.uint 16)) (.value (.uint 28)) true) ∧
    (got (type1 r) "1 ... 9").map Prod.snd = some (.range (.value (.uint 1)) (.value (.uint 9)) false) ∧
    (got (type1 r) "uint .size 3").map Prod.snd = some (.control (tn "uint") (.value (.uint 3)) "size") ∧
    (got r.type2 "min..max").map Prod.snd = some (tn "min..max") := ⟨rfl, rfl, rfl, rfl, rfl⟩

theorem test_grpchoice : (got (grpchoice r) "abc").map Prod.snd = some [.mk none (.member [t1 "abc"])] ∧
    (got (grpchoice r) "abc, def").map Prod.snd =
      some [.mk none (.member [t1 "abc"]), .mk none (.member [t1 "def"])] := ⟨rfl, rfl⟩

theorem test_generic_parm : got genericParm "" = none ∧ got genericParm "<>" = none ∧
    (got genericParm "<foo>").map Prod.snd = some ["foo".toList] ∧
    (got genericParm "<foo,bar>").map Prod.snd = some ["foo".toList, "bar".toList] ∧
    (got genericParm "< foo , _bar_ >").map Prod.snd = some ["foo".toList, "_bar_".toList] := by decide +kernel

theorem test_generic_arg : got (genericArg r) "" = none ∧ got (genericArg r) "<>" = none ∧
    (got (genericArg r) "<foo>").map Prod.snd = some [t1 "foo"] ∧
    (got (genericArg r) "<foo,bar>").map Prod.snd = some [t1 "foo", t1 "bar"] ∧
    (got (genericArg r) "< foo , _bar_ >").map Prod.snd = some [t1 "foo", t1 "_bar_"] := ⟨rfl, rfl, rfl, rfl, rfl⟩

theorem choiceify : (got r.type2 "&foo").map Prod.snd = some (.choiceify "foo" []) ∧
    (got r.type2 "&(a:1)").map Prod.snd =
      some (.choiceifyInline [[.mk none (.keyed (.bareword "a") true [.simple (.value (.uint 1))])]]) := ⟨rfl, rfl⟩

theorem test_rule : (got (rule px) "foo=bar").map Prod.snd = some ⟨"foo", [], .assignType [t1 "bar"]⟩ ∧
    (got (rule px) "foo=(bar, baz)").map Prod.snd =
      some ⟨"foo", [], .assignGroup (.mk none (.parens
        [[.mk none (.member [t1 "bar"]), .mk none (.member [t1 "baz"])]]))⟩ ∧
    (got (rule px) "message<t, v> = [t, v]").map Prod.snd =
      some ⟨"message", ["t", "v"], .assignType [.simple (.array
        [[.mk none (.member [t1 "t"]), .mk none (.member [t1 "v"])]])]⟩ := ⟨rfl, rfl, rfl⟩

theorem test_cddl : parseCddl px "foo = {\"a\": bar,\n b => baz}" = .ok [⟨"foo", [], .assignType [.simple (.map
    [[.mk none (.keyed (.value (.text "a")) true [t1 "bar"]),
      .mk none (.keyed (.type1 (t1 "b")) false [t1 "baz"])]])]⟩] := rfl

/-- The texts of the rules. -/
def slices (s : String) : List String :=
  match sliceParseCddl px s with
  | .ok rs => rs.map Prod.snd
  | _ => []

theorem test_cddl_slice : slices " foo = { a: tstr } bar = \n[ int ] " = ["foo = { a: tstr }", "bar = \n[ int ]"] := by
  decide +kernel

/-- The text parses. -/
def parses (s : String) : Bool :=
  match parseCddl px s with
  | .ok _ => true
  | _ => false

theorem test_stuff : parses "thing = { foo : tstr }" = true ∧ parses "bar = (c: int)" = true ∧
    parses "thing = {agroup empty} agroup = (age: int, name: tstr) empty = ()" = true ∧
    parses "\n            address = { delivery }\n\n            delivery = (\n            street: tstr, ? \"number\": uint, city //\n            po_box: uint, city //\n            per_pickup: true )\n\n            city = (\n            name: tstr, zip_code: uint\n            )" = true := by
  decide +kernel

/-- The kind of the parse error. -/
def errKind (s : String) : Option ParseErrorKind :=
  match parseCddl px s with
  | .err (.parseError e) => some e.kind
  | _ => none

theorem test_errors : errKind "x=9999999999999999999999999999999" = some .malformedInteger ∧
    errKind "x=\"\\ud800\"" = some .malformedText ∧ errKind "x=h'61 62 6'" = some .malformedHex := by decide +kernel

/-- /repo/tests/recurse.rs: deep nesting parses (in the crate: within five seconds). -/
theorem test_recursion : parses "a = [[[[[[[[[[[[[[[[[[[[[[ int ]]]]]]]]]]]]]]]]]]]]]]" = true ∧
    parses "a = {{{{{{{{{{{{{{{{{{{{{{ int }}}}}}}}}}}}}}}}}}}}}}" = true := by decide +kernel

end Cddl.Tests
