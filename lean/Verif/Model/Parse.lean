import Verif.Model.Nom
import Verif.Model.Ast

/-!
# The CDDL parser

Models /repo/src/parser/mod.rs:94-1169.
-/

namespace Cddl

open Ast (Ty Ty1 Ty2 MemberKeyVal GrpEntVal GrpEnt Group GrpChoice RuleVal)

/-- Library functions the parser calls. -/
structure ParseExt where
  /-- `str::parse::<f64>`, /repo/src/parser/mod.rs:304 -/
  parseF64 : String → Option F64
  /-- `escape8259::unescape`, /repo/src/parser/mod.rs:430 and 537 -/
  unescape : String → Option String
  /-- `URL_SAFE.decode` of the crate `base64`, /repo/src/parser/mod.rs:474 -/
  base64 : String → Option (List UInt8)

/-- `comment`, /repo/src/parser/mod.rs:94-100. -/
def comment : P (List Char) := preceded (chr ';') notLineEnding

/-- `ws`, /repo/src/parser/mod.rs:105-116. -/
def ws : P (List Char) := recognize (many0 (alt multispace1 comment))

/-- `optcom`, /repo/src/parser/mod.rs:120-129. -/
def optcom : P Unit := pmap (fun _ => ()) (pair ws (opt (pair (tag ",") ws)))

/-- `ealpha_char`, /repo/src/parser/mod.rs:141-143. -/
def ealphaChar (c : Char) : Bool :=
  ('a' ≤ c && c ≤ 'z') || ('A' ≤ c && c ≤ 'Z') || c == '@' || c == '_' || c == '$'

/-- `ealpha`, /repo/src/parser/mod.rs:146-149. -/
def ealpha : P (List Char) := takeWhile1 ealphaChar

/-- `ident_tail`, /repo/src/parser/mod.rs:153-164. -/
def identTail : P (List Char) := recognize (preceded (opt (many1 (oneOfChars "-."))) (alt ealpha digit1))

/-- `ident`, /repo/src/parser/mod.rs:167-175. -/
def ident : P (List Char) := recognize (preceded ealpha (many0 identTail))

/-- `uint_hex`, /repo/src/parser/mod.rs:182-188. -/
def uintHex : P (List Char) := preceded (tag "0x") hexDigit1

/-- `uint_binary`, /repo/src/parser/mod.rs:191-197. -/
def uintBinary : P (List Char) := preceded (tag "0b") (recognize (many1 (oneOfChars "01")))

/-- `uint_decimal`, /repo/src/parser/mod.rs:200-211. -/
def uintDecimal : P (List Char) := alt (tag "0") (recognize (pair (oneOfChars "123456789") digit0))

/-- `RawUint`, /repo/src/parser/mod.rs:218-221. -/
structure RawUint where
  slice : List Char
  base : Nat
  deriving DecidableEq, Repr

/-- `uint`, /repo/src/parser/mod.rs:225-234. -/
def uint : P RawUint :=
  alt (pmap (fun s => ⟨s, 16⟩) uintHex) (alt (pmap (fun s => ⟨s, 2⟩) uintBinary) (pmap (fun s => ⟨s, 10⟩) uintDecimal))

/-- `char::to_digit` for a radix up to 16. -/
def digitVal (c : Char) : Option Nat :=
  if '0' ≤ c ∧ c ≤ '9' then some (c.toNat - 48)
  else if 'a' ≤ c ∧ c ≤ 'f' then some (c.toNat - 87)
  else if 'A' ≤ c ∧ c ≤ 'F' then some (c.toNat - 55)
  else none

/-- The loop of `u64::from_str_radix`: `None` for a bad digit or a value of 2^64 or more. -/
def radixLoop (base : Nat) : Nat → List Char → Option Nat
  | acc, [] => some acc
  | acc, c :: cs =>
    match digitVal c with
    | none => none
    | some d =>
      if d < base ∧ acc * base + d < 18446744073709551616 then radixLoop base (acc * base + d) cs else none

/-- `u64::from_str_radix` (of the Rust standard library) on texts that do not begin with `+`. -/
def fromStrRadix (s : List Char) (base : Nat) : Option Nat :=
  if s.isEmpty then none else radixLoop base 0 s

/-- `uint_u64`, /repo/src/parser/mod.rs:238-246. -/
def uintU64 : P Nat :=
  mapResFail uint fun raw =>
    match fromStrRadix raw.slice raw.base with
    | some n => .ok n
    | none => .error ⟨.malformedInteger, String.ofList raw.slice⟩

/-- `RawInt`, /repo/src/parser/mod.rs:250-254. -/
structure RawInt where
  slice : List Char
  base : Nat
  neg : Bool
  deriving DecidableEq, Repr

/-- `int`, /repo/src/parser/mod.rs:258-271. -/
def int : P RawInt := pmap (fun p => ⟨p.2.slice, p.2.base, p.1.isSome⟩) (pair (opt (chr '-')) uint)

/-- `dot_fraction`, /repo/src/parser/mod.rs:276-284. -/
def dotFraction : P (List Char) := recognize (pair (chr '.') digit1)

/-- `e_exponent`, /repo/src/parser/mod.rs:289-298. -/
def eExponent : P (List Char) := recognize (pair (chr 'e') (pair (opt (oneOfChars "+-")) digit1))

/-- `parse_float`, /repo/src/parser/mod.rs:303-308. -/
def parseFloat (x : ParseExt) (s : List Char) : Except ParseError Ast.Value :=
  match x.parseF64 (String.ofList s) with
  | some f => .ok (.float f)
  | none => .error ⟨.malformedFloat, String.ofList s⟩

/-- `parse_int`, /repo/src/parser/mod.rs:312-326.  A negative number must fit `i64` before it is negated. -/
def parseInt (raw : RawInt) : Except ParseError Ast.Value :=
  match fromStrRadix raw.slice raw.base with
  | none => .error ⟨.malformedInteger, String.ofList raw.slice⟩
  | some posint =>
    if raw.neg then
      if posint < 9223372036854775808 then .ok (.nint (-(posint : Int)))
      else .error ⟨.malformedInteger, String.ofList raw.slice⟩
    else .ok (.uint posint)

/-- `float_or_int`, /repo/src/parser/mod.rs:357-371. -/
def floatOrInt (x : ParseExt) : P Ast.Value :=
  mapResFail (recognizer (pair int (pair (opt dotFraction) (opt eExponent)))) fun out =>
    if out.2.2.1.isSome || out.2.2.2.isSome then parseFloat x out.1 else parseInt out.2.1

/-- `is_unescaped_bchar`, /repo/src/parser/mod.rs:385-395.  The upper bound 0x10FFD (for 0x10FFFD) is the
code's. -/
def isUnescapedBchar (c : Char) : Bool :=
  (0x20 ≤ c.toNat && c.toNat ≤ 0x26) || (0x28 ≤ c.toNat && c.toNat ≤ 0x5B) ||
    (0x5D ≤ c.toNat && c.toNat ≤ 0x7E) || (0x80 ≤ c.toNat && c.toNat ≤ 0x10FFD)

/-- `is_unescaped_schar`, /repo/src/parser/mod.rs:487-497. -/
def isUnescapedSchar (c : Char) : Bool :=
  (0x20 ≤ c.toNat && c.toNat ≤ 0x21) || (0x23 ≤ c.toNat && c.toNat ≤ 0x5B) ||
    (0x5D ≤ c.toNat && c.toNat ≤ 0x7E) || (0x80 ≤ c.toNat && c.toNat ≤ 0x10FFD)

/-- `sesc`, /repo/src/parser/mod.rs:508-512. -/
def sesc : P (List Char) := preceded (chr '\\') (recognize anychar)

/-- `bchar` with `unescaped_bchar`, /repo/src/parser/mod.rs:399-417. -/
def bchar : P (List Char) := recognize (many0 (alt (takeWhile1 isUnescapedBchar) sesc))

/-- `schar` with `unescaped_schar`, /repo/src/parser/mod.rs:501-526. -/
def schar : P (List Char) := recognize (many0 (alt (takeWhile1 isUnescapedSchar) sesc))

/-- The closure of `bytestring_utf8` and `text_literal`, /repo/src/parser/mod.rs:429-431 and 536-538. -/
def unescapeOr (x : ParseExt) (s : List Char) : Except ParseError String :=
  match x.unescape (String.ofList s) with
  | some t => .ok t
  | none => .error ⟨.malformedText, String.ofList s⟩

/-- `bytestring_utf8`, /repo/src/parser/mod.rs:422-433. -/
def bytestringUtf8 (x : ParseExt) : P String := mapResFail (delimited (tag "'") bchar (tag "'")) (unescapeOr x)

/-- `bytestring_hex`, /repo/src/parser/mod.rs:438-444. -/
def bytestringHex : P (List Char) := delimited (tag "h'") bchar (tag "'")

/-- `bytestring_base64`, /repo/src/parser/mod.rs:449-455. -/
def bytestringBase64 : P (List Char) := delimited (tag "b64'") bchar (chr '\'')

/-- `char::is_ascii_whitespace` -/
def isAsciiWhitespace (c : Char) : Bool :=
  c == ' ' || c == '\t' || c == '\n' || c == '\x0c' || c == '\r'

/-- `hex::decode` of the crate `hex`: pairs of hexadecimal digits, the first one the high half. -/
def hexDecode : List Char → Option (List UInt8)
  | [] => some []
  | [_] => none
  | a :: b :: s =>
    match digitVal a, digitVal b, hexDecode s with
    | some h, some l, some bs => some (UInt8.ofNat (h * 16 + l) :: bs)
    | _, _, _ => none

/-- `parse_hex`, /repo/src/parser/mod.rs:459-465. -/
def parseHex (s : List Char) : Except ParseError (List UInt8) :=
  match hexDecode (s.filter fun c => !isAsciiWhitespace c) with
  | some b => .ok b
  | none => .error ⟨.malformedHex, String.ofList (s.filter fun c => !isAsciiWhitespace c)⟩

/-- The closure of `bytestring` for base64, /repo/src/parser/mod.rs:472-477. -/
def parseBase64 (x : ParseExt) (s : List Char) : Except ParseError (List UInt8) :=
  match x.base64 (String.ofList s) with
  | some b => .ok b
  | none => .error ⟨.malformedBase64, String.ofList s⟩

/-- `bytestring`, /repo/src/parser/mod.rs:468-480. -/
def bytestring (x : ParseExt) : P (List UInt8) :=
  alt (pmap (fun s => s.toUTF8.data.toList) (bytestringUtf8 x))
    (alt (mapResFail bytestringHex parseHex) (mapResFail bytestringBase64 (parseBase64 x)))

/-- `text_literal`, /repo/src/parser/mod.rs:529-540. -/
def textLiteral (x : ParseExt) : P String := mapResFail (delimited (chr '"') schar (chr '"')) (unescapeOr x)

/-- `value`, /repo/src/parser/mod.rs:545-551. -/
def value (x : ParseExt) : P Ast.Value :=
  alt (floatOrInt x) (alt (pmap .text (textLiteral x)) (pmap .bytes (bytestring x)))

/-- The recursive calls: `type2` and `group`. -/
structure PRec where
  type2 : P Ty2
  group : P Group

/-- `control_op`, /repo/src/parser/mod.rs:956-962. -/
def controlOp : P (List Char) := preceded (tag ".") ident

/-- `range_or_control_op`, /repo/src/parser/mod.rs:967-980. -/
def rangeOrControlOp (r : PRec) : P (List Char × Ty2) :=
  pair (alt (tag "...") (alt (tag "..") controlOp)) (preceded ws r.type2)

/-- The closure of `type1`, /repo/src/parser/mod.rs:994-1011. -/
def makeType1 : Ty2 × Option (List Char × Ty2) → Ty1
  | (t, none) => .simple t
  | (t, some (op, a)) =>
    if op = "..".toList then .range t a true
    else if op = "...".toList then .range t a false
    else .control t a (String.ofList op)

/-- `type1`, /repo/src/parser/mod.rs:984-1013. -/
def type1 (r : PRec) : P Ty1 := pmap makeType1 (pair r.type2 (opt (preceded ws (rangeOrControlOp r))))

/-- `delimited(ws, tag("/"), ws)`, /repo/src/parser/mod.rs:691 and 1019. -/
def slash : P (List Char) := delimited ws (tag "/") ws

/-- `ty`, /repo/src/parser/mod.rs:1017-1024. -/
def ty (r : PRec) : P Ty := sepList1 slash (type1 r)

/-- `generic_arg`, /repo/src/parser/mod.rs:1073-1081. -/
def genericArg (r : PRec) : P (List Ty1) :=
  delimited (pair (tag "<") ws) (sepList1 (pair (tag ",") ws) (terminated (type1 r) ws)) (tag ">")

/-- `name_generic`, /repo/src/parser/mod.rs:1085-1096. -/
def nameGenericP (r : PRec) : P (String × List Ty1) :=
  pmap (fun p => (String.ofList p.1, p.2.getD [])) (pair ident (opt (genericArg r)))

/-- `grpent_memberkey_tail`, /repo/src/parser/mod.rs:555-563. -/
def memberkeyTail (r : PRec) : P Ty := preceded (pair (tag ":") ws) (ty r)

/-- `assemble_basic_member`, /repo/src/parser/mod.rs:570-596, and the handling of its result at l.652-656.  The
`panic!` is for any other key. -/
def assembleBasicMember (key : Ty1) (value : Ty) (rest : List Char) : PR GrpEntVal :=
  match key with
  | .simple (.value v) => .ok rest (.keyed (.value v) true value)
  | .simple (.typename name args) =>
    if args.isEmpty then .ok rest (.keyed (.bareword name) true value)
    else .fail ⟨.unparseable, "Bareword with generic arguments"⟩
  | _ => .panic

/-- The `tuple` of /repo/src/parser/mod.rs:668-673. -/
def arrowTail (r : PRec) : P (Option (List Char) × Ty) :=
  pair (opt (terminated (tag "^") ws)) (preceded (tag "=>") (preceded ws (ty r)))

/-- Rust's `if let Ok((input, a)) = x { f } else { g }`: both kinds of error take the second branch. -/
def ifOk {α β : Type} (x : PR α) (f : List Char → α → PR β) (g : PR β) : PR β :=
  match x with
  | .ok r a => f r a
  | .err _ => g
  | .fail _ => g
  | .panic => .panic
  | .oof => .oof

/-- The end of `grpent_member`, /repo/src/parser/mod.rs:664-704, after the attempt with ":". -/
def memberRest (r : PRec) (first : Ty1) : P GrpEntVal := fun i =>
  ifOk (arrowTail r i) (fun i' p => .ok i' (.keyed (.type1 first) p.1.isSome p.2))
    (ifOk (many0 (preceded slash (type1 r)) i) (fun i' ts => .ok i' (.member (first :: ts)))
      (.err ⟨.unparseable, "grpent_member"⟩))

/-- `grpent_member`, /repo/src/parser/mod.rs:638-705, with `GrpEntVal::Member` of l.723. -/
def grpentMember (r : PRec) : P GrpEntVal := fun i =>
  (terminated (type1 r) ws i).bind fun i' first =>
    match first with
    | .simple (.value _) | .simple (.typename _ _) =>
      ifOk (memberkeyTail r i') (fun i'' t => assembleBasicMember first t i'') (memberRest r first i')
    | _ => memberRest r first i'

/-- `grpent_parens`, /repo/src/parser/mod.rs:708-718, and the same text in `type2_choiceify_inline`. -/
def inParens (r : PRec) : P Group := delimited (chr '(') (delimited ws r.group ws) (chr ')')

/-- `grpent_val`, /repo/src/parser/mod.rs:721-728. -/
def grpentVal (r : PRec) : P GrpEntVal :=
  alt (grpentMember r) (alt (pmap (fun s => .groupname (String.ofList s)) ident) (pmap .parens (inParens r)))

/-- `occur_star`, /repo/src/parser/mod.rs:743-769.  `usize` has 64 bits, so `try_into_int` always succeeds and
`usize::MAX` is 2^64 - 1. -/
def occurStar : P OccurLimit :=
  mapRes (pair (opt uintU64) (pair (tag "*") (opt uintU64))) fun t =>
    match t.1, t.2.2 with
    | none, none => .ok .zeroOrMore
    | lower, upper => .ok (.numbered (lower.getD 0) (upper.getD 18446744073709551615))

/-- `occur`, /repo/src/parser/mod.rs:772-779. -/
def occur : P OccurLimit :=
  alt occurStar (alt (pmap (fun _ => .oneOrMore) (tag "+")) (pmap (fun _ => .optional) (tag "?")))

/-- `grpent`, /repo/src/parser/mod.rs:786-793. -/
def grpent (r : PRec) : P GrpEnt := pmap (fun p => .mk p.1 p.2) (pair (opt (terminated occur ws)) (grpentVal r))

/-- `grpchoice`, /repo/src/parser/mod.rs:797-803. -/
def grpchoice (r : PRec) : P GrpChoice := many0 (terminated (grpent r) optcom)

/-- `group`, /repo/src/parser/mod.rs:807-834. -/
def group (r : PRec) : P Group :=
  pmap (fun p => p.1 :: p.2) (pair (grpchoice r) (many0 (preceded (delimited ws (tag "//") ws) (grpchoice r))))

/-- `type2_parens`, /repo/src/parser/mod.rs:838-848. -/
def type2Parens (r : PRec) : P Ty := delimited (chr '(') (delimited ws (ty r) ws) (chr ')')

/-- `type2_map`, /repo/src/parser/mod.rs:852-862. -/
def type2Map (r : PRec) : P Group := delimited (chr '{') (delimited ws r.group ws) (chr '}')

/-- `type2_array`, /repo/src/parser/mod.rs:866-876. -/
def type2Array (r : PRec) : P Group := delimited (chr '[') (delimited ws r.group ws) (chr ']')

/-- `type2`, /repo/src/parser/mod.rs:940-952, with `type2_unwrap`, `type2_choiceify` and
`type2_choiceify_inline` (l.880-926). -/
def type2 (x : ParseExt) (r : PRec) : P Ty2 :=
  alt (pmap .value (value x)) (
  alt (pmap (fun p => .typename p.1 p.2) (nameGenericP r)) (
  alt (pmap .parens (type2Parens r)) (
  alt (pmap .map (type2Map r)) (
  alt (pmap .array (type2Array r)) (
  alt (pmap (fun p => .unwrap p.1 p.2) (preceded (tag "~") (preceded ws (nameGenericP r)))) (
  alt (pmap .choiceifyInline (preceded (tag "&") (preceded ws (inParens r))))
    (pmap (fun p => .choiceify p.1 p.2) (preceded (tag "&") (preceded ws (nameGenericP r)))))))))) 

/-- The parsers with a budget for nested calls. -/
def parsers (x : ParseExt) : Nat → PRec
  | 0 => ⟨fun _ => .oof, fun _ => .oof⟩
  | n + 1 => ⟨type2 x (parsers x n), group (parsers x n)⟩

/-- The recursive parsers with a budget that suffices for the text (`parsers_enough` in Proofs/ParseMono). -/
def parserRec (x : ParseExt) : PRec where
  type2 i := (parsers x (2 * i.length + 2)).type2 i
  group i := (parsers x (2 * i.length + 2)).group i

/-- `rule_val`, /repo/src/parser/mod.rs:1044-1057. -/
def ruleVal (x : ParseExt) : P RuleVal :=
  preceded (tag "=") (preceded ws (alt (pmap .assignType (ty (parserRec x))) (pmap .assignGroup (grpent (parserRec x)))))

/-- `generic_parm`, /repo/src/parser/mod.rs:1061-1069. -/
def genericParm : P (List (List Char)) :=
  delimited (pair (tag "<") ws) (sepList1 (pair (tag ",") ws) (terminated ident ws)) (tag ">")

/-- `rule`, /repo/src/parser/mod.rs:1099-1114. -/
def rule (x : ParseExt) : P Ast.Rule :=
  pmap (fun p => ⟨String.ofList p.1.1, (p.1.2.getD []).map String.ofList, p.2⟩)
    (pair (pair ident (opt genericParm)) (preceded ws (ruleVal x)))

/-- `cddl`, /repo/src/parser/mod.rs:1118-1126. -/
def cddl (x : ParseExt) : P Ast.Cddl := preceded ws (many1 (terminated (rule x) ws))

/-- `cddl_slice`, /repo/src/parser/mod.rs:1129-1142. -/
def cddlSlice (x : ParseExt) : P Ast.CddlSlice :=
  preceded ws (many1 (terminated (pmap (fun p => (p.2, String.ofList p.1)) (recognizer (rule x))) ws))

/-- The conversion of the parser's result, /repo/src/parser/parse_err.rs:79-90; `ValidateError::ParseError`
wraps the error (/repo/src/util.rs:14). -/
def PR.toRes {α : Type} : PR α → Res α
  | .ok _ a => .ok a
  | .err e => .err (.parseError e)
  | .fail e => .err (.parseError e)
  | .panic => .panic
  | .oof => .fuel

/-- `parse_cddl`, /repo/src/parser/mod.rs:1157-1160. -/
def parseCddl (x : ParseExt) (s : String) : Res Ast.Cddl := (allConsuming (cddl x) s.toList).toRes

/-- `slice_parse_cddl`, /repo/src/parser/mod.rs:1166-1169. -/
def sliceParseCddl (x : ParseExt) (s : String) : Res Ast.CddlSlice := (allConsuming (cddlSlice x) s.toList).toRes

end Cddl
