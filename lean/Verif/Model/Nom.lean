import Verif.Model.Basic

/-!
# Parser combinators

Models the functions of the library `nom` 7 (its `complete` parsers on `&str`) used by
/repo/src/parser/mod.rs:31-40, with the error type `CowParseError` of /repo/src/parser/parse_err.rs:50-102.
The source of `nom` is not in the repository; these definitions follow its documentation and are part of the
trusted base.  A text is the list of its characters.
-/

namespace Cddl

/-- `nom::IResult<&str, α, CowParseError>`.  `err` is `Err::Error` (alternatives are tried), `fail` is
`Err::Failure` (they are not).  `Err::Incomplete` is never produced by `complete` parsers.  `panic` is a Rust
panic; `oof` means that the step budget of the model ran out and is not an outcome of the code. -/
inductive PR (α : Type)
  | ok (rest : List Char) (a : α)
  | err (e : ParseError)
  | fail (e : ParseError)
  | panic
  | oof
  deriving DecidableEq, Repr

/-- A parser. -/
abbrev P (α : Type) := List Char → PR α

/-- Rust's `?` on an `IResult`. -/
@[simp] def PR.bind {α β : Type} : PR α → (List Char → α → PR β) → PR β
  | .ok r a, f => f r a
  | .err e, _ => .err e
  | .fail e, _ => .fail e
  | .panic, _ => .panic
  | .oof, _ => .oof

/-- `CowParseError::from_error_kind(input, _)`, /repo/src/parser/parse_err.rs:93-96.  `append` (l.98-102)
returns its last argument, so it changes nothing. -/
def unparseable (i : List Char) : ParseError := ⟨.unparseable, String.ofList i⟩

/-- `nom::combinator::map` -/
def pmap {α β : Type} (f : α → β) (p : P α) : P β := fun i => (p i).bind fun r a => .ok r (f a)

/-- `nom::sequence::pair` -/
def pair {α β : Type} (p : P α) (q : P β) : P (α × β) := fun i =>
  (p i).bind fun r a => (q r).bind fun r' b => .ok r' (a, b)

/-- `nom::sequence::preceded` -/
def preceded {α β : Type} (p : P α) (q : P β) : P β := fun i => (p i).bind fun r _ => q r

/-- `nom::sequence::terminated` -/
def terminated {α β : Type} (p : P α) (q : P β) : P α := fun i =>
  (p i).bind fun r a => (q r).bind fun r' _ => .ok r' a

/-- `nom::sequence::delimited` -/
def delimited {α β γ : Type} (p : P α) (q : P β) (s : P γ) : P β := preceded p (terminated q s)

/-- `nom::combinator::opt` -/
def opt {α : Type} (p : P α) : P (Option α) := fun i =>
  match p i with
  | .ok r a => .ok r (some a)
  | .err _ => .ok i none
  | .fail e => .fail e
  | .panic => .panic
  | .oof => .oof

/-- `nom::branch::alt` of two parsers; longer tuples are nested to the right.  The error is that of the last
alternative (`ParseError::or` keeps its argument). -/
def alt {α : Type} (p q : P α) : P α := fun i =>
  match p i with
  | .err _ => q i
  | r => r

/-- The loop of `nom::multi::many0` with a budget. -/
def many0Loop {α : Type} (p : P α) : Nat → P (List α)
  | 0, _ => .oof
  | n + 1, i =>
    match p i with
    | .ok r a =>
      if r.length = i.length then .err (unparseable i)
      else (many0Loop p n r).bind fun r' as => .ok r' (a :: as)
    | .err _ => .ok i []
    | .fail e => .fail e
    | .panic => .panic
    | .oof => .oof

/-- `nom::multi::many0`: stops at the first `Error`; a success that consumes nothing is an `Error`. -/
def many0 {α : Type} (p : P α) : P (List α) := fun i => many0Loop p (i.length + 1) i

/-- `nom::multi::many1` -/
def many1 {α : Type} (p : P α) : P (List α) := fun i =>
  (p i).bind fun r a => (many0 p r).bind fun r' as => .ok r' (a :: as)

/-- The loop of `nom::multi::separated_list1` with a budget. -/
def sepLoop {α β : Type} (sep : P β) (p : P α) : Nat → P (List α)
  | 0, _ => .oof
  | n + 1, i =>
    match sep i with
    | .ok r _ =>
      if r.length = i.length then .err (unparseable r)
      else
        match p r with
        | .ok r' a => (sepLoop sep p n r').bind fun r'' as => .ok r'' (a :: as)
        | .err _ => .ok i []
        | .fail e => .fail e
        | .panic => .panic
        | .oof => .oof
    | .err _ => .ok i []
    | .fail e => .fail e
    | .panic => .panic
    | .oof => .oof

/-- `nom::multi::separated_list1` -/
def sepList1 {α β : Type} (sep : P β) (p : P α) : P (List α) := fun i =>
  (p i).bind fun r a => (sepLoop sep p (r.length + 1) r).bind fun r' as => .ok r' (a :: as)

/-- `recognizer`, /repo/src/parser/mod.rs:337-353: the consumed text with the result. -/
def recognizer {α : Type} (p : P α) : P (List Char × α) := fun i =>
  (p i).bind fun r a => .ok r (i.take (i.length - r.length), a)

/-- `nom::combinator::recognize`: the consumed text. -/
def recognize {α : Type} (p : P α) : P (List Char) := fun i =>
  (p i).bind fun r _ => .ok r (i.take (i.length - r.length))

/-- `map_res_fail`, /repo/src/parser/mod.rs:64-79. -/
def mapResFail {α β : Type} (p : P α) (f : α → Except ParseError β) : P β := fun i =>
  (p i).bind fun r a =>
    match f a with
    | .ok b => .ok r b
    | .error e => .fail e

/-- `nom::combinator::map_res` with `from_external_error`, /repo/src/parser/parse_err.rs:64-71. -/
def mapRes {α β : Type} (p : P α) (f : α → Except ParseError β) : P β := fun i =>
  (p i).bind fun r a =>
    match f a with
    | .ok b => .ok r b
    | .error _ => .err ⟨.unparseable, "nom-error"⟩

/-- `nom::combinator::all_consuming` -/
def allConsuming {α : Type} (p : P α) : P α := fun i =>
  (p i).bind fun r a => if r.length = 0 then .ok r a else .err (unparseable r)

/-- What is left of `i` after the prefix `t`. -/
def stripPrefix : List Char → List Char → Option (List Char)
  | [], i => some i
  | _ :: _, [] => none
  | c :: t, d :: i => if c = d then stripPrefix t i else none

/-- `nom::bytes::complete::tag` -/
def tag (t : String) : P (List Char) := fun i =>
  match stripPrefix t.toList i with
  | some r => .ok r t.toList
  | none => .err (unparseable i)

/-- `nom::character::complete::satisfy`, which `char`, `one_of` and `anychar` amount to: one character with the
given property. -/
def satisfy (f : Char → Bool) : P Char
  | [] => .err (unparseable [])
  | c :: i => if f c then .ok i c else .err (unparseable (c :: i))

/-- `nom::character::complete::char` -/
def chr (c : Char) : P Char := satisfy (· == c)

/-- `nom::character::complete::one_of` -/
def oneOfChars (cs : String) : P Char := satisfy fun c => cs.toList.contains c

/-- `nom::character::complete::anychar` -/
def anychar : P Char := satisfy fun _ => true

/-- `nom::bytes::complete::take_while` -/
def takeWhile0 (f : Char → Bool) : P (List Char) := fun i => .ok (i.dropWhile f) (i.takeWhile f)

/-- `nom::bytes::complete::take_while1` -/
def takeWhile1 (f : Char → Bool) : P (List Char) := fun i =>
  match i.takeWhile f with
  | [] => .err (unparseable i)
  | s => .ok (i.dropWhile f) s

/-- ASCII digits, as for `digit0` and `digit1`. -/
def isDigit (c : Char) : Bool := '0' ≤ c && c ≤ '9'

/-- ASCII hexadecimal digits, as for `hex_digit1`. -/
def isHexDigit (c : Char) : Bool := isDigit c || ('a' ≤ c && c ≤ 'f') || ('A' ≤ c && c ≤ 'F')

/-- The characters of `multispace1`. -/
def isMultispace (c : Char) : Bool := c == ' ' || c == '\t' || c == '\r' || c == '\n'

/-- `nom::character::complete::digit0` -/
def digit0 : P (List Char) := takeWhile0 isDigit

/-- `nom::character::complete::digit1` -/
def digit1 : P (List Char) := takeWhile1 isDigit

/-- `nom::character::complete::hex_digit1` -/
def hexDigit1 : P (List Char) := takeWhile1 isHexDigit

/-- `nom::character::complete::multispace1` -/
def multispace1 : P (List Char) := takeWhile1 isMultispace

/-- `nom::character::complete::not_line_ending`: up to the first `\r` or `\n`; a `\r` not followed by `\n` is an
error. -/
def notLineEnding : P (List Char) := fun i =>
  match i.dropWhile (fun c => c != '\r' && c != '\n') with
  | '\r' :: '\n' :: r => .ok ('\r' :: '\n' :: r) (i.takeWhile fun c => c != '\r' && c != '\n')
  | '\r' :: _ => .err (unparseable i)
  | r => .ok r (i.takeWhile fun c => c != '\r' && c != '\n')

end Cddl
