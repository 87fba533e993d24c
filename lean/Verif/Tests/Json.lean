import Verif.Tests.Common

/-!
# The cases of /repo/tests/json_cddl.rs

Every call in the integration tests of the crate (except in blocks disabled with `if false`), with the answer the
test expects, evaluated in the model.
-/

namespace Cddl.Tests

/-- What `serde_json::from_str` gives on the texts used in the tests. -/
def jsonTexts : List (String × Json) := [
  ("null", .null),
  ("0", .number (.posInt 0)),
  ("false", .bool false),
  ("true", .bool true),
  ("0.0", .number (.float ⟨0x0⟩)),
  ("1.0", .number (.float ⟨0x3ff0000000000000⟩)),
  ("1e5", .number (.float ⟨0x40f86a0000000000⟩)),
  ("1e300", .number (.float ⟨0x7e37e43c8800759c⟩)),
  ("23", .number (.posInt 23)),
  ("24", .number (.posInt 24)),
  ("\"JSON\"", .string "JSON"),
  ("-1000", .number (.negInt (-1000))),
  ("\"\"", .string ""),
  ("\"水\"", .string "水"),
  ("[]", .array []),
  ("[1, 2, 3]", .array [.number (.posInt 1), .number (.posInt 2), .number (.posInt 3)]),
  ("[42]", .array [.number (.posInt 42)]),
  ("[\"Alice\",42]", .array [.string "Alice", .number (.posInt 42)]),
  ("[43,\"Carol\"]", .array [.number (.posInt 43), .string "Carol"]),
  ("[\"David\",44,45]", .array [.string "David", .number (.posInt 44), .number (.posInt 45)]),
  ("\"Eve\"", .string "Eve"),
  ("[\"xyz\",17,9.9,false]", .array [.string "xyz", .number (.posInt 17), .number (.float ⟨0x4023cccccccccccd⟩), .bool false]),
  ("{\"name\":\"Bob\",\"age\":43}", .object [("age", .number (.posInt 43)), ("name", .string "Bob")]),
  ("{ \"foo\": \"not-an-int\" }", .object [("foo", .string "not-an-int")]),
  ("{ \"foo\": 17, \"bar\": \"baz\" }", .object [("bar", .string "baz"), ("foo", .number (.posInt 17))]),
  ("{ \"foo\": \"not-int\" }", .object [("foo", .string "not-int")]),
  ("{ \"aaa\": 17, \"zzz\": \"baz\" }", .object [("aaa", .number (.posInt 17)), ("zzz", .string "baz")]),
  ("{\"po_box\":101,\"name\":\"San Francisco\",\"zip_code\":94103}", .object [("name", .string "San Francisco"), ("po_box", .number (.posInt 101)), ("zip_code", .number (.posInt 94103))]),
  ("{\"street\":\"Eleventh St.\",\"number\":375,\"name\":\"San Francisco\",\"zip_code\":94103}", .object [("name", .string "San Francisco"), ("number", .number (.posInt 375)), ("street", .string "Eleventh St."), ("zip_code", .number (.posInt 94103))]),
  ("{\n        \"street\": \"Eleventh St.\",\n        \"name\": \"San Francisco\",\n        \"zip_code\": 94103\n    }", .object [("name", .string "San Francisco"), ("street", .string "Eleventh St."), ("zip_code", .number (.posInt 94103))]),
  ("{\n        \"street\": \"Eleventh St.\",\n        \"name\": \"San Francisco\"\n    }", .object [("name", .string "San Francisco"), ("street", .string "Eleventh St.")]),
  ("{\"per_pickup\":true}", .object [("per_pickup", .bool true)]),
  ("\"abc\"", .string "abc"),
  ("[1.0, 2, 3]", .array [.number (.float ⟨0x3ff0000000000000⟩), .number (.posInt 2), .number (.posInt 3)]),
  ("[1, 2, 3.0]", .array [.number (.posInt 1), .number (.posInt 2), .number (.float ⟨0x4008000000000000⟩)]),
  ("[\"JSON\", 123]", .array [.string "JSON", .number (.posInt 123)]),
  ("[123, \"JSON\"]", .array [.number (.posInt 123), .string "JSON"]),
  ("[1]", .array [.number (.posInt 1)]),
  ("[[1, 2], [3, 4]]", .array [.array [.number (.posInt 1), .number (.posInt 2)], .array [.number (.posInt 3), .number (.posInt 4)]]),
  ("[1, 2]", .array [.number (.posInt 1), .number (.posInt 2)]),
  (" { \"abc\": 0 } ", .object [("abc", .number (.posInt 0))]),
  ("[4]", .array [.number (.posInt 4)]),
  ("[4, 5, 6]", .array [.number (.posInt 4), .number (.posInt 5), .number (.posInt 6)]),
  ("[\"one\", \"two\"]", .array [.string "one", .string "two"]),
  ("[\"one\", \"two\", \"three\"]", .array [.string "one", .string "two", .string "three"]),
  ("[\"one\", \"two\", \"three\", \"four\"]", .array [.string "one", .string "two", .string "three", .string "four"]),
  ("[\"1st\",\"2nd\",\"3rd\",\"4th\",\"5th\"]", .array [.string "1st", .string "2nd", .string "3rd", .string "4th", .string "5th"]),
  ("[\"a\",\"b\",\"c\",\"d\",\"e\",\"f\"]", .array [.string "a", .string "b", .string "c", .string "d", .string "e", .string "f"]),
  (" { \"name\": \"foo\", \"sock\": [\"foo.dev\", 8080]} ", .object [("name", .string "foo"), ("sock", .array [.string "foo.dev", .number (.posInt 8080)])]),
  (" { \"name\": \"foo\", \"sock\": [[10,0,0,1], 8080]} ", .object [("name", .string "foo"), ("sock", .array [.array [.number (.posInt 10), .number (.posInt 0), .number (.posInt 0), .number (.posInt 1)], .number (.posInt 8080)])]),
  ("[\"foo\", [[10,0,0,1], 8080], \"v4\"]", .array [.string "foo", .array [.array [.number (.posInt 10), .number (.posInt 0), .number (.posInt 0), .number (.posInt 1)], .number (.posInt 8080)], .string "v4"]),
  ("[1, 2, 3, 4, 5, 6]", .array [.number (.posInt 1), .number (.posInt 2), .number (.posInt 3), .number (.posInt 4), .number (.posInt 5), .number (.posInt 6)]),
  ("[[1, 2, 3], [4, 5, 6]]", .array [.array [.number (.posInt 1), .number (.posInt 2), .number (.posInt 3)], .array [.number (.posInt 4), .number (.posInt 5), .number (.posInt 6)]]),
  ("[1, 2, 3, 4, 5]", .array [.number (.posInt 1), .number (.posInt 2), .number (.posInt 3), .number (.posInt 4), .number (.posInt 5)]),
  ("[1, 2, 3, 4, 5, 6, 7]", .array [.number (.posInt 1), .number (.posInt 2), .number (.posInt 3), .number (.posInt 4), .number (.posInt 5), .number (.posInt 6), .number (.posInt 7)]),
  ("{\"type\":\"reboot\",\"value\":\"now\"}", .object [("type", .string "reboot"), ("value", .string "now")]),
  ("{\"type\":\"sleep\", \"value\":15}", .object [("type", .string "sleep"), ("value", .number (.posInt 15))]),
  ("{\"type\":\"no\", \"value\": \"now\"}", .object [("type", .string "no"), ("value", .string "now")]),
  ("{\"type\":\"sleep\", \"value\":150}", .object [("type", .string "sleep"), ("value", .number (.posInt 150))]),
  ("256", .number (.posInt 256)),
  ("16777215", .number (.posInt 16777215)),
  ("16777216", .number (.posInt 16777216)),
  ("-256", .number (.negInt (-256))),
  ("\"水水水水\"", .string "水水水水"),
  ("\"abcdefghij\"", .string "abcdefghij"),
  ("\"abcdefghijk\"", .string "abcdefghijk"),
  ("\"J\"", .string "J"),
  ("\"水水水\"", .string "水水水"),
  ("\"abcdefghi\"", .string "abcdefghi"),
  ("1", .number (.posInt 1)),
  ("1000000000000", .number (.posInt 1000000000000)),
  ("-1", .number (.negInt (-1))),
  ("-2", .number (.negInt (-2))),
  ("-999", .number (.negInt (-999))),
  (" \"0\" ", .string "0"),
  (" \"1\" ", .string "1"),
  (" \"20\" ", .string "20"),
  (" \"23\" ", .string "23"),
  (" \"123\" ", .string "123"),
  (" \"01\" ", .string "01"),
  (" \"0a\" ", .string "0a"),
  (" \"\" ", .string ""),
  (" \"A\" ", .string "A"),
  (" \"ABC\" ", .string "ABC"),
  (" \"AAA\" ", .string "AAA"),
  (" \"ZA\" ", .string "ZA"),
  (" \"BB\" ", .string "BB"),
  (" \"ABCBBA\" ", .string "ABCBBA"),
  (" \"ABCBA\" ", .string "ABCBA"),
  (" \"CCC\" ", .string "CCC"),
  (" \"1234\" ", .string "1234"),
  ("\"N1@CH57HF.4Znqe0.dYJRN.igjf\"", .string "N1@CH57HF.4Znqe0.dYJRN.igjf"),
  ("{\"name\": \"Alice\", \"age\": 33 }", .object [("age", .number (.posInt 33)), ("name", .string "Alice")]),
  ("{\"name\": \"Alice\", \"age\": 33, \"one\": \"X\" }", .object [("age", .number (.posInt 33)), ("name", .string "Alice"), ("one", .string "X")]),
  ("{\"name\": \"Alice\", \"age\": 33, \"two\": \"X\" }", .object [("age", .number (.posInt 33)), ("name", .string "Alice"), ("two", .string "X")]),
  ("{\"name\": \"Alice\", \"age\": 33, \"three\": \"X\" }", .object [("age", .number (.posInt 33)), ("name", .string "Alice"), ("three", .string "X")]),
  ("{\"name\": \"Alice\", \"age\": 33, \"four\": \"X\" }", .object [("age", .number (.posInt 33)), ("four", .string "X"), ("name", .string "Alice")]),
  ("{\"name\": \"Alice\", \"four\": \"X\" }", .object [("four", .string "X"), ("name", .string "Alice")]),
  ("{ \"top\": \"yes\", \"choice1\": 99 }", .object [("choice1", .number (.posInt 99)), ("top", .string "yes")]),
  ("{ \"test\": 99 }", .object [("test", .number (.posInt 99))]),
  ("[ \"foo\", true, 2 ]", .array [.string "foo", .bool true, .number (.posInt 2)]),
  ("[ \"foo\", true, 11 ]", .array [.string "foo", .bool true, .number (.posInt 11)]),
  ("[ \"foo\", true ]", .array [.string "foo", .bool true]),
  ("[ \"foo\", true, 4 ]", .array [.string "foo", .bool true, .number (.posInt 4)]),
  ("[ 2 ]", .array [.number (.posInt 2)]),
  ("[ 4 ]", .array [.number (.posInt 4)])]

def jsonLibs : Libs :=
  { testLibs with jsonDecode := fun s => match table jsonTexts s with
      | some j => .ok j
      | none => .error "expected value at line 1 column 1" }

/-- `validate_json_str` answers as expected. -/
def json (name cddl text : String) (e : Expect) : Bool := e.holds (validateJsonStrF jsonLibs 300 name cddl text)

/-- `validate_json_null` -/
theorem json_null : [
    json "thing" "thing = nil" "null" .ok,
    json "thing" "thing = nil" "0" .err,
    json "thing" "thing = nil" "false" .err
  ].all id = true := by decide +kernel

/-- `validate_json_bool` -/
theorem json_bool : [
    json "thing" "thing = true" "true" .ok,
    json "thing" "thing = true" "false" .err,
    json "thing" "thing = true" "null" .err
  ].all id = true := by decide +kernel

/-- `validate_json_float` -/
theorem json_float : [
    json "thing" "thing = 0.0" "0.0" .ok,
    json "thing" "thing = 0.0" "1.0" .err,
    json "thing" "thing = float" "1.0" .ok,
    json "thing" "thing = float" "1e5" .ok,
    json "thing" "thing = float" "1e300" .ok,
    json "thing" "thing = float16" "1.0" .ok,
    json "thing" "thing = float32" "1.0" .ok,
    json "thing" "thing = float32" "1e5" .ok,
    json "thing" "thing = float64" "1.0" .ok,
    json "thing" "thing = float64" "1e300" .ok
  ].all id = true := by decide +kernel

/-- `validate_json_choice` -/
theorem json_choice : [
    json "thing" "thing = 23 / 24" "23" .ok,
    json "thing" "thing = 23 / 24" "24" .ok,
    json "thing" "thing = (foo // bar) foo = (int / float) bar = tstr" "23" .ok,
    json "thing" "thing = (foo // bar) foo = (int / float) bar = tstr" "1.0" .ok,
    json "thing" "thing = (foo // bar) foo = (int / float) bar = tstr" "\"JSON\"" .ok,
    json "thing" "thing = (foo // bar) foo = (int / float) bar = tstr" "true" .err
  ].all id = true := by decide +kernel

/-- `validate_json_integer` -/
theorem json_integer : [
    json "thing" "thing = 1" "null" .err,
    json "thing" "thing = 1" "1.0" .err,
    json "thing" "thing = 1" "true" .err,
    json "thing" "thing = int" "0" .ok,
    json "thing" "thing = int" "24" .ok,
    json "thing" "thing = int" "-1000" .ok,
    json "thing" "thing = int" "1.0" .err,
    json "thing" "thing = uint" "0" .ok,
    json "thing" "thing = uint" "24" .ok,
    json "thing" "thing = uint" "-1000" .err,
    json "thing" "thing = nint" "-1000" .ok,
    json "thing" "thing = nint" "0" .err,
    json "thing" "thing = nint" "24" .err
  ].all id = true := by decide +kernel

/-- `validate_json_textstring` -/
theorem json_textstring : [
    json "thing" "thing = tstr" "\"\"" .ok,
    json "thing" "thing = text" "\"\"" .ok,
    json "thing" "thing = tstr" "\"JSON\"" .ok,
    json "thing" "thing = text" "\"JSON\"" .ok,
    json "thing" "thing = tstr" "\"水\"" .ok,
    json "thing" "thing = text" "\"水\"" .ok
  ].all id = true := by decide +kernel

/-- `validate_json_array` -/
theorem json_array : [
    json "thing" "thing = []" "[]" .ok,
    json "thing" "thing = []" "null" .err,
    json "thing" "thing = []" "[1, 2, 3]" .err,
    json "thing" "thing = [1, 2, 3]" "[1, 2, 3]" .ok
  ].all id = true := by decide +kernel

/-- `validate_json_homogenous_array` -/
theorem json_homogenous_array : [
    json "thing" "thing = [* int]" "[]" .ok,
    json "thing" "thing = [* int]" "[1, 2, 3]" .ok,
    json "thing" "thing = [+ int]" "[1, 2, 3]" .ok,
    json "thing" "thing = [+ int]" "[]" .err,
    json "thing" "thing = [? int]" "[]" .ok,
    json "thing" "thing = [? int]" "[42]" .ok,
    json "thing" "thing = [? int]" "[1, 2, 3]" .err,
    json "thing" "thing = [* tstr]" "[1, 2, 3]" .err,
    json "thing" "thing = [* zipcode]  zipcode = int" "[]" .ok,
    json "thing" "thing = [* zipcode]  zipcode = int" "[1, 2, 3]" .ok
  ].all id = true := by decide +kernel

/-- `validate_json_array_groups` -/
theorem json_array_groups : [
    json "thing" "thing = [int, (int, int)]" "[1, 2, 3]" .ok,
    json "thing" "thing = [(int, int, int)]" "[1, 2, 3]" .ok,
    json "thing" "thing = [* (int)]" "[]" .ok,
    json "thing" "thing = [* (int)]" "[1, 2, 3]" .ok,
    json "thing" "thing = [* (int, int, int)]" "[]" .ok,
    json "thing" "thing = [* (int, int, int)]" "[1, 2, 3]" .ok,
    json "thing" "thing = [* (int, int)]" "[]" .ok,
    json "thing" "thing = [* (int, int)]" "[1, 2, 3]" .err,
    json "thing" "thing = [a: int, b: int, bar] bar = (c: int)" "[1, 2, 3]" .ok,
    json "thing" "thing = [a: int, (bar)] bar = (b: int, c: int)" "[1, 2, 3]" .ok,
    json "thing" "thing = [a: int, b: bar] bar = (b: int, c: int)" "[1, 2, 3]" .err
  ].all id = true := by decide +kernel

/-- `validate_json_array_unwrap` -/
theorem json_array_unwrap : [
    json "thing" "header = [a: int, b: int] thing = [~header c: int]" "[1, 2, 3]" .ok,
    json "thing" "header = [a: int, b: int] thing = [~header c: int]" "[]" .err,
    json "thing" "footer = [a: int, b: int] thing = [c: int ~footer]" "[1, 2, 3]" .ok,
    json "thing" "middle = [int] thing = [a: int, ~middle, c: int]" "[1, 2, 3]" .ok,
    json "thing" "foo = int middle = [foo] thing = [a: int, ~middle, c: int]" "[1, 2, 3]" .ok,
    json "thing" "header = [a: int] thing = [~header, c: int]" "[1, 2, 3]" .err,
    json "thing" "footer = [a: int] thing = [c: int, ~footer]" "[1, 2, 3]" .err,
    json "thing" "footer = [a: int, b: int] thing = [c: int, d: int, ~footer]" "[1, 2, 3]" .err,
    json "thing" "thing = [c: int ~footer]" "[1, 2, 3]" .err,
    json "thing" "header = {a: int, b: int} thing = [~header c: int]" "[1, 2, 3]" .err
  ].all id = true := by decide +kernel

/-- `validate_json_array_record` -/
theorem json_array_record : [
    json "thing" "thing = [a: int, b: int, c: int]" "[1, 2, 3]" .ok,
    json "thing" "thing = [a: int, b: int, c: int]" "[]" .err,
    json "thing" "thing = [a: int, b: int, c: foo] foo = int" "[1, 2, 3]" .ok,
    json "thing" "thing = [int, int, int]" "[1, 2, 3]" .ok,
    json "thing" "thing = [int, int, int]" "[]" .err,
    json "thing" "thing = [a: tstr, b: int]" "[\"Alice\",42]" .ok,
    json "thing" "thing = [a: tstr, b: int]" "[43,\"Carol\"]" .err,
    json "thing" "thing = [a: tstr, b: int]" "[\"David\",44,45]" .err,
    json "thing" "thing = [a: tstr, b: int]" "\"Eve\"" .err,
    json "thing" "thing = [a: tstr, b: uint, c: float, d: bool]" "[\"xyz\",17,9.9,false]" .ok,
    json "thing" "thing = [a: tstr, b: uint, c: float, d: bool]" "[1, 2, 3]" .err
  ].all id = true := by decide +kernel

/-- `validate_json_map_unwrap` -/
theorem json_map_unwrap : [
    json "thing" "thing = {name: tstr, ~agroup} agroup = {age: int}" "{\"name\":\"Bob\",\"age\":43}" .ok,
    json "thing" "thing = {name: tstr, ~agroup} agroup = [age: int]" "{\"name\":\"Bob\",\"age\":43}" .err
  ].all id = true := by decide +kernel

/-- `validate_json_map_group` -/
theorem json_map_group : [
    json "thing" "thing = {name: tstr, agroup} agroup = (age: int)" "{\"name\":\"Bob\",\"age\":43}" .ok,
    json "thing" "thing = {agroup} agroup = (age: int, name: tstr)" "{\"name\":\"Bob\",\"age\":43}" .ok,
    json "thing" "thing = {((agroup))} agroup = (age: int, name: tstr)" "{\"name\":\"Bob\",\"age\":43}" .ok,
    json "thing" "thing = {agroup empty} agroup = (age: int, name: tstr) empty = ()" "{\"name\":\"Bob\",\"age\":43}" .ok,
    json "thing" "thing = {agroup maybe} agroup = (age: int, name: tstr) maybe = (? minor: bool)" "{\"name\":\"Bob\",\"age\":43}" .ok,
    json "thing" "thing = {name: tstr, agroup} agroup = (wrong: int)" "{\"name\":\"Bob\",\"age\":43}" .err,
    json "thing" "thing = {name: tstr, agroup} agroup = (age: bool)" "{\"name\":\"Bob\",\"age\":43}" .err
  ].all id = true := by decide +kernel

/-- `validate_json_map` -/
theorem json_map : [
    json "thing" "thing = {name: tstr, age: int}" "{\"name\":\"Bob\",\"age\":43}" .ok,
    json "thing" "thing = {name: tstr, ? age: int}" "{\"name\":\"Bob\",\"age\":43}" .ok,
    json "thing" "thing = {name: tstr, age: int, ? minor: bool}" "{\"name\":\"Bob\",\"age\":43}" .ok,
    json "thing" "thing = {name: tstr, age: int, * minor: bool}" "{\"name\":\"Bob\",\"age\":43}" .ok,
    json "thing" "thing = {name: tstr, age: int, + minor: bool}" "{\"name\":\"Bob\",\"age\":43}" .err,
    json "thing" "thing = {name: tstr, age: tstr}" "{\"name\":\"Bob\",\"age\":43}" .err,
    json "thing" "thing = {name: tstr}" "{\"name\":\"Bob\",\"age\":43}" .err,
    json "thing" "thing = {* tstr => any}" "{\"name\":\"Bob\",\"age\":43}" .ok,
    json "thing" "thing = {name: tstr, * tstr => any}" "{\"name\":\"Bob\",\"age\":43}" .ok,
    json "thing" "thing = {name: tstr, age: int, * tstr => any}" "{\"name\":\"Bob\",\"age\":43}" .ok,
    json "thing" "thing = {+ tstr => any}" "{\"name\":\"Bob\",\"age\":43}" .ok,
    json "thing" "thing = {* int => any}" "{\"name\":\"Bob\",\"age\":43}" .err,
    json "thing" "thing = {name: tstr, age: int, minor: bool}" "{\"name\":\"Bob\",\"age\":43}" .err,
    json "thing" "thing = {x: int, y: int, z: int}" "[1, 2, 3]" .err
  ].all id = true := by decide +kernel

/-- `validate_json_map_cut` -/
theorem json_map_cut : [
    json "thing" "\n        thing = {\n            ? \"foo\" => int,  ; non-cut is the default for \"=>\"\n            tstr => tstr,\n        }" "{ \"foo\": \"not-an-int\" }" .ok,
    json "thing" "\n        thing = {\n            ? \"foo\" ^ => int,  ; cut is indicated by \"^\"\n            tstr => tstr,\n        }" "{ \"foo\": \"not-an-int\" }" (.text "Mismatch(expected int)"),
    json "thing" "\n        thing = {\n            ? \"foo\": int,  ; cut is implied by \":\"\n            tstr => tstr,\n        }" "{ \"foo\": \"not-an-int\" }" .err,
    json "thing" "\n        thing = {\n            ? \"foo\" => int,\n            tstr => tstr,\n        }" "{ \"foo\": 17, \"bar\": \"baz\" }" .ok,
    json "thing" "\n        thing = {\n            tstr => tstr,\n            ? \"foo\" => int,\n        }" "{ \"foo\": 17, \"bar\": \"baz\" }" .ok,
    json "thing" "thing = { \"foo\": int // tstr => tstr }" "{ \"foo\": \"not-int\" }" .ok,
    json "thing" "thing = {* tstr ^ => int }" "{ \"aaa\": 17, \"zzz\": \"baz\" }" (.text "Mismatch(expected int)")
  ].all id = true := by decide +kernel

/-- `validate_choice_example` -/
theorem json_validate_choice_example : [
    json "address" "\n        address = { delivery }\n\n        delivery = (\n        street: tstr, ? number: uint, city //\n        po_box: uint, city //\n        per_pickup: true )\n\n        city = (\n        name: tstr, zip_code: uint\n        )" "{\"po_box\":101,\"name\":\"San Francisco\",\"zip_code\":94103}" .ok,
    json "address" "\n        address = { delivery }\n\n        delivery = (\n        street: tstr, ? number: uint, city //\n        po_box: uint, city //\n        per_pickup: true )\n\n        city = (\n        name: tstr, zip_code: uint\n        )" "{\"street\":\"Eleventh St.\",\"number\":375,\"name\":\"San Francisco\",\"zip_code\":94103}" .ok,
    json "address" "\n        address = { delivery }\n\n        delivery = (\n        street: tstr, ? number: uint, city //\n        po_box: uint, city //\n        per_pickup: true )\n\n        city = (\n        name: tstr, zip_code: uint\n        )" "{\n        \"street\": \"Eleventh St.\",\n        \"name\": \"San Francisco\",\n        \"zip_code\": 94103\n    }" .ok,
    json "address" "\n        address = { delivery }\n\n        delivery = (\n        street: tstr, ? number: uint, city //\n        po_box: uint, city //\n        per_pickup: true )\n\n        city = (\n        name: tstr, zip_code: uint\n        )" "{\n        \"street\": \"Eleventh St.\",\n        \"name\": \"San Francisco\"\n    }" .mismatch,
    json "address" "\n        address = { delivery }\n\n        delivery = (\n        street: tstr, ? number: uint, city //\n        po_box: uint, city //\n        per_pickup: true )\n\n        city = (\n        name: tstr, zip_code: uint\n        )" "{\"per_pickup\":true}" .ok
  ].all id = true := by decide +kernel

/-- `json_generic_basic` -/
theorem json_generic_basic : [
    json "thing" "identity<T> = T  thing = identity<int>" "0" .ok,
    json "thing" "identity<T> = T  thing = identity<int>" "\"abc\"" .mismatch,
    json "identity" "identity<T> = T  thing = identity<int>" "0" .generic,
    json "thing" "double<T> = (T, T) thing = [int, double<int>]" "[1, 2, 3]" .ok,
    json "thing" "double<T> = (T, T) thing = [int, double<int>]" "[1.0, 2, 3]" .mismatch,
    json "thing" "double<T> = (T, T) thing = [int, double<int>]" "[1, 2, 3.0]" .mismatch,
    json "thing" "message<t, v> = [t, v]  thing = message<tstr, int>" "[\"JSON\", 123]" .ok,
    json "thing" "message<t, v> = [t, v]  thing = message<tstr, int>" "[123, \"JSON\"]" .mismatch,
    json "thing" "identity<T> = T   thing = [identity<(int)>]" "[1]" .ok,
    json "thing" "identity<T> = (T)   thing = [identity<(int)>]" "[1]" .ok,
    json "thing" "double<T> = (T, T)   thing = [double<[int, int]>]" "[[1, 2], [3, 4]]" .ok,
    json "thing" "double<T> = (T, T)   identity<I> = I   thing = [double<identity<int>>]" "[1, 2]" .ok
  ].all id = true := by decide +kernel

/-- `json_generic_map` -/
theorem json_generic_map : [
    json "thing" "identity<T> = T  thing = {identity<tstr> => identity<int>}" " { \"abc\": 0 } " .ok,
    json "thing" "identity<T> = T  thing = {identity<tstr>: identity<int>}" " { \"abc\": 0 } " .parse
  ].all id = true := by decide +kernel

/-- `json_generic_occurrence` -/
theorem json_generic_occurrence : [
    json "thing" "one_or_more<T> = (+ T)  thing = [one_or_more<int>]" "[4]" .ok,
    json "thing" "one_or_more<T> = (+ T)  thing = [one_or_more<int>]" "[4, 5, 6]" .ok,
    json "thing" "one_or_more<T> = (+ T)  thing = [one_or_more<int>]" "[]" .mismatch,
    json "thing" "three_to_five<T> = (3*5 T)  thing = [three_to_five<tstr>]" "[\"one\", \"two\"]" .mismatch,
    json "thing" "three_to_five<T> = (3*5 T)  thing = [three_to_five<tstr>]" "[\"one\", \"two\", \"three\"]" .ok,
    json "thing" "three_to_five<T> = (3*5 T)  thing = [three_to_five<tstr>]" "[\"one\", \"two\", \"three\", \"four\"]" .ok,
    json "thing" "three_to_five<T> = (3*5 T)  thing = [three_to_five<tstr>]" "[\"1st\",\"2nd\",\"3rd\",\"4th\",\"5th\"]" .ok,
    json "thing" "three_to_five<T> = (3*5 T)  thing = [three_to_five<tstr>]" "[\"a\",\"b\",\"c\",\"d\",\"e\",\"f\"]" .mismatch
  ].all id = true := by decide +kernel

/-- `json_generic_socket_example` -/
theorem json_generic_socket_example : [
    json "sock_struct" "\n        port = uint\n        socket_addr<HOST> = (HOST, port)\n        hostname = tstr\n        ipv4_addr = [uint, uint, uint, uint]\n        ipv4_host = hostname / ipv4_addr\n        ipv4_socket = socket_addr<ipv4_host>\n        sock_struct = { name: tstr, sock: [ipv4_socket]}\n    " " { \"name\": \"foo\", \"sock\": [\"foo.dev\", 8080]} " .ok,
    json "sock_struct" "\n        port = uint\n        socket_addr<HOST> = (HOST, port)\n        hostname = tstr\n        ipv4_addr = [uint, uint, uint, uint]\n        ipv4_host = hostname / ipv4_addr\n        ipv4_socket = socket_addr<ipv4_host>\n        sock_struct = { name: tstr, sock: [ipv4_socket]}\n    " " { \"name\": \"foo\", \"sock\": [[10,0,0,1], 8080]} " .ok
  ].all id = true := by decide +kernel

/-- `json_generic_name_overlap` -/
theorem json_generic_name_overlap : [
    json "thing" "\n        IP = [uint, uint, uint, uint]\n        PORT = uint\n        socket = [IP, PORT]\n        name = tstr\n        conn<IP> = [name, socket, IP] ; This is the generic parameter named IP\n        iptype = \"v4\" / \"v6\"\n        thing = conn<iptype>          ; This is the rule named IP\n    " "[\"foo\", [[10,0,0,1], 8080], \"v4\"]" .ok
  ].all id = true := by decide +kernel

/-- `json_generic_nested` -/
theorem json_generic_nested : [
    json "thing" "\n        double<X> = (X, X)\n        triple<Y> = (Y, Y, Y)\n        sextuple<Z> = double<triple<Z>>\n        thing = [sextuple<int>]\n    " "[1, 2, 3, 4, 5, 6]" .ok,
    json "thing" "\n        double<X> = (X, X)\n        triple<Y> = (Y, Y, Y)\n        sextuple<Z> = double<triple<Z>>\n        thing = [sextuple<int>]\n    " "[[1, 2, 3], [4, 5, 6]]" .mismatch,
    json "thing" "\n        double<X> = (X, X)\n        triple<Y> = (Y, Y, Y)\n        sextuple<Z> = double<triple<Z>>\n        thing = [sextuple<int>]\n    " "[1, 2, 3, 4, 5]" .mismatch,
    json "thing" "\n        double<X> = (X, X)\n        triple<Y> = (Y, Y, Y)\n        sextuple<Z> = double<triple<Z>>\n        thing = [sextuple<int>]\n    " "[1, 2, 3, 4, 5, 6, 7]" .mismatch,
    json "thing" "\n        double<T> = (T, T)\n        triple<T> = (T, T, T)\n        sextuple<T> = double<triple<T>>\n        thing = [sextuple<int>]\n    " "[1, 2, 3, 4, 5, 6]" .ok,
    json "thing" "\n        double<X> = (X, X)\n        triple<Y> = (X, Y, Y)\n        sextuple<Z> = double<triple<Z>>\n        thing = [sextuple<int>]\n    " "[1, 2, 3, 4, 5, 6]" .missingRule,
    json "thing" "\n        double<X> = (X, X)\n        triple<Y> = (Z, Y, Y)\n        sextuple<Z> = double<triple<Z>>\n        thing = [sextuple<int>]\n    " "[1, 2, 3, 4, 5, 6]" .missingRule
  ].all id = true := by decide +kernel

/-- `json_generic_rfc8610` -/
theorem json_generic_rfc8610 : [
    json "messages" "\n        messages = message<\"reboot\", \"now\"> / message<\"sleep\", 1..100>\n        message<t, v> = {type: t, value: v}\n    " "{\"type\":\"reboot\",\"value\":\"now\"}" .ok,
    json "messages" "\n        messages = message<\"reboot\", \"now\"> / message<\"sleep\", 1..100>\n        message<t, v> = {type: t, value: v}\n    " "{\"type\":\"sleep\", \"value\":15}" .ok,
    json "messages" "\n        messages = message<\"reboot\", \"now\"> / message<\"sleep\", 1..100>\n        message<t, v> = {type: t, value: v}\n    " "{\"type\":\"no\", \"value\": \"now\"}" .mismatch,
    json "messages" "\n        messages = message<\"reboot\", \"now\"> / message<\"sleep\", 1..100>\n        message<t, v> = {type: t, value: v}\n    " "{\"type\":\"sleep\", \"value\":150}" .mismatch
  ].all id = true := by decide +kernel

/-- `json_generic_malformed` -/
theorem json_generic_malformed : [
    json "thing" "double<T> = (T, T) thing = [T, double<int>]" "[1, 2, 3]" .missingRule,
    json "thing" "double<T> = (T, T) thing = [double]" "[1, 2]" .generic,
    json "thing" "pair<T, U> = (T, U) thing = [pair<int>]" "[1, 2]" .generic,
    json "thing" "pair<T, U> = (T, U) thing = [pair<int, int, int>]" "[1, 2]" .generic
  ].all id = true := by decide +kernel

/-- `json_control_size` -/
theorem json_control_size_1 : [
    json "thing" "thing = uint .size 3" "0" .ok,
    json "thing" "thing = uint .size 3" "256" .ok,
    json "thing" "thing = uint .size 3" "16777215" .ok,
    json "thing" "thing = uint .size 3" "16777216" .mismatch,
    json "thing" "thing = uint .size 3" "-256" .mismatch,
    json "thing" "limit = 3  numb = uint  thing = numb .size limit" "0" .ok,
    json "thing" "limit = 3  numb = uint  thing = numb .size limit" "256" .ok,
    json "thing" "limit = 3  numb = uint  thing = numb .size limit" "16777215" .ok,
    json "thing" "limit = 3  numb = uint  thing = numb .size limit" "16777216" .mismatch,
    json "thing" "limit = 3  numb = uint  thing = numb .size limit" "-256" .mismatch,
    json "thing" "thing = tstr .size 10" "\"\"" .mismatch,
    json "thing" "thing = tstr .size 10" "\"JSON\"" .mismatch,
    json "thing" "thing = tstr .size 10" "\"水\"" .mismatch,
    json "thing" "thing = tstr .size 10" "\"水水水水\"" .mismatch,
    json "thing" "thing = tstr .size 10" "\"abcdefghij\"" .ok,
    json "thing" "thing = tstr .size 10" "\"abcdefghijk\"" .mismatch
  ].all id = true := by decide +kernel

/-- `json_control_size`, continued -/
theorem json_control_size_2 : [
    json "thing" "thing = tstr .size (1..9)" "\"\"" .mismatch,
    json "thing" "thing = tstr .size (1..9)" "\"J\"" .ok,
    json "thing" "thing = tstr .size (1..9)" "\"水\"" .ok,
    json "thing" "thing = tstr .size (1..9)" "\"水水水\"" .ok,
    json "thing" "thing = tstr .size (1..9)" "\"abcdefghi\"" .ok,
    json "thing" "thing = tstr .size (1..9)" "\"abcdefghijk\"" .mismatch,
    json "thing" "thing = tstr .size (1...9)" "\"\"" .mismatch,
    json "thing" "thing = tstr .size (1...9)" "\"J\"" .ok,
    json "thing" "thing = tstr .size (1...9)" "\"水\"" .ok,
    json "thing" "thing = tstr .size (1...9)" "\"水水水\"" .mismatch,
    json "thing" "thing = tstr .size (1...9)" "\"abcdefghi\"" .mismatch,
    json "thing" "thing = tstr .size (1...9)" "\"abcdefghijk\"" .mismatch,
    json "thing" "thing = int .size 3" "0" .err,
    json "thing" "thing = [uint] .size 3" "0" .err,
    json "thing" "thing = uint .size 0.1" "0" .err
  ].all id = true := by decide +kernel

/-- `json_control_lt` -/
theorem json_control_lt_1 : [
    json "thing" "thing = uint .lt 1" "0" .ok,
    json "thing" "thing = uint .lt 1" "1" .mismatch,
    json "thing" "thing = uint .lt 1" "1000000000000" .mismatch,
    json "thing" "thing = uint .lt 1" "-1000" .mismatch,
    json "thing" "thing = uint .lt 1" "\"\"" .mismatch,
    json "thing" "thing = uint .lt 0" "0" .mismatch,
    json "thing" "thing = uint .lt 0" "1" .mismatch,
    json "thing" "thing = uint .lt 0" "1000000000000" .mismatch,
    json "thing" "thing = uint .lt 0" "-1000" .mismatch,
    json "thing" "thing = uint .lt 0" "\"\"" .mismatch,
    json "thing" "thing = uint .lt -1" "0" .mismatch,
    json "thing" "thing = uint .lt -1" "1" .mismatch,
    json "thing" "thing = uint .lt -1" "1000000000000" .mismatch,
    json "thing" "thing = uint .lt -1" "-1000" .mismatch,
    json "thing" "thing = uint .lt -1" "\"\"" .mismatch,
    json "thing" "thing = uint .lt 18446744073709551615" "1000000000000" .ok
  ].all id = true := by decide +kernel

/-- `json_control_lt`, continued -/
theorem json_control_lt_2 : [
    json "thing" "thing = nint .lt 0" "-1" .ok,
    json "thing" "thing = nint .lt 0" "0" .mismatch,
    json "thing" "thing = nint .lt 1" "0" .mismatch,
    json "thing" "thing = nint .lt 1" "1" .mismatch,
    json "thing" "thing = nint .lt 1" "1000000000000" .mismatch,
    json "thing" "thing = nint .lt 1" "-1000" .ok,
    json "thing" "thing = nint .lt 1" "\"\"" .mismatch,
    json "thing" "thing = nint .lt -999" "0" .mismatch,
    json "thing" "thing = nint .lt -999" "1" .mismatch,
    json "thing" "thing = nint .lt -999" "1000000000000" .mismatch,
    json "thing" "thing = nint .lt -999" "-1000" .ok,
    json "thing" "thing = nint .lt -999" "\"\"" .mismatch,
    json "thing" "thing = nint .lt -1000" "0" .mismatch,
    json "thing" "thing = nint .lt -1000" "1" .mismatch,
    json "thing" "thing = nint .lt -1000" "1000000000000" .mismatch,
    json "thing" "thing = nint .lt -1000" "-1000" .mismatch
  ].all id = true := by decide +kernel

/-- `json_control_lt`, continued -/
theorem json_control_lt_3 : [
    json "thing" "thing = nint .lt -1000" "\"\"" .mismatch,
    json "thing" "thing = int .lt 1" "0" .ok,
    json "thing" "thing = int .lt 1" "1" .mismatch,
    json "thing" "thing = int .lt 1" "1000000000000" .mismatch,
    json "thing" "thing = int .lt 1" "-1000" .ok,
    json "thing" "thing = int .lt 1" "\"\"" .mismatch,
    json "thing" "thing = int .lt -999" "0" .mismatch,
    json "thing" "thing = int .lt -999" "1" .mismatch,
    json "thing" "thing = int .lt -999" "1000000000000" .mismatch,
    json "thing" "thing = int .lt -999" "-1000" .ok,
    json "thing" "thing = int .lt -999" "\"\"" .mismatch,
    json "thing" "thing = int .lt -1000" "0" .mismatch,
    json "thing" "thing = int .lt -1000" "1" .mismatch,
    json "thing" "thing = int .lt -1000" "1000000000000" .mismatch,
    json "thing" "thing = int .lt -1000" "-1000" .mismatch,
    json "thing" "thing = int .lt -1000" "\"\"" .mismatch
  ].all id = true := by decide +kernel

/-- `json_control_le` -/
theorem json_control_le_1 : [
    json "thing" "thing = uint .le 1" "0" .ok,
    json "thing" "thing = uint .le 1" "1" .ok,
    json "thing" "thing = uint .le 1" "1000000000000" .mismatch,
    json "thing" "thing = uint .le 1" "-1000" .mismatch,
    json "thing" "thing = uint .le 1" "\"\"" .mismatch,
    json "thing" "thing = uint .le 0" "0" .ok,
    json "thing" "thing = uint .le 0" "1" .mismatch,
    json "thing" "thing = uint .le 0" "1000000000000" .mismatch,
    json "thing" "thing = uint .le 0" "-1000" .mismatch,
    json "thing" "thing = uint .le 0" "\"\"" .mismatch,
    json "thing" "thing = uint .le -1" "0" .mismatch,
    json "thing" "thing = uint .le -1" "1" .mismatch,
    json "thing" "thing = uint .le -1" "1000000000000" .mismatch,
    json "thing" "thing = uint .le -1" "-1000" .mismatch,
    json "thing" "thing = uint .le -1" "\"\"" .mismatch,
    json "thing" "thing = uint .le 18446744073709551615" "1000000000000" .ok
  ].all id = true := by decide +kernel

/-- `json_control_le`, continued -/
theorem json_control_le_2 : [
    json "thing" "thing = nint .le 0" "-1" .ok,
    json "thing" "thing = nint .le 0" "0" .mismatch,
    json "thing" "thing = nint .le 0" "1" .mismatch,
    json "thing" "thing = nint .le 1" "0" .mismatch,
    json "thing" "thing = nint .le 1" "1" .mismatch,
    json "thing" "thing = nint .le 1" "1000000000000" .mismatch,
    json "thing" "thing = nint .le 1" "-1000" .ok,
    json "thing" "thing = nint .le 1" "\"\"" .mismatch,
    json "thing" "thing = nint .le -999" "0" .mismatch,
    json "thing" "thing = nint .le -999" "1" .mismatch,
    json "thing" "thing = nint .le -999" "1000000000000" .mismatch,
    json "thing" "thing = nint .le -999" "-1000" .ok,
    json "thing" "thing = nint .le -999" "\"\"" .mismatch,
    json "thing" "thing = nint .le -1000" "0" .mismatch,
    json "thing" "thing = nint .le -1000" "1" .mismatch,
    json "thing" "thing = nint .le -1000" "1000000000000" .mismatch
  ].all id = true := by decide +kernel

/-- `json_control_le`, continued -/
theorem json_control_le_3 : [
    json "thing" "thing = nint .le -1000" "-1000" .ok,
    json "thing" "thing = nint .le -1000" "\"\"" .mismatch,
    json "thing" "thing = int .le 1" "0" .ok,
    json "thing" "thing = int .le 1" "1" .ok,
    json "thing" "thing = int .le 1" "1000000000000" .mismatch,
    json "thing" "thing = int .le 1" "-1000" .ok,
    json "thing" "thing = int .le 1" "\"\"" .mismatch,
    json "thing" "thing = int .le -999" "0" .mismatch,
    json "thing" "thing = int .le -999" "1" .mismatch,
    json "thing" "thing = int .le -999" "1000000000000" .mismatch,
    json "thing" "thing = int .le -999" "-1000" .ok,
    json "thing" "thing = int .le -999" "\"\"" .mismatch,
    json "thing" "thing = int .le -1000" "0" .mismatch,
    json "thing" "thing = int .le -1000" "1" .mismatch,
    json "thing" "thing = int .le -1000" "1000000000000" .mismatch,
    json "thing" "thing = int .le -1000" "-1000" .ok
  ].all id = true := by decide +kernel

/-- `json_control_le`, continued -/
theorem json_control_le_4 : [
    json "thing" "thing = int .le -1000" "\"\"" .mismatch
  ].all id = true := by decide +kernel

/-- `json_control_gt` -/
theorem json_control_gt_1 : [
    json "thing" "thing = uint .gt 1" "0" .mismatch,
    json "thing" "thing = uint .gt 1" "1" .mismatch,
    json "thing" "thing = uint .gt 1" "1000000000000" .ok,
    json "thing" "thing = uint .gt 1" "-1000" .mismatch,
    json "thing" "thing = uint .gt 1" "\"\"" .mismatch,
    json "thing" "thing = uint .gt 0" "0" .mismatch,
    json "thing" "thing = uint .gt 0" "1" .ok,
    json "thing" "thing = uint .gt 0" "1000000000000" .ok,
    json "thing" "thing = uint .gt 0" "-1000" .mismatch,
    json "thing" "thing = uint .gt 0" "\"\"" .mismatch,
    json "thing" "thing = uint .gt -1" "0" .ok,
    json "thing" "thing = uint .gt -1" "1" .ok,
    json "thing" "thing = uint .gt -1" "1000000000000" .ok,
    json "thing" "thing = uint .gt -1" "-1000" .mismatch,
    json "thing" "thing = uint .gt -1" "\"\"" .mismatch,
    json "thing" "thing = uint .gt 18446744073709551615" "1000000000000" .mismatch
  ].all id = true := by decide +kernel

/-- `json_control_gt`, continued -/
theorem json_control_gt_2 : [
    json "thing" "thing = nint .gt 0" "-1" .mismatch,
    json "thing" "thing = nint .gt 0" "0" .mismatch,
    json "thing" "thing = nint .gt 1" "0" .mismatch,
    json "thing" "thing = nint .gt 1" "1" .mismatch,
    json "thing" "thing = nint .gt 1" "1000000000000" .mismatch,
    json "thing" "thing = nint .gt 1" "-1000" .mismatch,
    json "thing" "thing = nint .gt 1" "\"\"" .mismatch,
    json "thing" "thing = nint .gt -2" "0" .mismatch,
    json "thing" "thing = nint .gt -2" "1" .mismatch,
    json "thing" "thing = nint .gt -2" "1000000000000" .mismatch,
    json "thing" "thing = nint .gt -2" "-1" .ok,
    json "thing" "thing = nint .gt -2" "-2" .mismatch,
    json "thing" "thing = nint .gt -2" "-1000" .mismatch,
    json "thing" "thing = nint .gt -2" "\"\"" .mismatch,
    json "thing" "thing = nint .gt -999" "0" .mismatch,
    json "thing" "thing = nint .gt -999" "1" .mismatch
  ].all id = true := by decide +kernel

/-- `json_control_gt`, continued -/
theorem json_control_gt_3 : [
    json "thing" "thing = nint .gt -999" "1000000000000" .mismatch,
    json "thing" "thing = nint .gt -999" "-1" .ok,
    json "thing" "thing = nint .gt -999" "-999" .mismatch,
    json "thing" "thing = nint .gt -999" "-1000" .mismatch,
    json "thing" "thing = nint .gt -999" "\"\"" .mismatch,
    json "thing" "thing = nint .gt -1000" "0" .mismatch,
    json "thing" "thing = nint .gt -1000" "1" .mismatch,
    json "thing" "thing = nint .gt -1000" "1000000000000" .mismatch,
    json "thing" "thing = nint .gt -1000" "-1" .ok,
    json "thing" "thing = nint .gt -1000" "-999" .ok,
    json "thing" "thing = nint .gt -1000" "-1000" .mismatch,
    json "thing" "thing = nint .gt -1000" "\"\"" .mismatch,
    json "thing" "thing = int .gt 1" "0" .mismatch,
    json "thing" "thing = int .gt 1" "1" .mismatch,
    json "thing" "thing = int .gt 1" "1000000000000" .ok,
    json "thing" "thing = int .gt 1" "-1000" .mismatch
  ].all id = true := by decide +kernel

/-- `json_control_gt`, continued -/
theorem json_control_gt_4 : [
    json "thing" "thing = int .gt 1" "\"\"" .mismatch,
    json "thing" "thing = int .gt -999" "0" .ok,
    json "thing" "thing = int .gt -999" "1" .ok,
    json "thing" "thing = int .gt -999" "1000000000000" .ok,
    json "thing" "thing = int .gt -999" "-999" .mismatch,
    json "thing" "thing = int .gt -999" "-1000" .mismatch,
    json "thing" "thing = int .gt -999" "\"\"" .mismatch,
    json "thing" "thing = int .gt -1000" "0" .ok,
    json "thing" "thing = int .gt -1000" "1" .ok,
    json "thing" "thing = int .gt -1000" "1000000000000" .ok,
    json "thing" "thing = int .gt -1000" "-999" .ok,
    json "thing" "thing = int .gt -1000" "-1000" .mismatch,
    json "thing" "thing = int .gt -1000" "\"\"" .mismatch
  ].all id = true := by decide +kernel

/-- `json_control_ge` -/
theorem json_control_ge_1 : [
    json "thing" "thing = uint .ge 1" "0" .mismatch,
    json "thing" "thing = uint .ge 1" "1" .ok,
    json "thing" "thing = uint .ge 1" "1000000000000" .ok,
    json "thing" "thing = uint .ge 1" "-1000" .mismatch,
    json "thing" "thing = uint .ge 1" "\"\"" .mismatch,
    json "thing" "thing = uint .ge 0" "0" .ok,
    json "thing" "thing = uint .ge 0" "1" .ok,
    json "thing" "thing = uint .ge 0" "1000000000000" .ok,
    json "thing" "thing = uint .ge 0" "-1000" .mismatch,
    json "thing" "thing = uint .ge 0" "\"\"" .mismatch,
    json "thing" "thing = uint .ge -1" "0" .ok,
    json "thing" "thing = uint .ge -1" "1" .ok,
    json "thing" "thing = uint .ge -1" "1000000000000" .ok,
    json "thing" "thing = uint .ge -1" "-1" .mismatch,
    json "thing" "thing = uint .ge -1" "-1000" .mismatch,
    json "thing" "thing = uint .ge -1" "\"\"" .mismatch
  ].all id = true := by decide +kernel

/-- `json_control_ge`, continued -/
theorem json_control_ge_2 : [
    json "thing" "thing = uint .ge 18446744073709551615" "1000000000000" .mismatch,
    json "thing" "thing = nint .ge 0" "-1" .mismatch,
    json "thing" "thing = nint .ge 0" "0" .mismatch,
    json "thing" "thing = nint .ge 1" "0" .mismatch,
    json "thing" "thing = nint .ge 1" "1" .mismatch,
    json "thing" "thing = nint .ge 1" "1000000000000" .mismatch,
    json "thing" "thing = nint .ge 1" "-1000" .mismatch,
    json "thing" "thing = nint .ge 1" "\"\"" .mismatch,
    json "thing" "thing = nint .ge -2" "0" .mismatch,
    json "thing" "thing = nint .ge -2" "1" .mismatch,
    json "thing" "thing = nint .ge -2" "1000000000000" .mismatch,
    json "thing" "thing = nint .ge -2" "-1" .ok,
    json "thing" "thing = nint .ge -2" "-2" .ok,
    json "thing" "thing = nint .ge -2" "-1000" .mismatch,
    json "thing" "thing = nint .ge -2" "\"\"" .mismatch,
    json "thing" "thing = nint .ge -999" "0" .mismatch
  ].all id = true := by decide +kernel

/-- `json_control_ge`, continued -/
theorem json_control_ge_3 : [
    json "thing" "thing = nint .ge -999" "1" .mismatch,
    json "thing" "thing = nint .ge -999" "1000000000000" .mismatch,
    json "thing" "thing = nint .ge -999" "-1" .ok,
    json "thing" "thing = nint .ge -999" "-999" .ok,
    json "thing" "thing = nint .ge -999" "-1000" .mismatch,
    json "thing" "thing = nint .ge -999" "\"\"" .mismatch,
    json "thing" "thing = nint .ge -1000" "0" .mismatch,
    json "thing" "thing = nint .ge -1000" "1" .mismatch,
    json "thing" "thing = nint .ge -1000" "1000000000000" .mismatch,
    json "thing" "thing = nint .ge -1000" "-1" .ok,
    json "thing" "thing = nint .ge -1000" "-999" .ok,
    json "thing" "thing = nint .ge -1000" "-1000" .ok,
    json "thing" "thing = nint .ge -1000" "\"\"" .mismatch,
    json "thing" "thing = int .ge 1" "0" .mismatch,
    json "thing" "thing = int .ge 1" "1" .ok,
    json "thing" "thing = int .ge 1" "1000000000000" .ok
  ].all id = true := by decide +kernel

/-- `json_control_ge`, continued -/
theorem json_control_ge_4 : [
    json "thing" "thing = int .ge 1" "-1000" .mismatch,
    json "thing" "thing = int .ge 1" "\"\"" .mismatch,
    json "thing" "thing = int .ge -999" "0" .ok,
    json "thing" "thing = int .ge -999" "1" .ok,
    json "thing" "thing = int .ge -999" "1000000000000" .ok,
    json "thing" "thing = int .ge -999" "-999" .ok,
    json "thing" "thing = int .ge -999" "-1000" .mismatch,
    json "thing" "thing = int .ge -999" "\"\"" .mismatch,
    json "thing" "thing = int .ge -1000" "0" .ok,
    json "thing" "thing = int .ge -1000" "1" .ok,
    json "thing" "thing = int .ge -1000" "1000000000000" .ok,
    json "thing" "thing = int .ge -1000" "-999" .ok,
    json "thing" "thing = int .ge -1000" "-1000" .ok,
    json "thing" "thing = int .ge -1000" "\"\"" .mismatch
  ].all id = true := by decide +kernel

/-- `json_control_regexp` -/
theorem json_control_regexp_1 : [
    json "nolz" " nolz = tstr .regexp \"^(0|[1-9][0-9]*)$\" " " \"0\" " .ok,
    json "nolz" " nolz = tstr .regexp \"^(0|[1-9][0-9]*)$\" " " \"1\" " .ok,
    json "nolz" " nolz = tstr .regexp \"^(0|[1-9][0-9]*)$\" " " \"20\" " .ok,
    json "nolz" " nolz = tstr .regexp \"^(0|[1-9][0-9]*)$\" " " \"23\" " .ok,
    json "nolz" " nolz = tstr .regexp \"^(0|[1-9][0-9]*)$\" " " \"123\" " .ok,
    json "nolz" " nolz = tstr .regexp \"^(0|[1-9][0-9]*)$\" " " \"01\" " .mismatch,
    json "nolz" " nolz = tstr .regexp \"^(0|[1-9][0-9]*)$\" " " \"0a\" " .mismatch,
    json "nolz" " nolz = tstr .regexp \"^(0|[1-9][0-9]*)$\" " " \"\" " .mismatch,
    json "pat" " pat = tstr .regexp \"^A\" " " \"A\" " .ok,
    json "pat" " pat = tstr .regexp \"^A\" " " \"ABC\" " .ok,
    json "pat" " pat = tstr .regexp \"^A\" " " \"AAA\" " .ok,
    json "pat" " pat = tstr .regexp \"^A\" " " \"ZA\" " .mismatch,
    json "pat" " pat = tstr .regexp \"^A\" " " \"\" " .mismatch,
    json "pat" " pat = tstr .regexp \"BB\" " " \"BB\" " .ok,
    json "pat" " pat = tstr .regexp \"BB\" " " \"ABCBBA\" " .ok,
    json "pat" " pat = tstr .regexp \"BB\" " " \"ABCBA\" " .mismatch
  ].all id = true := by decide +kernel

/-- `json_control_regexp`, continued -/
theorem json_control_regexp_2 : [
    json "pat" " pat = bstr .regexp \"CCC\" " " \"CCC\" " .structural,
    json "pat" " pat = tstr .regexp 1234 " " \"1234\" " .structural,
    json "nai" " nai = tstr .regexp \"[A-Za-z0-9]+@[A-Za-z0-9]+(\\\\.[A-Za-z0-9]+)+\" " "\"N1@CH57HF.4Znqe0.dYJRN.igjf\"" .ok
  ].all id = true := by decide +kernel

/-- `json_infinite_recursion` -/
theorem json_infinite_recursion : [
    json "thing1" "thing1 = thing2  thing2 = thing1" "0" .err
  ].all id = true := by decide +kernel

/-- `json_choiceify_map` -/
theorem json_choiceify_map : [
    json "person" "\n        person = { name: tstr, age: uint, &extra }\n        extra = ( aaa: bbb, ccc: ddd )\n        aaa = ( one: tstr )\n        bbb = ( two: tstr )\n        ccc = ( three: tstr )\n        ddd = ( four: tstr )\n    " "{\"name\": \"Alice\", \"age\": 33 }" .mismatch,
    json "person" "\n        person = { name: tstr, age: uint, &extra }\n        extra = ( aaa: bbb, ccc: ddd )\n        aaa = ( one: tstr )\n        bbb = ( two: tstr )\n        ccc = ( three: tstr )\n        ddd = ( four: tstr )\n    " "{\"name\": \"Alice\", \"age\": 33, \"one\": \"X\" }" .mismatch,
    json "person" "\n        person = { name: tstr, age: uint, &extra }\n        extra = ( aaa: bbb, ccc: ddd )\n        aaa = ( one: tstr )\n        bbb = ( two: tstr )\n        ccc = ( three: tstr )\n        ddd = ( four: tstr )\n    " "{\"name\": \"Alice\", \"age\": 33, \"two\": \"X\" }" .ok,
    json "person" "\n        person = { name: tstr, age: uint, &extra }\n        extra = ( aaa: bbb, ccc: ddd )\n        aaa = ( one: tstr )\n        bbb = ( two: tstr )\n        ccc = ( three: tstr )\n        ddd = ( four: tstr )\n    " "{\"name\": \"Alice\", \"age\": 33, \"three\": \"X\" }" .mismatch,
    json "person" "\n        person = { name: tstr, age: uint, &extra }\n        extra = ( aaa: bbb, ccc: ddd )\n        aaa = ( one: tstr )\n        bbb = ( two: tstr )\n        ccc = ( three: tstr )\n        ddd = ( four: tstr )\n    " "{\"name\": \"Alice\", \"age\": 33, \"four\": \"X\" }" .ok,
    json "person" "\n        person = { name: tstr, age: uint, &extra }\n        extra = ( aaa: bbb, ccc: ddd )\n        aaa = ( one: tstr )\n        bbb = ( two: tstr )\n        ccc = ( three: tstr )\n        ddd = ( four: tstr )\n    " "{\"name\": \"Alice\", \"four\": \"X\" }" .mismatch,
    json "person" "\n        person = { name: tstr, age: uint, &extra1 }\n        extra1 = extra2\n        extra2 = ( aaa: bbb, ccc: ddd )\n        aaa = ( one: tstr )\n        bbb = ( two: tstr )\n        ccc = ( three: tstr )\n        ddd = ( four: tstr )\n    " "{\"name\": \"Alice\", \"age\": 33, \"one\": \"X\" }" .mismatch,
    json "person" "\n        person = { name: tstr, age: uint, &extra1 }\n        extra1 = extra2\n        extra2 = ( aaa: bbb, ccc: ddd )\n        aaa = ( one: tstr )\n        bbb = ( two: tstr )\n        ccc = ( three: tstr )\n        ddd = ( four: tstr )\n    " "{\"name\": \"Alice\", \"age\": 33, \"two\": \"X\" }" .ok,
    json "person" "\n        person = { name: tstr, age: uint, &extra1 }\n        extra1 = extra2\n        extra2 = ( aaa: bbb, ccc: ddd )\n        aaa = ( one: tstr )\n        bbb = ( two: tstr )\n        ccc = ( three: tstr )\n        ddd = ( four: tstr )\n    " "{\"name\": \"Alice\", \"age\": 33, \"three\": \"X\" }" .mismatch,
    json "person" "\n        person = { name: tstr, age: uint, &extra1 }\n        extra1 = extra2\n        extra2 = ( aaa: bbb, ccc: ddd )\n        aaa = ( one: tstr )\n        bbb = ( two: tstr )\n        ccc = ( three: tstr )\n        ddd = ( four: tstr )\n    " "{\"name\": \"Alice\", \"age\": 33, \"four\": \"X\" }" .ok,
    json "map" "\n        map = { top: tstr, &groupa }\n        groupa = ( thing1: groupb )\n        groupb = ( choice1: uint )\n    " "{ \"top\": \"yes\", \"choice1\": 99 }" .ok,
    json "map" "\n        map = { &oops }\n        oops = { one: 1, two: 2 }\n    " "{ \"test\": 99 }" .structural
  ].all id = true := by decide +kernel

/-- `json_choiceify_array` -/
theorem json_choiceify_array : [
    json "triple" "\n        triple = [ tstr, bool, &primes ]\n        primes = (2, 3, 5, more_primes)\n        more_primes = (7, 11)\n    " "[ \"foo\", true, 2 ]" .ok,
    json "triple" "\n        triple = [ tstr, bool, &primes ]\n        primes = (2, 3, 5, more_primes)\n        more_primes = (7, 11)\n    " "[ \"foo\", true, 11 ]" .ok,
    json "triple" "\n        triple = [ tstr, bool, &primes ]\n        primes = (2, 3, 5, more_primes)\n        more_primes = (7, 11)\n    " "[ \"foo\", true ]" .mismatch,
    json "triple" "\n        triple = [ tstr, bool, &primes ]\n        primes = (2, 3, 5, more_primes)\n        more_primes = (7, 11)\n    " "[ \"foo\", true, 4 ]" .mismatch,
    json "array" "\n        array = [ &primes ]\n        primes = more_primes\n        more_primes = (2, 3, 5)\n    " "[ 2 ]" .ok,
    json "array" "\n        array = [ &primes ]\n        primes = more_primes\n        more_primes = (2, 3, 5)\n    " "[ 4 ]" .mismatch,
    json "array" "\n        array = [ &oops ]\n        oops = [2, 3, 5]\n    " "[ 2 ]" .structural
  ].all id = true := by decide +kernel

end Cddl.Tests
