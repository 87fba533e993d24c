import Verif.Tests.Common

/-!
# The examples in the documentation of the crate

/repo/src/lib.rs:40-86, /repo/src/cbor.rs:5-57, /repo/src/json.rs:5-12, /repo/src/parser/mod.rs:7-12 and 1150-1155,
/repo/src/ivt.rs:169-182 and 331-338, with the answer the documentation gives, evaluated in the model.
-/

namespace Cddl.Tests

/-- What the decoders give on the data of the examples. -/
def docLibs : Libs :=
  { testLibs with
    jsonDecode := fun s => match table [
        ("{ \"name\": \"Bob\", \"age\": 43 }", Json.object [("age", .number (.posInt 43)), ("name", .string "Bob")]),
        ("{ \"name\": \"Bob\", \"age\": \"forty three\" }", .object [("age", .string "forty three"), ("name", .string "Bob")]),
        ("{ \"optional-key\": \"hello\" }", .object [("optional-key", .string "hello")])] s with
      | some j => .ok j
      | none => .error "expected value at line 1 column 1"
    cborDecode := fun b => match table [
        ([162, 100, 110, 97, 109, 101, 99, 66, 111, 98, 99, 97, 103, 101, 24, 43],
          Cbor.map [(.text "name", .text "Bob"), (.text "age", .integer 43)])] b with
      | some c => .ok c
      | none => .error "unexpected end of file" }

def personCddl : String := "person = {name: tstr, age: int}"

/-- /repo/src/lib.rs:40-62 and /repo/src/json.rs:5-12 -/
theorem doc_json : [
    Expect.ok.holds (validateJsonStrF docLibs 300 "person" personCddl "{ \"name\": \"Bob\", \"age\": 43 }"),
    Expect.err.holds (validateJsonStrF docLibs 300 "person" personCddl "{ \"name\": \"Bob\", \"age\": \"forty three\" }")
  ].all id = true := by decide +kernel

/-- /repo/src/lib.rs:65-86 and /repo/src/cbor.rs:5-24 -/
theorem doc_cbor : Expect.ok.holds (validateCborBytesF docLibs 300 "person" personCddl
    [162, 100, 110, 97, 109, 101, 99, 66, 111, 98, 99, 97, 103, 101, 24, 43]) = true := by decide +kernel

/-- /repo/src/cbor.rs:28-57: the parsed rules are used by hand. -/
theorem doc_reuse : (match flattenFromStr docLibs personCddl with
    | .ok t => match t.find "person" with
      | some rd => Expect.ok.holds (validateCborF (docLibs.env t) 300 rd
          (.map [(.text "name", .text "Bob"), (.text "age", .integer 43)]))
      | none => false
    | _ => false) = true := by decide +kernel

/-- /repo/src/parser/mod.rs:7-12 and 1150-1155 -/
theorem doc_parse : (match parseCddl docLibs.parse "map = { name: tstr }" with | .ok _ => true | _ => false) = true := by
  decide +kernel

/-- /repo/src/ivt.rs:169-182: cuts. -/
theorem doc_cut : [
    Expect.ok.holds (validateJsonStrF docLibs 300 "extensible-map-example"
      "extensible-map-example = {\n    ? \"optional-key\" => int,\n    * tstr => any\n}" "{ \"optional-key\": \"hello\" }"),
    Expect.err.holds (validateJsonStrF docLibs 300 "extensible-map-example"
      "extensible-map-example = {\n    ? \"optional-key\" ^ => int,\n    * tstr => any\n}" "{ \"optional-key\": \"hello\" }")
  ].all id = true := by decide +kernel

/-- /repo/src/ivt.rs:331-338 gives two schemas as nonsensical or ambiguous, but allowed by the syntax.  As written there, with
`=` for `:`, neither is parsed (nor is it CDDL); with `:` both are. -/
theorem doc_array : [
    Expect.parse.holds ((flattenFromStr docLibs "thing = [ * mygroup ]\nmygroup = ( a = tstr, b = int)").bind fun _ => .ok ()),
    Expect.parse.holds ((flattenFromStr docLibs "thing = [ * \"a\" = int, * \"b\" = int ]").bind fun _ => .ok ()),
    Expect.ok.holds ((flattenFromStr docLibs "thing = [ * mygroup ]\nmygroup = ( a: tstr, b: int)").bind fun _ => .ok ()),
    Expect.ok.holds ((flattenFromStr docLibs "thing = [ * \"a\": int, * \"b\": int ]").bind fun _ => .ok ())
  ].all id = true := by decide +kernel

end Cddl.Tests
