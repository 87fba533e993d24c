import Verif.Tests.Common

/-!
# The cases of /repo/tests/cbor_cddl.rs

Every call in the integration tests of the crate (except in blocks disabled with `if false`), with the answer the
test expects, evaluated in the model.
-/

namespace Cddl.Tests

/-- What `ciborium::from_reader` gives on the bytes used in the tests. -/
def cborBytes : List (List UInt8 × Cbor) := [
  ([246], .null),
  ([0], .integer 0),
  ([244], .bool false),
  ([245], .bool true),
  ([249, 0, 0], .float ⟨0x0⟩),
  ([249, 60, 0], .float ⟨0x3ff0000000000000⟩),
  ([250, 71, 195, 80, 0], .float ⟨0x40f86a0000000000⟩),
  ([251, 126, 55, 228, 60, 136, 0, 117, 156], .float ⟨0x7e37e43c8800759c⟩),
  ([23], .integer 23),
  ([24, 24], .integer 24),
  ([100, 73, 69, 84, 70], .text "IETF"),
  ([1], .integer 1),
  ([57, 3, 231], .integer (-1000)),
  ([96], .text ""),
  ([99, 230, 176, 180], .text "水"),
  ([64], .bytes []),
  ([68, 1, 2, 3, 4], .bytes [1, 2, 3, 4]),
  ([131, 1, 2, 3], .array [.integer 1, .integer 2, .integer 3]),
  ([128], .array []),
  ([129, 24, 42], .array [.integer 42]),
  ([130, 1, 2], .array [.integer 1, .integer 2]),
  ([130, 101, 65, 108, 105, 99, 101, 24, 42], .array [.text "Alice", .integer 42]),
  ([130, 24, 43, 101, 67, 97, 114, 111, 108], .array [.integer 43, .text "Carol"]),
  ([131, 101, 68, 97, 118, 105, 100, 24, 44, 24, 45], .array [.text "David", .integer 44, .integer 45]),
  ([99, 69, 118, 101], .text "Eve"),
  ([132, 99, 120, 121, 122, 17, 251, 64, 35, 204, 204, 204, 204, 204, 205, 244], .array [.text "xyz", .integer 17, .float ⟨0x4023cccccccccccd⟩, .bool false]),
  ([162, 100, 110, 97, 109, 101, 99, 66, 111, 98, 99, 97, 103, 101, 24, 43], .map [(.text "name", .text "Bob"), (.text "age", .integer 43)]),
  ([163, 102, 112, 111, 95, 98, 111, 120, 24, 101, 100, 110, 97, 109, 101, 109, 83, 97, 110, 32, 70, 114, 97, 110, 99, 105, 115, 99, 111, 104, 122, 105, 112, 95, 99, 111, 100, 101, 26, 0, 1, 111, 151], .map [(.text "po_box", .integer 101), (.text "name", .text "San Francisco"), (.text "zip_code", .integer 94103)]),
  ([164, 102, 115, 116, 114, 101, 101, 116, 108, 69, 108, 101, 118, 101, 110, 116, 104, 32, 83, 116, 46, 102, 110, 117, 109, 98, 101, 114, 25, 1, 119, 100, 110, 97, 109, 101, 109, 83, 97, 110, 32, 70, 114, 97, 110, 99, 105, 115, 99, 111, 104, 122, 105, 112, 95, 99, 111, 100, 101, 26, 0, 1, 111, 151], .map [(.text "street", .text "Eleventh St."), (.text "number", .integer 375), (.text "name", .text "San Francisco"), (.text "zip_code", .integer 94103)]),
  ([161, 106, 112, 101, 114, 95, 112, 105, 99, 107, 117, 112, 245], .map [(.text "per_pickup", .bool true)]),
  ([9], .integer 9),
  ([67, 1, 2, 3], .bytes [1, 2, 3]),
  ([27, 0, 0, 0, 232, 212, 165, 16, 0], .integer 1000000000000),
  ([25, 255, 255], .integer 65535),
  ([26, 0, 1, 0, 0], .integer 65536),
  ([32], .integer (-1)),
  ([33], .integer (-2)),
  ([57, 3, 230], .integer (-999)),
  ([65, 23], .bytes [23]),
  ([97, 48], .text "0"),
  ([97, 49], .text "1"),
  ([98, 50, 48], .text "20"),
  ([98, 50, 51], .text "23"),
  ([99, 49, 50, 51], .text "123"),
  ([98, 48, 49], .text "01"),
  ([98, 48, 97], .text "0a"),
  ([97, 65], .text "A"),
  ([99, 65, 66, 67], .text "ABC"),
  ([99, 65, 65, 65], .text "AAA"),
  ([98, 90, 65], .text "ZA"),
  ([98, 66, 66], .text "BB"),
  ([102, 65, 66, 67, 66, 66, 65], .text "ABCBBA"),
  ([101, 65, 66, 67, 66, 65], .text "ABCBA"),
  ([99, 67, 67, 67], .text "CCC"),
  ([100, 49, 50, 51, 52], .text "1234"),
  ([120, 27, 78, 49, 64, 67, 72, 53, 55, 72, 70, 46, 52, 90, 110, 113, 101, 48, 46, 100, 89, 74, 82, 78, 46, 105, 103, 106, 102], .text "N1@CH57HF.4Znqe0.dYJRN.igjf")]

def cborLibs : Libs :=
  { testLibs with cborDecode := fun b => match table cborBytes b with
      | some c => .ok c
      | none => .error "unexpected end of file" }

/-- `validate_cbor_bytes` answers as expected. -/
def cbor (name cddl : String) (b : List UInt8) (e : Expect) : Bool := e.holds (validateCborBytesF cborLibs 300 name cddl b)

/-- `validate_cbor_null` -/
theorem cbor_null : [
    cbor "thing" "thing = nil" [246] .ok,
    cbor "thing" "thing = nil" [0] .err,
    cbor "thing" "thing = nil" [244] (.text "Mismatch(expected nil)")
  ].all id = true := by decide +kernel

/-- `validate_cbor_bool` -/
theorem cbor_bool : [
    cbor "thing" "thing = true" [245] .ok,
    cbor "thing" "thing = true" [244] .err,
    cbor "thing" "thing = true" [246] (.text "Mismatch(expected true)")
  ].all id = true := by decide +kernel

/-- `validate_cbor_float` -/
theorem cbor_float : [
    cbor "thing" "thing = 0.0" [249, 0, 0] .ok,
    cbor "thing" "thing = 0.0" [249, 60, 0] (.text "Mismatch(expected 0)"),
    cbor "thing" "thing = float" [249, 60, 0] .ok,
    cbor "thing" "thing = float" [250, 71, 195, 80, 0] .ok,
    cbor "thing" "thing = float" [251, 126, 55, 228, 60, 136, 0, 117, 156] .ok,
    cbor "thing" "thing = float16" [249, 60, 0] .ok,
    cbor "thing" "thing = float32" [249, 60, 0] .ok,
    cbor "thing" "thing = float32" [250, 71, 195, 80, 0] .ok,
    cbor "thing" "thing = float64" [249, 60, 0] .ok,
    cbor "thing" "thing = float64" [251, 126, 55, 228, 60, 136, 0, 117, 156] .ok
  ].all id = true := by decide +kernel

/-- `validate_cbor_choice` -/
theorem cbor_choice : [
    cbor "thing" "thing = 23 / 24" [23] .ok,
    cbor "thing" "thing = 23 / 24" [24, 24] .ok,
    cbor "thing" "thing = (foo // bar) foo = (int / float) bar = tstr" [23] .ok,
    cbor "thing" "thing = (foo // bar) foo = (int / float) bar = tstr" [249, 60, 0] .ok,
    cbor "thing" "thing = (foo // bar) foo = (int / float) bar = tstr" [100, 73, 69, 84, 70] .ok,
    cbor "thing" "thing = (foo // bar) foo = (int / float) bar = tstr" [245] (.text "Mismatch(expected choice of 2)"),
    cbor "thing" "thing = (foo / bar) foo = (int / float) bar = tstr" [23] .ok,
    cbor "thing" "thing = (foo / bar) foo = (int / float) bar = tstr" [249, 60, 0] .ok,
    cbor "thing" "thing = (foo / bar) foo = (int / float) bar = tstr" [100, 73, 69, 84, 70] .ok,
    cbor "thing" "thing = (foo / bar) foo = (int / float) bar = tstr" [245] (.text "Mismatch(expected choice of 2)"),
    cbor "thing" "thing = (int / float // tstr / bstr)" [23] .ok,
    cbor "thing" "thing = (int / float // tstr / bstr)" [249, 60, 0] .ok,
    cbor "thing" "thing = (int / float // tstr / bstr)" [100, 73, 69, 84, 70] .ok,
    cbor "thing" "thing = (int / float // tstr / bstr)" [245] (.text "Mismatch(expected choice of 2)")
  ].all id = true := by decide +kernel

/-- `validate_cbor_integer` -/
theorem cbor_integer : [
    cbor "thing" "thing = 1" [1] .ok,
    cbor "thing" "thing = 1" [246] .err,
    cbor "thing" "thing = 1" [249, 60, 0] .err,
    cbor "thing" "thing = 1" [245] .err,
    cbor "thing" "thing = int" [0] .ok,
    cbor "thing" "thing = int" [24, 24] .ok,
    cbor "thing" "thing = int" [57, 3, 231] .ok,
    cbor "thing" "thing = int" [249, 60, 0] .err,
    cbor "thing" "thing = uint" [0] .ok,
    cbor "thing" "thing = uint" [24, 24] .ok,
    cbor "thing" "thing = uint" [57, 3, 231] .err,
    cbor "thing" "thing = nint" [57, 3, 231] .ok,
    cbor "thing" "thing = nint" [0] .err,
    cbor "thing" "thing = nint" [24, 24] .err
  ].all id = true := by decide +kernel

/-- `validate_cbor_ranges` -/
theorem cbor_ranges : [
    cbor "thing" "thing = 1..5" [1] .ok,
    cbor "thing" "thing = 1..5" [24, 24] (.text "Mismatch(expected 1..5)"),
    cbor "thing" "thing = 1..5" [249, 60, 0] (.text "Mismatch(expected 1..5)"),
    cbor "thing" "thing = 1..24" [24, 24] .ok,
    cbor "thing" "thing = 1...24" [23] .ok,
    cbor "thing" "thing = 1...24" [24, 24] .err,
    cbor "thing" "thing = 1 .. 5.3" [1] (.text "Structural(mismatched types on range operator)"),
    cbor "thing" "max=5 thing = 1..max" [1] .ok,
    cbor "thing" "max=5 thing = 1..max" [24, 24] .err,
    cbor "thing" "thing = 0.9..1.2" [249, 60, 0] .ok,
    cbor "thing" "thing = 0.9..1.2" [249, 0, 0] .err,
    cbor "thing" "thing = 0.9..1.2" [1] (.text "Mismatch(expected 0.9..1.2)"),
    cbor "thing" "thing = 1..uint" [1] (.text "Structural(bad type on range operator)"),
    cbor "thing" "thing = 1..[5]" [1] (.text "Structural(bad type on range operator)")
  ].all id = true := by decide +kernel

/-- `validate_cbor_textstring` -/
theorem cbor_textstring : [
    cbor "thing" "thing = tstr" [96] .ok,
    cbor "thing" "thing = text" [96] .ok,
    cbor "thing" "thing = tstr" [100, 73, 69, 84, 70] .ok,
    cbor "thing" "thing = text" [100, 73, 69, 84, 70] .ok,
    cbor "thing" "thing = tstr" [99, 230, 176, 180] .ok,
    cbor "thing" "thing = text" [99, 230, 176, 180] .ok,
    cbor "thing" "thing = tstr" [64] .err,
    cbor "thing" "thing = text" [64] (.text "Mismatch(expected tstr)")
  ].all id = true := by decide +kernel

/-- `validate_cbor_bytestring` -/
theorem cbor_bytestring : [
    cbor "thing" "thing = bstr" [64] .ok,
    cbor "thing" "thing = bytes" [64] .ok,
    cbor "thing" "thing = bstr" [68, 1, 2, 3, 4] .ok,
    cbor "thing" "thing = bytes" [68, 1, 2, 3, 4] .ok,
    cbor "thing" "thing = bstr" [96] .err,
    cbor "thing" "thing = bytes" [96] .err,
    cbor "thing" "thing = bstr" [131, 1, 2, 3] .err,
    cbor "thing" "thing = bytes" [131, 1, 2, 3] (.text "Mismatch(expected bstr)"),
    cbor "thing" "thing = h'01020304'" [68, 1, 2, 3, 4] .ok
  ].all id = true := by decide +kernel

/-- `validate_cbor_array` -/
theorem cbor_array : [
    cbor "thing" "thing = []" [128] .ok,
    cbor "thing" "thing = []" [246] .err,
    cbor "thing" "thing = []" [131, 1, 2, 3] (.text "Mismatch(expected shorter array)"),
    cbor "thing" "thing = [1, 2, 3]" [131, 1, 2, 3] .ok,
    cbor "thing" "thing = [1, 2, 3]" [128] (.text "Mismatch(expected array element 1)")
  ].all id = true := by decide +kernel

/-- `validate_cbor_homogenous_array` -/
theorem cbor_homogenous_array : [
    cbor "thing" "thing = [* int]" [128] .ok,
    cbor "thing" "thing = [* int]" [131, 1, 2, 3] .ok,
    cbor "thing" "thing = [+ int]" [131, 1, 2, 3] .ok,
    cbor "thing" "thing = [+ int]" [128] (.text "Mismatch(expected more array element [+ Int])"),
    cbor "thing" "thing = [? int]" [128] .ok,
    cbor "thing" "thing = [? int]" [129, 24, 42] .ok,
    cbor "thing" "thing = [? int]" [131, 1, 2, 3] (.text "Mismatch(expected shorter array)"),
    cbor "thing" "thing = [* tstr]" [131, 1, 2, 3] (.text "Mismatch(expected shorter array)"),
    cbor "thing" "thing = [* zipcode]  zipcode = int" [128] .ok,
    cbor "thing" "thing = [* zipcode]  zipcode = int" [131, 1, 2, 3] .ok
  ].all id = true := by decide +kernel

/-- `validate_cbor_array_groups` -/
theorem cbor_array_groups : [
    cbor "thing" "thing = [int, (int, int)]" [131, 1, 2, 3] .ok,
    cbor "thing" "thing = [int, foo] foo = (int, int)" [131, 1, 2, 3] .ok,
    cbor "thing" "thing = [int, foo] foo = (int, int)" [128] .mismatch,
    cbor "thing" "thing = [int, foo] foo = (int, int)" [130, 1, 2] .mismatch,
    cbor "thing" "thing = [(int, int, int)]" [131, 1, 2, 3] .ok,
    cbor "thing" "thing = [* (int)]" [128] .ok,
    cbor "thing" "thing = [* (int)]" [131, 1, 2, 3] .ok,
    cbor "thing" "thing = [* (int, int, int)]" [131, 1, 2, 3] .ok,
    cbor "thing" "thing = [* (int, int)]" [128] .ok,
    cbor "thing" "thing = [* (int, int)]" [131, 1, 2, 3] .mismatch,
    cbor "thing" "thing = [a: int, b: int, bar] bar = (c: int)" [131, 1, 2, 3] .ok,
    cbor "thing" "thing = [a: int, (bar)] bar = (b: int, c: int)" [131, 1, 2, 3] .ok,
    cbor "thing" "thing = [a: int, b: bar] bar = (b: int, c: int)" [131, 1, 2, 3] (.text "Unsupported standalone group"),
    cbor "thing" "thing = [int, (foo // bar)] foo = (int, tstr) bar = (int, int)" [131, 1, 2, 3] .ok,
    cbor "thing" "thing = [(int, (int, bool // (int, tstr // int, int)))]" [131, 1, 2, 3] .ok
  ].all id = true := by decide +kernel

/-- `validate_cbor_array_unwrap` -/
theorem cbor_array_unwrap : [
    cbor "thing" "header = [a: int, b: int] thing = [~header c: int]" [131, 1, 2, 3] .ok,
    cbor "thing" "header = [a: int, b: int] thing = [~header c: int]" [128] .err,
    cbor "thing" "footer = [a: int, b: int] thing = [c: int ~footer]" [131, 1, 2, 3] .ok,
    cbor "thing" "middle = [int] thing = [a: int, ~middle, c: int]" [131, 1, 2, 3] .ok,
    cbor "thing" "foo = int middle = [foo] thing = [a: int, ~middle, c: int]" [131, 1, 2, 3] .ok,
    cbor "thing" "header = [a: int] thing = [~header, c: int]" [131, 1, 2, 3] .err,
    cbor "thing" "footer = [a: int] thing = [c: int, ~footer]" [131, 1, 2, 3] .err,
    cbor "thing" "footer = [a: int, b: int] thing = [c: int, d: int, ~footer]" [131, 1, 2, 3] (.text "Mismatch(expected array element Int)"),
    cbor "thing" "thing = [c: int ~footer]" [131, 1, 2, 3] (.text "MissingRule(footer)"),
    cbor "thing" "header = {a: int, b: int} thing = [~header c: int]" [131, 1, 2, 3] (.text "Mismatch(expected unwrap array)")
  ].all id = true := by decide +kernel

/-- `validate_cbor_array_record` -/
theorem cbor_array_record : [
    cbor "thing" "thing = [a: int, b: int, c: int]" [131, 1, 2, 3] .ok,
    cbor "thing" "thing = [a: int, b: int, c: int]" [128] .err,
    cbor "thing" "thing = [a: int, b: int, c: foo] foo = int" [131, 1, 2, 3] .ok,
    cbor "thing" "thing = [int, int, int]" [131, 1, 2, 3] .ok,
    cbor "thing" "thing = [int, int, int]" [128] .err,
    cbor "thing" "thing = [a: tstr, b: int]" [130, 101, 65, 108, 105, 99, 101, 24, 42] .ok,
    cbor "thing" "thing = [a: tstr, b: int]" [130, 24, 43, 101, 67, 97, 114, 111, 108] .err,
    cbor "thing" "thing = [a: tstr, b: int]" [131, 101, 68, 97, 118, 105, 100, 24, 44, 24, 45] .err,
    cbor "thing" "thing = [a: tstr, b: int]" [99, 69, 118, 101] .err,
    cbor "thing" "thing = [a: tstr, b: uint, c: float, d: bool]" [132, 99, 120, 121, 122, 17, 251, 64, 35, 204, 204, 204, 204, 204, 205, 244] .ok,
    cbor "thing" "thing = [a: tstr, b: uint, c: float, d: bool]" [131, 1, 2, 3] .err
  ].all id = true := by decide +kernel

/-- `validate_cbor_map_unwrap` -/
theorem cbor_map_unwrap : [
    cbor "thing" "thing = {name: tstr, ~agroup} agroup = {age: int}" [162, 100, 110, 97, 109, 101, 99, 66, 111, 98, 99, 97, 103, 101, 24, 43] .ok,
    cbor "thing" "thing = {name: tstr, ~agroup} agroup = [age: int]" [162, 100, 110, 97, 109, 101, 99, 66, 111, 98, 99, 97, 103, 101, 24, 43] (.text "Mismatch(expected unwrap map)")
  ].all id = true := by decide +kernel

/-- `validate_cbor_map_group` -/
theorem cbor_map_group : [
    cbor "thing" "thing = {name: tstr, agroup} agroup = (age: int)" [162, 100, 110, 97, 109, 101, 99, 66, 111, 98, 99, 97, 103, 101, 24, 43] .ok,
    cbor "thing" "thing = {agroup} agroup = (age: int, name: tstr)" [162, 100, 110, 97, 109, 101, 99, 66, 111, 98, 99, 97, 103, 101, 24, 43] .ok,
    cbor "thing" "thing = {((agroup))} agroup = (age: int, name: tstr)" [162, 100, 110, 97, 109, 101, 99, 66, 111, 98, 99, 97, 103, 101, 24, 43] .ok,
    cbor "thing" "thing = {agroup empty} agroup = (age: int, name: tstr) empty = ()" [162, 100, 110, 97, 109, 101, 99, 66, 111, 98, 99, 97, 103, 101, 24, 43] .ok,
    cbor "thing" "thing = {agroup maybe} agroup = (age: int, name: tstr) maybe = (? minor: bool)" [162, 100, 110, 97, 109, 101, 99, 66, 111, 98, 99, 97, 103, 101, 24, 43] .ok,
    cbor "thing" "thing = {name: tstr, agroup} agroup = (wrong: int)" [162, 100, 110, 97, 109, 101, 99, 66, 111, 98, 99, 97, 103, 101, 24, 43] (.text "Mismatch(expected map{\"wrong\"})"),
    cbor "thing" "thing = {name: tstr, agroup} agroup = (age: bool)" [162, 100, 110, 97, 109, 101, 99, 66, 111, 98, 99, 97, 103, 101, 24, 43] (.text "Mismatch(expected bool)"),
    cbor "thing" "thing = { foo // bar } foo = (name: tstr, age: bool) bar = (name: tstr, age: int)" [162, 100, 110, 97, 109, 101, 99, 66, 111, 98, 99, 97, 103, 101, 24, 43] .ok,
    cbor "thing" "thing = { (name: tstr, photo: bstr //\n                                  (name: tstr, fail: bool // name: tstr, age: int)) }" [162, 100, 110, 97, 109, 101, 99, 66, 111, 98, 99, 97, 103, 101, 24, 43] .ok,
    cbor "thing" "thing = { foo // bar } foo = (name: tstr, age: bool) bar = (name: tstr, age: float)" [162, 100, 110, 97, 109, 101, 99, 66, 111, 98, 99, 97, 103, 101, 24, 43] .mismatch
  ].all id = true := by decide +kernel

/-- `validate_cbor_map` -/
theorem cbor_map : [
    cbor "thing" "thing = {name: tstr, age: int}" [162, 100, 110, 97, 109, 101, 99, 66, 111, 98, 99, 97, 103, 101, 24, 43] .ok,
    cbor "thing" "thing = {name: tstr, ? age: int}" [162, 100, 110, 97, 109, 101, 99, 66, 111, 98, 99, 97, 103, 101, 24, 43] .ok,
    cbor "thing" "thing = {name: tstr, age: int, ? minor: bool}" [162, 100, 110, 97, 109, 101, 99, 66, 111, 98, 99, 97, 103, 101, 24, 43] .ok,
    cbor "thing" "thing = {name: tstr, age: int, * minor: bool}" [162, 100, 110, 97, 109, 101, 99, 66, 111, 98, 99, 97, 103, 101, 24, 43] .ok,
    cbor "thing" "thing = {name: tstr, age: int, + minor: bool}" [162, 100, 110, 97, 109, 101, 99, 66, 111, 98, 99, 97, 103, 101, 24, 43] (.text "Mismatch(expected map{+ \"minor\": Bool}])"),
    cbor "thing" "thing = {name: tstr, age: tstr}" [162, 100, 110, 97, 109, 101, 99, 66, 111, 98, 99, 97, 103, 101, 24, 43] (.text "Mismatch(expected tstr)"),
    cbor "thing" "thing = {name: tstr}" [162, 100, 110, 97, 109, 101, 99, 66, 111, 98, 99, 97, 103, 101, 24, 43] (.text "Mismatch(expected shorter map)"),
    cbor "thing" "thing = {* tstr => any}" [162, 100, 110, 97, 109, 101, 99, 66, 111, 98, 99, 97, 103, 101, 24, 43] .ok,
    cbor "thing" "thing = {name: tstr, * tstr => any}" [162, 100, 110, 97, 109, 101, 99, 66, 111, 98, 99, 97, 103, 101, 24, 43] .ok,
    cbor "thing" "thing = {name: tstr, age: int, * tstr => any}" [162, 100, 110, 97, 109, 101, 99, 66, 111, 98, 99, 97, 103, 101, 24, 43] .ok,
    cbor "thing" "thing = {+ tstr => any}" [162, 100, 110, 97, 109, 101, 99, 66, 111, 98, 99, 97, 103, 101, 24, 43] .ok,
    cbor "thing" "thing = {* int => any}" [162, 100, 110, 97, 109, 101, 99, 66, 111, 98, 99, 97, 103, 101, 24, 43] (.text "Mismatch(expected shorter map)"),
    cbor "thing" "thing = {name: tstr, age: int, minor: bool}" [162, 100, 110, 97, 109, 101, 99, 66, 111, 98, 99, 97, 103, 101, 24, 43] (.text "Mismatch(expected map{\"minor\"})"),
    cbor "thing" "thing = {x: int, y: int, z: int}" [131, 1, 2, 3] .err
  ].all id = true := by decide +kernel

/-- `validate_choice_example` -/
theorem cbor_validate_choice_example : [
    cbor "address" "\n        address = { delivery }\n\n        delivery = (\n        street: tstr, ? number: uint, city //\n        po_box: uint, city //\n        per_pickup: true )\n\n        city = (\n        name: tstr, zip_code: uint\n        )" [163, 102, 112, 111, 95, 98, 111, 120, 24, 101, 100, 110, 97, 109, 101, 109, 83, 97, 110, 32, 70, 114, 97, 110, 99, 105, 115, 99, 111, 104, 122, 105, 112, 95, 99, 111, 100, 101, 26, 0, 1, 111, 151] .ok,
    cbor "address" "\n        address = { delivery }\n\n        delivery = (\n        street: tstr, ? number: uint, city //\n        po_box: uint, city //\n        per_pickup: true )\n\n        city = (\n        name: tstr, zip_code: uint\n        )" [164, 102, 115, 116, 114, 101, 101, 116, 108, 69, 108, 101, 118, 101, 110, 116, 104, 32, 83, 116, 46, 102, 110, 117, 109, 98, 101, 114, 25, 1, 119, 100, 110, 97, 109, 101, 109, 83, 97, 110, 32, 70, 114, 97, 110, 99, 105, 115, 99, 111, 104, 122, 105, 112, 95, 99, 111, 100, 101, 26, 0, 1, 111, 151] .ok,
    cbor "address" "\n        address = { delivery }\n\n        delivery = (\n        street: tstr, ? number: uint, city //\n        po_box: uint, city //\n        per_pickup: true )\n\n        city = (\n        name: tstr, zip_code: uint\n        )" [161, 106, 112, 101, 114, 95, 112, 105, 99, 107, 117, 112, 245] .ok
  ].all id = true := by decide +kernel

/-- `validate_choiceify_example` -/
theorem cbor_validate_choiceify_example : [
    cbor "terminal-color" "\n        terminal-color = &basecolors\n        basecolors = (\n            black: 0,  red: 1,  green: 2,  yellow: 3,\n            blue: 4,  magenta: 5,  cyan: 6,  white: 7,\n        )\n        extended-color = &(\n            basecolors,\n            orange: 8,  pink: 9,  purple: 10,  brown: 11,\n        )" [1] .ok,
    cbor "terminal-color" "\n        terminal-color = &basecolors\n        basecolors = (\n            black: 0,  red: 1,  green: 2,  yellow: 3,\n            blue: 4,  magenta: 5,  cyan: 6,  white: 7,\n        )\n        extended-color = &(\n            basecolors,\n            orange: 8,  pink: 9,  purple: 10,  brown: 11,\n        )" [23] .mismatch,
    cbor "extended-color" "\n        terminal-color = &basecolors\n        basecolors = (\n            black: 0,  red: 1,  green: 2,  yellow: 3,\n            blue: 4,  magenta: 5,  cyan: 6,  white: 7,\n        )\n        extended-color = &(\n            basecolors,\n            orange: 8,  pink: 9,  purple: 10,  brown: 11,\n        )" [1] .ok,
    cbor "extended-color" "\n        terminal-color = &basecolors\n        basecolors = (\n            black: 0,  red: 1,  green: 2,  yellow: 3,\n            blue: 4,  magenta: 5,  cyan: 6,  white: 7,\n        )\n        extended-color = &(\n            basecolors,\n            orange: 8,  pink: 9,  purple: 10,  brown: 11,\n        )" [9] .ok,
    cbor "extended-color" "\n        terminal-color = &basecolors\n        basecolors = (\n            black: 0,  red: 1,  green: 2,  yellow: 3,\n            blue: 4,  magenta: 5,  cyan: 6,  white: 7,\n        )\n        extended-color = &(\n            basecolors,\n            orange: 8,  pink: 9,  purple: 10,  brown: 11,\n        )" [23] .mismatch
  ].all id = true := by decide +kernel

/-- `test_fatal_propagation` -/
theorem cbor_test_fatal_propagation : [
    cbor "thing" "thing = (bad_rule / bool)" [245] (.text "MissingRule(bad_rule)"),
    cbor "thing" "thing = [a: (bad_rule / tstr), b: int]" [130, 101, 65, 108, 105, 99, 101, 24, 42] (.text "MissingRule(bad_rule)"),
    cbor "thing" "thing = {name: (bad_rule / tstr), age: int}" [162, 100, 110, 97, 109, 101, 99, 66, 111, 98, 99, 97, 103, 101, 24, 43] (.text "MissingRule(bad_rule)")
  ].all id = true := by decide +kernel

/-- `cbor_control_size` -/
theorem cbor_control_size_1 : [
    cbor "thing" "thing = bstr .size 3" [64] .mismatch,
    cbor "thing" "thing = bstr .size 3" [67, 1, 2, 3] .ok,
    cbor "thing" "thing = bstr .size 3" [68, 1, 2, 3, 4] .mismatch,
    cbor "thing" "thing = bstr .size 3" [96] .mismatch,
    cbor "thing" "thing = bstr .size (1..4)" [64] .mismatch,
    cbor "thing" "thing = bstr .size (1..4)" [67, 1, 2, 3] .ok,
    cbor "thing" "thing = bstr .size (1..4)" [68, 1, 2, 3, 4] .ok,
    cbor "thing" "thing = bstr .size (1..4)" [96] .mismatch,
    cbor "thing" "thing = bstr .size (1...4)" [64] .mismatch,
    cbor "thing" "thing = bstr .size (1...4)" [67, 1, 2, 3] .ok,
    cbor "thing" "thing = bstr .size (1...4)" [68, 1, 2, 3, 4] .mismatch,
    cbor "thing" "thing = bstr .size (1...4)" [96] .mismatch,
    cbor "thing" "thing = tstr .size 3" [96] .mismatch,
    cbor "thing" "thing = tstr .size 3" [99, 230, 176, 180] .ok,
    cbor "thing" "thing = tstr .size 3" [100, 73, 69, 84, 70] .mismatch,
    cbor "thing" "thing = tstr .size 3" [64] .mismatch
  ].all id = true := by decide +kernel

/-- `cbor_control_size`, continued -/
theorem cbor_control_size_2 : [
    cbor "thing" "thing = tstr .size (1..4)" [96] .mismatch,
    cbor "thing" "thing = tstr .size (1..4)" [99, 230, 176, 180] .ok,
    cbor "thing" "thing = tstr .size (1..4)" [100, 73, 69, 84, 70] .ok,
    cbor "thing" "thing = tstr .size (1..4)" [64] .mismatch,
    cbor "thing" "thing = tstr .size (1...4)" [96] .mismatch,
    cbor "thing" "thing = tstr .size (1...4)" [99, 230, 176, 180] .ok,
    cbor "thing" "thing = tstr .size (1...4)" [100, 73, 69, 84, 70] .mismatch,
    cbor "thing" "thing = tstr .size (1...4)" [64] .mismatch,
    cbor "thing" "thing = uint .size 3" [0] .ok,
    cbor "thing" "thing = uint .size 3" [24, 24] .ok,
    cbor "thing" "thing = uint .size 3" [27, 0, 0, 0, 232, 212, 165, 16, 0] .mismatch,
    cbor "thing" "thing = uint .size 3" [57, 3, 231] .mismatch,
    cbor "thing" "thing = uint .size 3" [96] .mismatch,
    cbor "thing" "thing = uint .size (1..3)" [0] .mismatch,
    cbor "thing" "thing = uint .size (1..3)" [25, 255, 255] .ok,
    cbor "thing" "thing = uint .size (1..3)" [26, 0, 1, 0, 0] .ok
  ].all id = true := by decide +kernel

/-- `cbor_control_size`, continued -/
theorem cbor_control_size_3 : [
    cbor "thing" "thing = uint .size (1..3)" [27, 0, 0, 0, 232, 212, 165, 16, 0] .mismatch,
    cbor "thing" "thing = uint .size (1..3)" [57, 3, 231] .mismatch,
    cbor "thing" "thing = uint .size (1..3)" [96] .mismatch,
    cbor "thing" "thing = uint .size (1...3)" [0] .mismatch,
    cbor "thing" "thing = uint .size (1...3)" [25, 255, 255] .ok,
    cbor "thing" "thing = uint .size (1...3)" [26, 0, 1, 0, 0] .mismatch,
    cbor "thing" "thing = uint .size (1...3)" [27, 0, 0, 0, 232, 212, 165, 16, 0] .mismatch,
    cbor "thing" "thing = uint .size (1...3)" [57, 3, 231] .mismatch,
    cbor "thing" "thing = uint .size (1...3)" [96] .mismatch,
    cbor "thing" "thing = uint .size 5" [27, 0, 0, 0, 232, 212, 165, 16, 0] .ok,
    cbor "thing" "thing = uint .size 16" [27, 0, 0, 0, 232, 212, 165, 16, 0] .ok,
    cbor "thing" "thing = uint .size 999999" [27, 0, 0, 0, 232, 212, 165, 16, 0] .ok,
    cbor "thing" "thing = bstr .size 0.1" [64] .err,
    cbor "thing" "thing = bstr .size -1" [64] .err
  ].all id = true := by decide +kernel

/-- `cbor_control_lt` -/
theorem cbor_control_lt_1 : [
    cbor "thing" "thing = uint .lt 1" [0] .ok,
    cbor "thing" "thing = uint .lt 1" [1] .mismatch,
    cbor "thing" "thing = uint .lt 1" [27, 0, 0, 0, 232, 212, 165, 16, 0] .mismatch,
    cbor "thing" "thing = uint .lt 1" [57, 3, 231] .mismatch,
    cbor "thing" "thing = uint .lt 1" [96] .mismatch,
    cbor "thing" "thing = uint .lt 0" [0] .mismatch,
    cbor "thing" "thing = uint .lt 0" [1] .mismatch,
    cbor "thing" "thing = uint .lt 0" [27, 0, 0, 0, 232, 212, 165, 16, 0] .mismatch,
    cbor "thing" "thing = uint .lt 0" [57, 3, 231] .mismatch,
    cbor "thing" "thing = uint .lt 0" [96] .mismatch,
    cbor "thing" "thing = uint .lt -1" [0] .mismatch,
    cbor "thing" "thing = uint .lt -1" [1] .mismatch,
    cbor "thing" "thing = uint .lt -1" [27, 0, 0, 0, 232, 212, 165, 16, 0] .mismatch,
    cbor "thing" "thing = uint .lt -1" [57, 3, 231] .mismatch,
    cbor "thing" "thing = uint .lt -1" [96] .mismatch,
    cbor "thing" "thing = uint .lt 18446744073709551615" [27, 0, 0, 0, 232, 212, 165, 16, 0] .ok
  ].all id = true := by decide +kernel

/-- `cbor_control_lt`, continued -/
theorem cbor_control_lt_2 : [
    cbor "thing" "thing = nint .lt 0" [32] .ok,
    cbor "thing" "thing = nint .lt 0" [0] .mismatch,
    cbor "thing" "thing = nint .lt 1" [0] .mismatch,
    cbor "thing" "thing = nint .lt 1" [1] .mismatch,
    cbor "thing" "thing = nint .lt 1" [27, 0, 0, 0, 232, 212, 165, 16, 0] .mismatch,
    cbor "thing" "thing = nint .lt 1" [57, 3, 231] .ok,
    cbor "thing" "thing = nint .lt 1" [96] .mismatch,
    cbor "thing" "thing = nint .lt -999" [0] .mismatch,
    cbor "thing" "thing = nint .lt -999" [1] .mismatch,
    cbor "thing" "thing = nint .lt -999" [27, 0, 0, 0, 232, 212, 165, 16, 0] .mismatch,
    cbor "thing" "thing = nint .lt -999" [57, 3, 231] .ok,
    cbor "thing" "thing = nint .lt -999" [96] .mismatch,
    cbor "thing" "thing = nint .lt -1000" [0] .mismatch,
    cbor "thing" "thing = nint .lt -1000" [1] .mismatch,
    cbor "thing" "thing = nint .lt -1000" [27, 0, 0, 0, 232, 212, 165, 16, 0] .mismatch,
    cbor "thing" "thing = nint .lt -1000" [57, 3, 231] .mismatch
  ].all id = true := by decide +kernel

/-- `cbor_control_lt`, continued -/
theorem cbor_control_lt_3 : [
    cbor "thing" "thing = nint .lt -1000" [96] .mismatch,
    cbor "thing" "thing = int .lt 1" [0] .ok,
    cbor "thing" "thing = int .lt 1" [1] .mismatch,
    cbor "thing" "thing = int .lt 1" [27, 0, 0, 0, 232, 212, 165, 16, 0] .mismatch,
    cbor "thing" "thing = int .lt 1" [57, 3, 231] .ok,
    cbor "thing" "thing = int .lt 1" [96] .mismatch,
    cbor "thing" "thing = int .lt -999" [0] .mismatch,
    cbor "thing" "thing = int .lt -999" [1] .mismatch,
    cbor "thing" "thing = int .lt -999" [27, 0, 0, 0, 232, 212, 165, 16, 0] .mismatch,
    cbor "thing" "thing = int .lt -999" [57, 3, 231] .ok,
    cbor "thing" "thing = int .lt -999" [96] .mismatch,
    cbor "thing" "thing = int .lt -1000" [0] .mismatch,
    cbor "thing" "thing = int .lt -1000" [1] .mismatch,
    cbor "thing" "thing = int .lt -1000" [27, 0, 0, 0, 232, 212, 165, 16, 0] .mismatch,
    cbor "thing" "thing = int .lt -1000" [57, 3, 231] .mismatch,
    cbor "thing" "thing = int .lt -1000" [96] .mismatch
  ].all id = true := by decide +kernel

/-- `cbor_control_le` -/
theorem cbor_control_le_1 : [
    cbor "thing" "thing = uint .le 1" [0] .ok,
    cbor "thing" "thing = uint .le 1" [1] .ok,
    cbor "thing" "thing = uint .le 1" [27, 0, 0, 0, 232, 212, 165, 16, 0] .mismatch,
    cbor "thing" "thing = uint .le 1" [57, 3, 231] .mismatch,
    cbor "thing" "thing = uint .le 1" [96] .mismatch,
    cbor "thing" "thing = uint .le 0" [0] .ok,
    cbor "thing" "thing = uint .le 0" [1] .mismatch,
    cbor "thing" "thing = uint .le 0" [27, 0, 0, 0, 232, 212, 165, 16, 0] .mismatch,
    cbor "thing" "thing = uint .le 0" [57, 3, 231] .mismatch,
    cbor "thing" "thing = uint .le 0" [96] .mismatch,
    cbor "thing" "thing = uint .le -1" [0] .mismatch,
    cbor "thing" "thing = uint .le -1" [1] .mismatch,
    cbor "thing" "thing = uint .le -1" [27, 0, 0, 0, 232, 212, 165, 16, 0] .mismatch,
    cbor "thing" "thing = uint .le -1" [57, 3, 231] .mismatch,
    cbor "thing" "thing = uint .le -1" [96] .mismatch,
    cbor "thing" "thing = uint .le 18446744073709551615" [27, 0, 0, 0, 232, 212, 165, 16, 0] .ok
  ].all id = true := by decide +kernel

/-- `cbor_control_le`, continued -/
theorem cbor_control_le_2 : [
    cbor "thing" "thing = nint .le 0" [32] .ok,
    cbor "thing" "thing = nint .le 0" [0] .mismatch,
    cbor "thing" "thing = nint .le 0" [1] .mismatch,
    cbor "thing" "thing = nint .le 1" [0] .mismatch,
    cbor "thing" "thing = nint .le 1" [1] .mismatch,
    cbor "thing" "thing = nint .le 1" [27, 0, 0, 0, 232, 212, 165, 16, 0] .mismatch,
    cbor "thing" "thing = nint .le 1" [57, 3, 231] .ok,
    cbor "thing" "thing = nint .le 1" [96] .mismatch,
    cbor "thing" "thing = nint .le -999" [0] .mismatch,
    cbor "thing" "thing = nint .le -999" [1] .mismatch,
    cbor "thing" "thing = nint .le -999" [27, 0, 0, 0, 232, 212, 165, 16, 0] .mismatch,
    cbor "thing" "thing = nint .le -999" [57, 3, 231] .ok,
    cbor "thing" "thing = nint .le -999" [96] .mismatch,
    cbor "thing" "thing = nint .le -1000" [0] .mismatch,
    cbor "thing" "thing = nint .le -1000" [1] .mismatch,
    cbor "thing" "thing = nint .le -1000" [27, 0, 0, 0, 232, 212, 165, 16, 0] .mismatch
  ].all id = true := by decide +kernel

/-- `cbor_control_le`, continued -/
theorem cbor_control_le_3 : [
    cbor "thing" "thing = nint .le -1000" [57, 3, 231] .ok,
    cbor "thing" "thing = nint .le -1000" [96] .mismatch,
    cbor "thing" "thing = int .le 1" [0] .ok,
    cbor "thing" "thing = int .le 1" [1] .ok,
    cbor "thing" "thing = int .le 1" [27, 0, 0, 0, 232, 212, 165, 16, 0] .mismatch,
    cbor "thing" "thing = int .le 1" [57, 3, 231] .ok,
    cbor "thing" "thing = int .le 1" [96] .mismatch,
    cbor "thing" "thing = int .le -999" [0] .mismatch,
    cbor "thing" "thing = int .le -999" [1] .mismatch,
    cbor "thing" "thing = int .le -999" [27, 0, 0, 0, 232, 212, 165, 16, 0] .mismatch,
    cbor "thing" "thing = int .le -999" [57, 3, 231] .ok,
    cbor "thing" "thing = int .le -999" [96] .mismatch,
    cbor "thing" "thing = int .le -1000" [0] .mismatch,
    cbor "thing" "thing = int .le -1000" [1] .mismatch,
    cbor "thing" "thing = int .le -1000" [27, 0, 0, 0, 232, 212, 165, 16, 0] .mismatch,
    cbor "thing" "thing = int .le -1000" [57, 3, 231] .ok
  ].all id = true := by decide +kernel

/-- `cbor_control_le`, continued -/
theorem cbor_control_le_4 : [
    cbor "thing" "thing = int .le -1000" [96] .mismatch
  ].all id = true := by decide +kernel

/-- `cbor_control_gt` -/
theorem cbor_control_gt_1 : [
    cbor "thing" "thing = uint .gt 1" [0] .mismatch,
    cbor "thing" "thing = uint .gt 1" [1] .mismatch,
    cbor "thing" "thing = uint .gt 1" [27, 0, 0, 0, 232, 212, 165, 16, 0] .ok,
    cbor "thing" "thing = uint .gt 1" [57, 3, 231] .mismatch,
    cbor "thing" "thing = uint .gt 1" [96] .mismatch,
    cbor "thing" "thing = uint .gt 0" [0] .mismatch,
    cbor "thing" "thing = uint .gt 0" [1] .ok,
    cbor "thing" "thing = uint .gt 0" [27, 0, 0, 0, 232, 212, 165, 16, 0] .ok,
    cbor "thing" "thing = uint .gt 0" [57, 3, 231] .mismatch,
    cbor "thing" "thing = uint .gt 0" [96] .mismatch,
    cbor "thing" "thing = uint .gt -1" [0] .ok,
    cbor "thing" "thing = uint .gt -1" [1] .ok,
    cbor "thing" "thing = uint .gt -1" [27, 0, 0, 0, 232, 212, 165, 16, 0] .ok,
    cbor "thing" "thing = uint .gt -1" [57, 3, 231] .mismatch,
    cbor "thing" "thing = uint .gt -1" [96] .mismatch,
    cbor "thing" "thing = uint .gt 18446744073709551615" [27, 0, 0, 0, 232, 212, 165, 16, 0] .mismatch
  ].all id = true := by decide +kernel

/-- `cbor_control_gt`, continued -/
theorem cbor_control_gt_2 : [
    cbor "thing" "thing = nint .gt 0" [32] .mismatch,
    cbor "thing" "thing = nint .gt 0" [0] .mismatch,
    cbor "thing" "thing = nint .gt 1" [0] .mismatch,
    cbor "thing" "thing = nint .gt 1" [1] .mismatch,
    cbor "thing" "thing = nint .gt 1" [27, 0, 0, 0, 232, 212, 165, 16, 0] .mismatch,
    cbor "thing" "thing = nint .gt 1" [57, 3, 231] .mismatch,
    cbor "thing" "thing = nint .gt 1" [96] .mismatch,
    cbor "thing" "thing = nint .gt -2" [0] .mismatch,
    cbor "thing" "thing = nint .gt -2" [1] .mismatch,
    cbor "thing" "thing = nint .gt -2" [27, 0, 0, 0, 232, 212, 165, 16, 0] .mismatch,
    cbor "thing" "thing = nint .gt -2" [32] .ok,
    cbor "thing" "thing = nint .gt -2" [33] .mismatch,
    cbor "thing" "thing = nint .gt -2" [57, 3, 231] .mismatch,
    cbor "thing" "thing = nint .gt -2" [96] .mismatch,
    cbor "thing" "thing = nint .gt -999" [0] .mismatch,
    cbor "thing" "thing = nint .gt -999" [1] .mismatch
  ].all id = true := by decide +kernel

/-- `cbor_control_gt`, continued -/
theorem cbor_control_gt_3 : [
    cbor "thing" "thing = nint .gt -999" [27, 0, 0, 0, 232, 212, 165, 16, 0] .mismatch,
    cbor "thing" "thing = nint .gt -999" [32] .ok,
    cbor "thing" "thing = nint .gt -999" [57, 3, 230] .mismatch,
    cbor "thing" "thing = nint .gt -999" [57, 3, 231] .mismatch,
    cbor "thing" "thing = nint .gt -999" [96] .mismatch,
    cbor "thing" "thing = nint .gt -1000" [0] .mismatch,
    cbor "thing" "thing = nint .gt -1000" [1] .mismatch,
    cbor "thing" "thing = nint .gt -1000" [27, 0, 0, 0, 232, 212, 165, 16, 0] .mismatch,
    cbor "thing" "thing = nint .gt -1000" [32] .ok,
    cbor "thing" "thing = nint .gt -1000" [57, 3, 230] .ok,
    cbor "thing" "thing = nint .gt -1000" [57, 3, 231] .mismatch,
    cbor "thing" "thing = nint .gt -1000" [96] .mismatch,
    cbor "thing" "thing = int .gt 1" [0] .mismatch,
    cbor "thing" "thing = int .gt 1" [1] .mismatch,
    cbor "thing" "thing = int .gt 1" [27, 0, 0, 0, 232, 212, 165, 16, 0] .ok,
    cbor "thing" "thing = int .gt 1" [57, 3, 231] .mismatch
  ].all id = true := by decide +kernel

/-- `cbor_control_gt`, continued -/
theorem cbor_control_gt_4 : [
    cbor "thing" "thing = int .gt 1" [96] .mismatch,
    cbor "thing" "thing = int .gt -999" [0] .ok,
    cbor "thing" "thing = int .gt -999" [1] .ok,
    cbor "thing" "thing = int .gt -999" [27, 0, 0, 0, 232, 212, 165, 16, 0] .ok,
    cbor "thing" "thing = int .gt -999" [57, 3, 230] .mismatch,
    cbor "thing" "thing = int .gt -999" [57, 3, 231] .mismatch,
    cbor "thing" "thing = int .gt -999" [96] .mismatch,
    cbor "thing" "thing = int .gt -1000" [0] .ok,
    cbor "thing" "thing = int .gt -1000" [1] .ok,
    cbor "thing" "thing = int .gt -1000" [27, 0, 0, 0, 232, 212, 165, 16, 0] .ok,
    cbor "thing" "thing = int .gt -1000" [57, 3, 230] .ok,
    cbor "thing" "thing = int .gt -1000" [57, 3, 231] .mismatch,
    cbor "thing" "thing = int .gt -1000" [96] .mismatch
  ].all id = true := by decide +kernel

/-- `cbor_control_ge` -/
theorem cbor_control_ge_1 : [
    cbor "thing" "thing = uint .ge 1" [0] .mismatch,
    cbor "thing" "thing = uint .ge 1" [1] .ok,
    cbor "thing" "thing = uint .ge 1" [27, 0, 0, 0, 232, 212, 165, 16, 0] .ok,
    cbor "thing" "thing = uint .ge 1" [57, 3, 231] .mismatch,
    cbor "thing" "thing = uint .ge 1" [96] .mismatch,
    cbor "thing" "thing = uint .ge 0" [0] .ok,
    cbor "thing" "thing = uint .ge 0" [1] .ok,
    cbor "thing" "thing = uint .ge 0" [27, 0, 0, 0, 232, 212, 165, 16, 0] .ok,
    cbor "thing" "thing = uint .ge 0" [57, 3, 231] .mismatch,
    cbor "thing" "thing = uint .ge 0" [96] .mismatch,
    cbor "thing" "thing = uint .ge -1" [0] .ok,
    cbor "thing" "thing = uint .ge -1" [1] .ok,
    cbor "thing" "thing = uint .ge -1" [27, 0, 0, 0, 232, 212, 165, 16, 0] .ok,
    cbor "thing" "thing = uint .ge -1" [32] .mismatch,
    cbor "thing" "thing = uint .ge -1" [57, 3, 231] .mismatch,
    cbor "thing" "thing = uint .ge -1" [96] .mismatch
  ].all id = true := by decide +kernel

/-- `cbor_control_ge`, continued -/
theorem cbor_control_ge_2 : [
    cbor "thing" "thing = uint .ge 18446744073709551615" [27, 0, 0, 0, 232, 212, 165, 16, 0] .mismatch,
    cbor "thing" "thing = nint .ge 0" [32] .mismatch,
    cbor "thing" "thing = nint .ge 0" [0] .mismatch,
    cbor "thing" "thing = nint .ge 1" [0] .mismatch,
    cbor "thing" "thing = nint .ge 1" [1] .mismatch,
    cbor "thing" "thing = nint .ge 1" [27, 0, 0, 0, 232, 212, 165, 16, 0] .mismatch,
    cbor "thing" "thing = nint .ge 1" [57, 3, 231] .mismatch,
    cbor "thing" "thing = nint .ge 1" [96] .mismatch,
    cbor "thing" "thing = nint .ge -2" [0] .mismatch,
    cbor "thing" "thing = nint .ge -2" [1] .mismatch,
    cbor "thing" "thing = nint .ge -2" [27, 0, 0, 0, 232, 212, 165, 16, 0] .mismatch,
    cbor "thing" "thing = nint .ge -2" [32] .ok,
    cbor "thing" "thing = nint .ge -2" [33] .ok,
    cbor "thing" "thing = nint .ge -2" [57, 3, 231] .mismatch,
    cbor "thing" "thing = nint .ge -2" [96] .mismatch,
    cbor "thing" "thing = nint .ge -999" [0] .mismatch
  ].all id = true := by decide +kernel

/-- `cbor_control_ge`, continued -/
theorem cbor_control_ge_3 : [
    cbor "thing" "thing = nint .ge -999" [1] .mismatch,
    cbor "thing" "thing = nint .ge -999" [27, 0, 0, 0, 232, 212, 165, 16, 0] .mismatch,
    cbor "thing" "thing = nint .ge -999" [32] .ok,
    cbor "thing" "thing = nint .ge -999" [57, 3, 230] .ok,
    cbor "thing" "thing = nint .ge -999" [57, 3, 231] .mismatch,
    cbor "thing" "thing = nint .ge -999" [96] .mismatch,
    cbor "thing" "thing = nint .ge -1000" [0] .mismatch,
    cbor "thing" "thing = nint .ge -1000" [1] .mismatch,
    cbor "thing" "thing = nint .ge -1000" [27, 0, 0, 0, 232, 212, 165, 16, 0] .mismatch,
    cbor "thing" "thing = nint .ge -1000" [32] .ok,
    cbor "thing" "thing = nint .ge -1000" [57, 3, 230] .ok,
    cbor "thing" "thing = nint .ge -1000" [57, 3, 231] .ok,
    cbor "thing" "thing = nint .ge -1000" [96] .mismatch,
    cbor "thing" "thing = int .ge 1" [0] .mismatch,
    cbor "thing" "thing = int .ge 1" [1] .ok,
    cbor "thing" "thing = int .ge 1" [27, 0, 0, 0, 232, 212, 165, 16, 0] .ok
  ].all id = true := by decide +kernel

/-- `cbor_control_ge`, continued -/
theorem cbor_control_ge_4 : [
    cbor "thing" "thing = int .ge 1" [57, 3, 231] .mismatch,
    cbor "thing" "thing = int .ge 1" [96] .mismatch,
    cbor "thing" "thing = int .ge -999" [0] .ok,
    cbor "thing" "thing = int .ge -999" [1] .ok,
    cbor "thing" "thing = int .ge -999" [27, 0, 0, 0, 232, 212, 165, 16, 0] .ok,
    cbor "thing" "thing = int .ge -999" [57, 3, 230] .ok,
    cbor "thing" "thing = int .ge -999" [57, 3, 231] .mismatch,
    cbor "thing" "thing = int .ge -999" [96] .mismatch,
    cbor "thing" "thing = int .ge -1000" [0] .ok,
    cbor "thing" "thing = int .ge -1000" [1] .ok,
    cbor "thing" "thing = int .ge -1000" [27, 0, 0, 0, 232, 212, 165, 16, 0] .ok,
    cbor "thing" "thing = int .ge -1000" [57, 3, 230] .ok,
    cbor "thing" "thing = int .ge -1000" [57, 3, 231] .ok,
    cbor "thing" "thing = int .ge -1000" [96] .mismatch
  ].all id = true := by decide +kernel

/-- `cbor_control_cbor` -/
theorem cbor_control_cbor : [
    cbor "thing" "thing = bytes .cbor uint" [65, 23] .ok,
    cbor "thing" "\n        thing = bytes .cbor foo\n        foo = uint\n    " [65, 23] .ok,
    cbor "thing" "\n        thing = bytes .cbor foo<uint>\n        foo<t> = t\n    " [65, 23] .ok
  ].all id = true := by decide +kernel

/-- `cbor_control_regexp` -/
theorem cbor_control_regexp_1 : [
    cbor "nolz" " nolz = tstr .regexp \"^(0|[1-9][0-9]*)$\" " [97, 48] .ok,
    cbor "nolz" " nolz = tstr .regexp \"^(0|[1-9][0-9]*)$\" " [97, 49] .ok,
    cbor "nolz" " nolz = tstr .regexp \"^(0|[1-9][0-9]*)$\" " [98, 50, 48] .ok,
    cbor "nolz" " nolz = tstr .regexp \"^(0|[1-9][0-9]*)$\" " [98, 50, 51] .ok,
    cbor "nolz" " nolz = tstr .regexp \"^(0|[1-9][0-9]*)$\" " [99, 49, 50, 51] .ok,
    cbor "nolz" " nolz = tstr .regexp \"^(0|[1-9][0-9]*)$\" " [98, 48, 49] .mismatch,
    cbor "nolz" " nolz = tstr .regexp \"^(0|[1-9][0-9]*)$\" " [98, 48, 97] .mismatch,
    cbor "nolz" " nolz = tstr .regexp \"^(0|[1-9][0-9]*)$\" " [96] .mismatch,
    cbor "pat" " pat = tstr .regexp \"^A\" " [97, 65] .ok,
    cbor "pat" " pat = tstr .regexp \"^A\" " [99, 65, 66, 67] .ok,
    cbor "pat" " pat = tstr .regexp \"^A\" " [99, 65, 65, 65] .ok,
    cbor "pat" " pat = tstr .regexp \"^A\" " [98, 90, 65] .mismatch,
    cbor "pat" " pat = tstr .regexp \"^A\" " [96] .mismatch,
    cbor "pat" " pat = tstr .regexp \"BB\" " [98, 66, 66] .ok,
    cbor "pat" " pat = tstr .regexp \"BB\" " [102, 65, 66, 67, 66, 66, 65] .ok,
    cbor "pat" " pat = tstr .regexp \"BB\" " [101, 65, 66, 67, 66, 65] .mismatch
  ].all id = true := by decide +kernel

/-- `cbor_control_regexp`, continued -/
theorem cbor_control_regexp_2 : [
    cbor "pat" " pat = bstr .regexp \"CCC\" " [99, 67, 67, 67] .structural,
    cbor "pat" " pat = tstr .regexp 1234 " [100, 49, 50, 51, 52] .structural,
    cbor "nai" " nai = tstr .regexp \"[A-Za-z0-9]+@[A-Za-z0-9]+(\\\\.[A-Za-z0-9]+)+\" " [120, 27, 78, 49, 64, 67, 72, 53, 55, 72, 70, 46, 52, 90, 110, 113, 101, 48, 46, 100, 89, 74, 82, 78, 46, 105, 103, 106, 102] .ok
  ].all id = true := by decide +kernel

end Cddl.Tests
