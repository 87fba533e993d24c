import Verif.Tests.Common

/-!
# The unit tests of /repo/src/flatten.rs:809-907, /repo/tests/cbor_ivt.rs and /repo/tests/errors.rs
-/

namespace Cddl.Tests

mutual
/-- Equality of trees, for the tests only. -/
def same : Node → Node → Bool
  | .literal a, .literal b => decide (a = b)
  | .prelude a, .prelude b => decide (a = b)
  | .rule n as, .rule m bs => decide (n = m) && sames as bs
  | .map as, .map bs => sames as bs
  | .array as, .array bs => sames as bs
  | .keyValue k v c, .keyValue k' v' c' => same k k' && same v v' && decide (c = c')
  | .ctl o t a, .ctl o' t' a' => decide (o = o') && same t t' && same a a'
  | _, _ => false
def sames : List Node → List Node → Bool
  | [], [] => true
  | a :: as, b :: bs => same a b && sames as bs
  | _, _ => false
end

/-- `flatten_from_str` gives these rules. -/
def flat (s : String) (rs : List (String × List String × Node)) : Bool :=
  match flattenFromStr testLibs s with
  | .ok t => decide (t.length = rs.length) && (t.zip rs).all fun p =>
      decide (p.1.1 = p.2.1) && decide (p.1.2.params = p.2.2.1) && same p.1.2.node p.2.2.2
  | _ => false

theorem test_flatten_literal_int : flat "thing = 1" [("thing", [], .literal (.int 1))] = true ∧
    flat "thing = -1" [("thing", [], .literal (.int (-1)))] = true := by decide +kernel

theorem test_flatten_literal_tstr : flat "thing = \"abc\"" [("thing", [], .literal (.text "abc"))] = true := by decide +kernel

theorem test_flatten_prelude_reference : flat "thing = int" [("thing", [], .prelude .int)] = true := by decide +kernel

theorem test_flatten_type_reference : flat "thing = foo" [("thing", [], .rule "foo" [])] = true := by decide +kernel

theorem test_flatten_map :
    flat "thing = { foo: tstr }"
      [("thing", [], .map [.keyValue (.literal (.text "foo")) (.prelude .tstr) true])] = true ∧
    flat "thing = { tstr => tstr }" [("thing", [], .map [.keyValue (.prelude .tstr) (.prelude .tstr) false])] = true ∧
    flat "foo = \"bar\" thing = { foo => tstr }"
      [("foo", [], .literal (.text "bar")),
        ("thing", [], .map [.keyValue (.rule "foo" []) (.prelude .tstr) false])] = true := by decide +kernel

theorem test_flatten_generic : flat "message<t, v> = [t, v]"
    [("message", ["t", "v"], .array [.rule "t" [], .rule "v" []])] = true := by decide +kernel

theorem test_control_op : flat "four_bytes = tstr .size 4"
    [("four_bytes", [], .ctl .size (.prelude .tstr) (.literal (.int 4)))] = true := by decide +kernel

/-! /repo/tests/cbor_ivt.rs -/

/-- `TestValidate::test_validate`, with `DummyContext` (/repo/src/context.rs:53-59). -/
def ivt (n : Node) (c : Cbor) (e : Expect) : Bool :=
  e.holds (validateCborF { testLibs.env [] with lookup := fun s => .error (.missingRule s) } 100 ⟨[], n⟩ c)

theorem validate_prelude_int : ivt (.prelude .int) (.integer 7) .ok = true ∧
    ivt (.prelude .int) (.text "abc") .err = true := by decide

theorem validate_prelude_text : ivt (.prelude .tstr) (.text "abc") .ok = true ∧
    ivt (.prelude .tstr) (.integer 7) .err = true := by decide

theorem validate_literal_int : ivt (.literal (.int 7)) (.integer 7) .ok = true ∧
    ivt (.literal (.int 7)) (.integer 8) .err = true := by decide

theorem validate_literal_text : ivt (.literal (.text "abc")) (.text "abc") .ok = true ∧
    ivt (.literal (.text "abc")) (.integer 8) .err = true := by decide +kernel

def options : Node := .choice [.literal (.int 1), .literal (.int 2), .literal (.int 3)]

theorem validate_choice : ivt options (.integer 1) .ok = true ∧ ivt options (.integer 2) .ok = true ∧
    ivt options (.integer 3) .ok = true ∧ ivt options (.integer 4) .err = true ∧
    ivt options (.text "abc") .err = true := by decide +kernel

def people : Node := .map (["Alice", "Bob", "Carol"].map fun s => .keyValue (.literal (.text s)) (.prelude .int) true)

theorem validate_map :
    ivt people (.map [(.text "Alice", .integer 42), (.text "Bob", .integer 43), (.text "Carol", .integer 44)]) .ok = true ∧
    ivt people (.map [(.text "Alice", .integer 42), (.text "Carol", .integer 44)]) .err = true ∧
    ivt people (.map [(.text "Alice", .integer 42), (.text "Carol", .integer 44), (.text "Bob", .text "forty three")])
      .err = true ∧
    ivt people (.map [(.text "Alice", .integer 42), (.text "Bob", .integer 43), (.text "Carol", .integer 44),
      (.text "David", .integer 45)]) .err = true ∧
    ivt people (.integer 1) .err = true := by decide +kernel

def sevenEnv : Env := testLibs.env [("seven", ⟨[], .literal (.int 7)⟩)]

theorem validate_rule_ref :
    Expect.ok.holds (validateCborF sevenEnv 100 ⟨[], .rule "seven" []⟩ (.integer 7)) = true ∧
    Expect.err.holds (validateCborF sevenEnv 100 ⟨[], .rule "seven" []⟩ (.integer 8)) = true := by decide +kernel

/-! /repo/tests/errors.rs -/

theorem error_display :
    (Expect.text "Unparseable(!)").holds (validateJsonStrF testLibs 100 "x" "!" "0") = true ∧
    (Expect.text "ValueError(expected value at line 1 column 1)").holds
      (validateJsonStrF testLibs 100 "x" "x = nil" "🦀") = true ∧
    (Expect.text "Mismatch(expected nil)").holds (validateJsonStrF
      { testLibs with jsonDecode := fun _ => .ok (.number (.posInt 0)) } 100 "x" "x = nil" "0") = true := by
  decide +kernel

end Cddl.Tests
