{"id": "C01", "title": "Validation always returns", "statement": "Every call of the validator on already-parsed data returns after finitely many recursive steps, for every schema including self-referential rules, mutually recursive rules and generic rules whose arguments refer back to the calling rule; the recursion limit never lets a call recurse forever.", "quantifier": "all rule sets (any LookupContext), all rule bodies, all data values", "why_tests_cant": "a cyclic or generic-recursive schema can be arbitrarily large, and resolving a generic parameter lowers the depth counter again, so no finite set of schemas shows that the limit is effective", "anchors": ["src/validate.rs:Context::lookup_rule", "src/validate.rs:Context::inc_depth", "src/validate.rs:validate", "src/validate.rs:chase_rules"]}
{"id": "C02", "title": "Validation never panics", "statement": "No call of the validator panics: none of the unwrap() calls on the working copies of arrays and maps (rewind, commit, remove, pop) can fire and no arithmetic overflows.", "quantifier": "all rule sets, all data values", "why_tests_cant": "the unwraps guard internal invariants over every interleaving of speculative matching and rollback", "anchors": ["src/validate.rs:WorkingMap", "src/validate.rs:WorkingArray", "src/validate.rs:validate_size_uint"]}
{"id": "C03", "title": "Internal cut errors never escape", "statement": "validate_cbor/validate_json never return the MapCut error variant (for the standard BasicContext): to a caller a data mismatch is always Mismatch.", "quantifier": "all rule sets in a BasicContext, all data", "why_tests_cant": "cut errors are produced deep inside maps nested in arrays, choices and groups; all nestings must be covered", "anchors": ["src/validate.rs:validate_map_part2", "src/util.rs:ValidateError::erase_mapcut"]}
{"id": "C04", "title": "Prelude types accept exactly their data", "statement": "any accepts every value; nil, bool, int, uint, nint, float, tstr and bstr accept exactly null, booleans, integers, integers >= 0, integers < 0, floats, text and byte strings; in particular every integer is accepted by exactly one of uint and nint.", "quantifier": "all data values", "why_tests_cant": "unbounded value domain", "anchors": ["src/validate.rs:validate_prelude_type"]}
{"id": "C05", "title": "Literals accept exactly the equal value", "statement": "A literal accepts a value if and only if the value is of the same kind and equal (floats compared bit for bit, so 0.0 does not accept -0.0).", "quantifier": "all literals and all data values", "why_tests_cant": "unbounded domain", "anchors": ["src/validate.rs:validate_literal", "src/value.rs:Value"]}
{"id": "C06", "title": "Ordered type choice", "statement": "A choice a1/a2/.../an accepts a value iff some option accepts it and no earlier option failed with a fatal (non-mismatch) error; if all options mismatch the result is a Mismatch; the first fatal error before a match is returned unchanged.", "quantifier": "all option lists, all values, all rule sets", "why_tests_cant": "any number of options of any shape", "anchors": ["src/validate.rs:validate_choice"]}
{"id": "C07", "title": "Choice nesting is irrelevant", "statement": "(a/b)/c, a/(b/c) and a/b/c accept exactly the same values and raise the same fatal errors; duplicating options changes nothing; where no option is a schema error the order of the options does not matter either.", "quantifier": "all option lists, values and rule sets", "why_tests_cant": "unbounded nesting", "anchors": ["src/validate.rs:validate_choice", "src/flatten.rs:flatten_type"]}
{"id": "C08", "title": "Integer and float ranges", "statement": "a..b accepts exactly the integers x with a<=x<=b and a...b exactly those with a<=x<b; the same for floats under IEEE comparison; NaN is never inside a range; a lower bound above the upper bound accepts nothing; endpoints of different kinds are reported as a schema error for every value.", "quantifier": "all endpoints, all values", "why_tests_cant": "unbounded numeric domain", "anchors": ["src/validate.rs:validate_range", "src/validate.rs:check_range", "src/validate.rs:deref_range_rule"]}
{"id": "C09", "title": "Integer control operators", "statement": "uint/nint/int with .lt/.le/.gt/.ge n accepts exactly the integers of the target type that satisfy the comparison.", "quantifier": "all limits, all values", "why_tests_cant": "unbounded numeric domain", "anchors": ["src/validate.rs:validate_control_lt", "src/validate.rs:validate_lt_uint", "src/validate.rs:validate_ge_int"]}
{"id": "C10", "title": ".size on unsigned integers", "statement": "uint .size N accepts exactly the integers 0 <= x < 256^N, for every N; uint .size (a..b) with a<b accepts exactly the non-negative integers whose minimal big-endian encoding has between a and b bytes.", "quantifier": "all N in u64, all i128 values", "why_tests_cant": "2^127 values times 2^64 sizes", "anchors": ["src/validate.rs:validate_size_uint", "src/normalize.rs:normalize_size_range"]}
{"id": "C11", "title": ".size on text and byte strings", "statement": "tstr .size N accepts exactly the texts of N UTF-8 bytes, bstr .size N the byte strings of N bytes; .size (a..b) and (a...b) accept exactly the lengths in the closed / half-open range.", "quantifier": "all sizes, all strings", "why_tests_cant": "unbounded string domain", "anchors": ["src/validate.rs:validate_size_tstr", "src/validate.rs:validate_size_bstr"]}
{"id": "C12", "title": "Fixed-length arrays (records)", "statement": "An array schema whose entries are single-item types accepts exactly the arrays of the same length whose i-th element is accepted by the i-th type; nothing may be left over and nothing may be missing.", "quantifier": "all entry lists, all arrays", "why_tests_cant": "any length", "anchors": ["src/validate.rs:validate_array_part2", "src/validate.rs:validate_array_value"]}
{"id": "C13", "title": "Array keys are ignored", "statement": "Changing, adding or removing a member key on an array entry never changes the result of validation.", "quantifier": "all array schemas, all data", "why_tests_cant": "all keys and positions", "anchors": ["src/validate.rs:validate_array_member"]}
{"id": "C14", "title": "Homogeneous arrays and occurrence bounds", "statement": "[n*m t] for a single-item type t accepts exactly the arrays with n <= length <= m all of whose elements are accepted by t; ? is 0*1, * is unbounded, + is at least one.", "quantifier": "all bounds n,m, all element types, all arrays", "why_tests_cant": "unbounded lengths and bounds (including upper bound 0, where the code is wrong)", "anchors": ["src/validate.rs:validate_array_occur", "src/ivt.rs:Occur::limits"]}
{"id": "C15", "title": "Array acceptance is sound", "statement": "If the validator accepts an array (or any data) under a schema then the data really has the structure the CDDL schema describes (each group entry matched by its own consecutive slice of elements, every choice by one option, occurrence counts within bounds, nothing left over).", "quantifier": "all schemas, all data", "why_tests_cant": "speculative matching with rollback over unbounded schemas and data; the code violates it for nested groups and unwraps", "anchors": ["src/validate.rs:validate_array_member", "src/validate.rs:WorkingArray::commit", "src/validate.rs:WorkingArray::rewind"]}
{"id": "C16", "title": "Map acceptance is sound", "statement": "If the validator accepts a map then its key/value pairs can be split among the schema's members so that every member's key type and value type accept their pairs, occurrence bounds hold and no pair is left over.", "quantifier": "all schemas, all maps", "why_tests_cant": "speculative matching with rollback over unbounded schemas and data; the code violates it for nested groups and unwraps", "anchors": ["src/validate.rs:validate_map_member", "src/validate.rs:WorkingMap::commit", "src/validate.rs:validate_map_unwrap"]}
{"id": "C17", "title": "A failed alternative leaves no trace", "statement": "When one alternative of an array or map choice (or an optional entry) fails to match, the data seen by the next alternative is exactly what the failed one started with.", "quantifier": "all schemas, all data", "why_tests_cant": "requires every interleaving of nested speculation; false for nested committed groups and for unwraps", "anchors": ["src/validate.rs:WorkingArray::rewind", "src/validate.rs:WorkingMap::rewind"]}
{"id": "C18", "title": "Closed records in maps", "statement": "A map schema with pairwise distinct literal keys, some optional, accepts exactly the maps that have all required keys, no unknown keys, and accepted values.", "quantifier": "all member lists, all maps", "why_tests_cant": "any number of members and any data", "anchors": ["src/validate.rs:validate_map_part2", "src/validate.rs:map_search_literal"]}
{"id": "C19", "title": "Member order of literal-key maps is irrelevant", "statement": "Permuting the members of such a map schema never changes which data is accepted.", "quantifier": "all permutations of all member lists, all maps", "why_tests_cant": "factorially many orders", "anchors": ["src/validate.rs:validate_map_part2"]}
{"id": "C20", "title": "Wildcard maps", "statement": "{ * k => v } accepts exactly the maps all of whose keys are accepted by k and values by v.", "quantifier": "all key/value types, all maps", "why_tests_cant": "any number of pairs", "anchors": ["src/validate.rs:validate_map_occur", "src/validate.rs:map_search"]}
{"id": "C21", "title": "Cut semantics", "statement": "If a cut member's literal key (`k: t` or `k ^ => t`) is present and its value is not accepted, the whole map is rejected no matter what other members follow; without the cut the pair stays available for later members.", "quantifier": "all member lists, all maps", "why_tests_cant": "all continuations of the member list", "anchors": ["src/validate.rs:validate_map_keyvalue", "src/util.rs:ValidateError::is_mismatch"]}
{"id": "C22", "title": "Fatal schema errors are not masked", "statement": "A missing rule, wrong generic arity, unsupported feature or recursion-limit error met while matching is reported to the caller and is never turned into acceptance or Mismatch by a choice, an occurrence or a group.", "quantifier": "all schemas and data", "why_tests_cant": "all nestings (false for map keys, where every error is swallowed)", "anchors": ["src/validate.rs:validate_choice", "src/validate.rs:validate_array_occur", "src/validate.rs:map_search"]}
{"id": "C23", "title": "Generic arity", "statement": "Using a rule with a number of arguments different from its number of parameters is always GenericError, and validating directly against a generic rule is always GenericError, whatever the data.", "quantifier": "all rules, all argument lists, all data", "why_tests_cant": "all arities", "anchors": ["src/validate.rs:Context::derive", "src/validate.rs:do_validate"]}
{"id": "C24", "title": "Generic parameters are lexically scoped", "statement": "A name inside a generic rule's body means the argument of that instantiation, evaluated where the instantiation was written; rules called from the body never see the caller's parameters.", "quantifier": "all generic schemas, data", "why_tests_cant": "all nestings of instantiation", "anchors": ["src/validate.rs:Context::lookup_rule", "src/validate.rs:Context::derive"]}
{"id": "C25", "title": "Recursion limit is exact", "statement": "A chain of n rule references resolves exactly when n <= 50; a longer chain, and every rule defined as itself, is reported as a Structural error for every value.", "quantifier": "all n, all values", "why_tests_cant": "all chain lengths", "anchors": ["src/validate.rs:Context::inc_depth"]}
{"id": "C26", "title": "Only reachable rules matter", "statement": "The result of a validation depends only on the rules reachable by name from the rule being validated: adding, removing or changing any other rule changes nothing.", "quantifier": "all rule sets, all data", "why_tests_cant": "all pairs of rule sets", "anchors": ["src/validate.rs:Context::lookup_rule", "src/context.rs:BasicContext"]}
{"id": "C27", "title": "Missing rules are reported by name", "statement": "A reference to a rule that does not exist yields MissingRule with exactly that name.", "quantifier": "all names, values", "why_tests_cant": "all names", "anchors": ["src/context.rs:BasicContext::lookup_rule"]}
{"id": "C28", "title": "CBOR conversion", "statement": "CBOR data without tags is converted structure-preservingly and CBOR data containing a tag anywhere is rejected with ValueError whatever the schema; a CBOR map with duplicate keys is validated as if only the last pair were present.", "quantifier": "all CBOR values", "why_tests_cant": "unbounded trees", "anchors": ["src/cbor.rs:TryFrom<&CBOR_Value>", "src/cbor.rs:validate_cbor"]}
{"id": "C29", "title": "JSON conversion", "statement": "Every JSON value converts; integers in the u64/i64 range become integers, all other numbers floats; a float never becomes an integer; object order is irrelevant.", "quantifier": "all JSON values", "why_tests_cant": "unbounded trees", "anchors": ["src/json.rs:TryFrom<&JSON_Value>", "src/json.rs:validate_json"]}
{"id": "C30", "title": "JSON and CBOR agree", "statement": "A JSON value and its natural CBOR counterpart get the same validation result under every schema.", "quantifier": "all JSON values, all schemas", "why_tests_cant": "unbounded", "anchors": ["src/json.rs:validate_json", "src/cbor.rs:validate_cbor"]}
{"id": "C31", "title": "Data order is lawful", "statement": "The ordering used for map keys is a total order in which two values compare equal iff they are identical, so a converted map never holds two equal keys and lookup finds a key iff it is present. Kinds of data come in the order of the enum, numbers are ordered by size (-0 before 0, NaN outside), byte strings, texts (by UTF-8 bytes), arrays and maps lexicographically.", "quantifier": "all pairs and triples of values", "why_tests_cant": "unbounded trees", "anchors": ["src/value.rs:Value"]}
{"id": "C32", "title": ".cbor control operator", "statement": "bstr .cbor t accepts a byte string iff it decodes to a data item accepted by t; bytes that are not CBOR give the fatal ValueError (even inside a choice).", "quantifier": "all byte strings, types", "why_tests_cant": "unbounded", "anchors": ["src/validate.rs:validate_control_cbor"]}
{"id": "C33", "title": "Group-to-choice operator", "statement": "&g accepts exactly the values accepted by one of the member values of group g (keys ignored). As an entry of a map, &g tries what the members of g stand for one after the other, and succeeds with the first that does.", "quantifier": "all groups, values", "why_tests_cant": "any number of members", "anchors": ["src/validate.rs:validate_choiceify", "src/validate.rs:validate_choiceify_members"]}
{"id": "C34", "title": "Unwrap and group inlining", "statement": "[a, ~x, b] with x=[c,d] behaves like [a,c,d,b]; { ~x } like x's members inlined; an inline group ( ... ) in an array behaves like its entries written in place.", "quantifier": "all schemas of that shape, all data", "why_tests_cant": "any number of entries", "anchors": ["src/validate.rs:validate_array_unwrap", "src/validate.rs:validate_map_unwrap"]}
{"id": "C35", "title": "Flattening never panics and yields well-formed trees", "statement": "Flattening any parsed schema either fails with an error or yields, for every rule, a tree whose control operators, ranges, unwraps and choices obey the invariants the validator relies on.", "quantifier": "all ASTs", "why_tests_cant": "unbounded trees", "anchors": ["src/flatten.rs"]}
{"id": "C36", "title": "Later definitions win", "statement": "If a schema defines a rule name twice, the last definition is the one used; otherwise the order of rules does not matter.", "quantifier": "all schemas", "why_tests_cant": "all rule lists and permutations", "anchors": ["src/flatten.rs:flatten"]}
{"id": "C37", "title": "Prelude names cannot be redefined", "statement": "A name of the supported prelude always denotes the prelude type, whatever rules or generic parameters of that name the schema declares; unsupported prelude names always make flattening fail.", "quantifier": "all schemas", "why_tests_cant": "all rule sets", "anchors": ["src/flatten.rs:flatten_typename"]}
{"id": "C38", "title": "slice variants agree", "statement": "slice_parse_cddl/slice_flatten succeed exactly when parse_cddl/flatten do, with the same rules in the same order.", "quantifier": "all input texts", "why_tests_cant": "all strings", "anchors": ["src/parser/mod.rs:cddl_slice", "src/flatten.rs:slice_flatten"]}
{"id": "C39", "title": "Parsing always returns and never panics", "statement": "parse_cddl returns a result for every input text: the grammar's recursion always consumes input, and the internal panic on a wrong key type cannot happen.", "quantifier": "all input texts", "why_tests_cant": "all strings", "anchors": ["src/parser/mod.rs:parse_cddl", "src/parser/mod.rs:assemble_basic_member"]}
{"id": "C40", "title": "Whitespace and comments do not matter", "statement": "Whitespace and comments do not change what a schema parses to, or whether it does. Wherever a text has some outside of literals, any other may stand instead. Where it has none, some may be put before the text, behind it, and behind every bracket, quote, comma, colon or prefix sign, so in particular between rules that end in one of these.", "quantifier": "all texts, all whitespace strings", "why_tests_cant": "all strings", "anchors": ["src/parser/mod.rs:ws", "src/parser/mod.rs:cddl"]}
{"id": "C41", "title": "Integer literals", "statement": "Decimal, hexadecimal and binary literals denote their mathematical value; a literal beyond 64 bits is reported as MalformedInteger and never silently truncated.", "quantifier": "all digit strings", "why_tests_cant": "unbounded", "anchors": ["src/parser/mod.rs:uint_u64", "src/parser/mod.rs:parse_int"]}
{"id": "C42", "title": "Print/parse round trip", "statement": "Parsing the printed form of a syntax tree gives back that syntax tree (so nothing written in CDDL text is lost or altered on the way to validation).", "quantifier": "all printable ASTs", "why_tests_cant": "unbounded trees", "anchors": ["src/parser/mod.rs"]}
{"id": "C43", "title": "The whole input is parsed", "statement": "If parse_cddl succeeds, the entire text was accounted for: the recorded rule slices, in order and separated only by whitespace and comments, make up the whole input.", "quantifier": "all input texts", "why_tests_cant": "all strings", "anchors": ["src/parser/mod.rs:parse_cddl", "src/parser/mod.rs:slice_parse_cddl"]}
{"id": "C44", "title": "End-to-end agreement of entry points", "statement": "validate_json_str / validate_cbor_bytes return exactly what parsing, flattening, looking up the named rule, decoding and validating the pieces separately would return, with errors reported in that order.", "quantifier": "all texts, names and data", "why_tests_cant": "all inputs", "anchors": ["src/json.rs:validate_json_str", "src/cbor.rs:validate_cbor_bytes"]}
{"id": "C45", "title": "Deep data under recursive rules", "statement": "Data nested more than the recursion limit under a recursive rule (e.g. t = [* t]) is reported as a Structural error rather than accepted or silently rejected; data within the limit is accepted.", "quantifier": "all nesting depths", "why_tests_cant": "all depths", "anchors": ["src/validate.rs:Context::inc_depth"]}
{"id": "C46", "title": "Flattening gives exactly what the schema says", "statement": "flatten succeeds with a rule table exactly when the table lists, rule by rule, the definitions the syntax tree stands for under a small declarative translation (prelude names, literals, ranges, controls, occurrences, groups, generics); it fails exactly when some rule stands for nothing.", "quantifier": "all ASTs", "why_tests_cant": "unbounded trees", "anchors": ["src/flatten.rs:flatten", "src/flatten.rs:flatten_rule"]}
{"id": "C47", "title": "Parsed trees are what the grammar derives", "statement": "If parse_cddl returns a syntax tree, the text derives exactly that tree in a declarative grammar after RFC 8610 appendix B (up to the missing line ending of a final comment); a text the grammar does not derive is rejected.", "quantifier": "all input texts", "why_tests_cant": "all strings", "anchors": ["src/parser/mod.rs:parse_cddl"]}
{"id": "C48", "title": "The text of an error tells the error", "statement": "Two errors print the same text exactly when they are the same error with the same message, a map cut counting as the mismatch it is reported as; so the printed text tells fatal errors from mismatches.", "quantifier": "all errors with all messages", "why_tests_cant": "messages contain arbitrary text of schema and data", "anchors": ["src/util.rs:ValidateError", "src/parser/parse_err.rs:ParseError"]}
{"id": "C49", "title": "Where the next element or key decides, the verdict is the meaning of the schema", "statement": "Under a schema in which the next array element, and the keys of a map, always tell which entry describes them, optional entries of single keys standing before wildcards (decided from the rules alone), validation reports a mismatch only for data that the schema does not describe; if in addition failed attempts can be undone (C15), it accepts exactly the data described, leaving aside errors of the schema and of the recursion limit.", "quantifier": "all schemas passing the test, all data, all texts", "why_tests_cant": "all schemas of an infinite class against all data; tests compare single verdicts", "anchors": ["src/validate.rs:validate_array", "src/validate.rs:validate_map", "src/validate.rs:validate_choice", "src/validate.rs:validate_array_occur", "src/validate.rs:validate_map_occur", "src/json.rs:validate_json_str", "src/cbor.rs:validate_cbor_bytes"]}
{"id": "C50", "title": "How deep validation recurses is bounded by the schema", "statement": "For every schema there is one bound on the depth to which the validator's functions nest that holds for all data: 3*(S+1)^51 for rules of size at most S, and 153*(S+1) if no rule is generic. Deeply nested data cannot drive the validator's own recursion deeper than that.", "quantifier": "all schemas, all data", "why_tests_cant": "one bound for all data", "anchors": ["src/validate.rs:validate", "src/validate.rs:Context::derive", "src/validate.rs:Context::inc_depth", "src/validate.rs:validate_array_member", "src/validate.rs:validate_map_member", "src/json.rs:validate_json_str", "src/cbor.rs:validate_cbor_bytes"]}
{"id": "C51", "title": "Loosening a schema keeps what was accepted", "statement": "If a schema is changed only by loosening it (wider types, more options of a choice, weaker occurrence indicators, entries made optional, optional entries added, names for types), data accepted before is still accepted, or an error of the schema or recursion limit is reported; for schemas in which failed attempts can be undone (old) and the next element or key decides (new).", "quantifier": "all pairs of schemas so related, all data, all texts", "why_tests_cant": "all pairs of schemas and all data", "anchors": ["src/validate.rs:validate_array", "src/validate.rs:validate_map", "src/validate.rs:validate_choice", "src/validate.rs:validate_array_occur", "src/validate.rs:validate_map_occur", "src/json.rs:validate_json_str", "src/cbor.rs:validate_cbor_bytes"]}
{"id": "C52", "title": "Rewriting a schema without changing what it says keeps every verdict", "statement": "Naming a type or writing it out, reordering options, writing 0*1 for ? and the like (each schema a loosening of the other) leaves every verdict as it is, up to errors of the schema and recursion limit; for schemas passing the tests of C15 and C49.", "quantifier": "all pairs of schemas so related, all data, all texts", "why_tests_cant": "all pairs of schemas and all data", "anchors": ["src/validate.rs:validate_choice", "src/validate.rs:validate_rule", "src/validate.rs:validate_array_occur", "src/validate.rs:validate_map_occur", "src/json.rs:validate_json_str", "src/cbor.rs:validate_cbor_bytes"]}
{"id": "C53", "title": "Schemas can be joined", "statement": "If two texts parse, so does the one followed by the other on a new line, and to the rules of the one followed by those of the other (also if the first ends in a comment). The rule table is then the one behind the other, so added rules change no answer for a rule whose names they do not define, and a schema that defines all it mentions is not affected by rules put before it.", "quantifier": "all pairs of texts, all data", "why_tests_cant": "all pairs of strings", "anchors": ["src/parser/mod.rs:cddl", "src/parser/mod.rs:parse_cddl", "src/flatten.rs:flatten", "src/flatten.rs:flatten_from_str", "src/json.rs:validate_json_str", "src/cbor.rs:validate_cbor_bytes"]}
{"id": "C54", "title": "Where everything is used as it should be, the only error is a mismatch", "statement": "If every name is defined and given as many arguments as it has parameters, groups stand only where groups may stand, operators get operands they are made for, and there is neither recursion nor .cbor, then validation answers yes or reports a mismatch, never an error of the schema. With recursion the error of the recursion limit is possible, with .cbor that of undecodable bytes. Together with the tests of C15 and C49 the answer is yes exactly for the data described by the schema, and a mismatch for all other data.", "quantifier": "all schemas that pass the test, all data", "why_tests_cant": "all schemas and data; error kinds in every branch", "anchors": ["src/validate.rs:validate", "src/validate.rs:Context", "src/validate.rs:validate_array_member", "src/validate.rs:validate_map_member", "src/validate.rs:validate_range", "src/validate.rs:validate_control", "src/validate.rs:validate_choiceify", "src/util.rs:ValidateError"]}
{"id": "C55", "title": "Recursive schemas reach the recursion limit only on data that is nested deeply", "statement": "Where all recursion of a schema is through arrays and maps, every rule uses at most s - 1 further rules before the next array or map, and the rule checked uses at most r, data nested at most h levels (keys of maps counted, too) never reaches the recursion limit as long as r + s * h is at most 50: validation answers yes or reports a mismatch, and with the tests of C15 and C49 it says yes exactly for the data described. The bound cannot be raised: with t = [* t] data of height 50 is accepted and data of height 51 ends with the recursion limit.", "quantifier": "all schemas that pass the test, all data of bounded height", "why_tests_cant": "all recursive schemas and data; depth of rules within rules against nesting of data", "anchors": ["src/validate.rs:validate", "src/validate.rs:Context", "src/validate.rs:MAX_DEPTH", "src/validate.rs:validate_array", "src/validate.rs:validate_map"]}
{"id": "C56", "title": "From texts to verdicts", "statement": "If a CDDL text is a layout of a syntax tree, the tree stands for a table of rules, the JSON or CBOR input stands for data, and the table passes the tests of C15, C49 and C54 or C55, then validate_json_str and validate_cbor_bytes say yes exactly if the data is described by the rule of that name, and report a mismatch otherwise. Whatever the text, a yes of validate_json_str means that the text is written by the grammar and its table and data exist. A loosened schema that passes the tests accepts everything that the old one accepts.", "quantifier": "all texts, all tables that pass the tests, all data", "why_tests_cant": "all texts, schemas and data; the whole path from text to verdict", "anchors": ["src/json.rs:validate_json_str", "src/cbor.rs:validate_cbor_bytes", "src/flatten.rs:flatten_from_str", "src/parser.rs:parse_cddl", "src/validate.rs:do_validate"]}
{"id": "C57", "title": "The names of rules and parameters do not matter", "statement": "If two schemas differ only in the names of their rules and parameters (names of rules changed everywhere alike, parameters of each rule in any way; different names stay different, prelude names, keys written as barewords and undefined names stay as they are), then both translate or fail with the same error, and every rule of the one gives, for every document, exactly the answer of the renamed rule of the other, message included.", "quantifier": "all pairs of schemas so related, all data", "why_tests_cant": "all renamings of all schemas; capture of names by parameters is a classic source of errors", "anchors": ["src/flatten.rs:flatten", "src/flatten.rs:flatten_typename", "src/validate.rs:Context::lookup_rule", "src/validate.rs:Context::derive", "src/validate.rs:validate_rule", "src/json.rs:validate_json_str", "src/cbor.rs:validate_cbor_bytes"]}
{"id": "C58", "title": "The regexp operator", "statement": "tstr .regexp p accepts exactly the texts that the regex library says match p; other texts and other data are told apart in the mismatch. The operator is kept by the translation exactly if its target is the prelude's text type and its argument a text literal that compiles; each other case has its own error, reported when the schema is read, whatever the data.", "quantifier": "all patterns, all data, all regex libraries", "why_tests_cant": "all patterns and texts; a pattern that does not compile must be found before any data is seen", "anchors": ["src/validate.rs:validate_control", "src/validate.rs:validate_control_regexp", "src/flatten.rs:flatten_control", "src/json.rs:validate_json_str"]}
{"id": "C59", "title": "Messages say what was expected and where", "statement": "A mismatch names what the schema asked for: the prelude type, the literal, the range, the number of options of a choice, the entry of the array at which elements ran out or did not fit, the key that a map lacks, the occurrence that was not met, the comparison or size that failed. For arrays of plain entries and maps with literal keys the answer is given in full: the first entry in the order of the schema that is not met decides.", "quantifier": "all schemas of these forms, all data", "why_tests_cant": "all data; which of several faults is reported depends on the order of checks", "anchors": ["src/validate.rs:validate", "src/validate.rs:validate_array", "src/validate.rs:validate_map", "src/validate.rs:validate_array_occur", "src/validate.rs:validate_map_occur", "src/validate.rs:validate_control", "src/util.rs:mismatch", "src/ivt.rs:Node"]}
{"id": "C60", "title": "Errors of translation name the first part of the schema that is at fault", "statement": "A schema is refused exactly if one of its rules has a fault of a given list (unsupported prelude name, arguments for a prelude name, ~ or & of a prelude name, unknown operator, limit, target or pattern that does not suit the operator, end of a range that can be no literal, empty type, integer out of range), and the error is that of the first fault, rules in order and each from left to right. Texts give only a parse error or one of nine of these, and the error comes before rule name and data are looked at.", "quantifier": "all trees, all texts", "why_tests_cant": "all trees; which of several faults is reported depends on the order of traversal", "anchors": ["src/flatten.rs:flatten", "src/flatten.rs:flatten_type2", "src/flatten.rs:flatten_control", "src/flatten.rs:range_point", "src/flatten.rs:flatten_rule_generic", "src/flatten.rs:flatten_name_generic", "src/flatten.rs:flatten_from_str", "src/json.rs:validate_json_str"]}
{"id": "C61", "title": "Parts of a schema that make no sense where they stand are reported, whatever the data", "statement": "Using an entry, an occurrence, an unwrapping or a group as a type, a type as an entry of a map, something that is no literal as the end of a range, ends of different kinds, something that is no size in a range of sizes, or something that is no group behind &, directly or through names, below occurrences, in groups and as the first option of a choice, gives for all data the error with the message of that fault; unwrapping the wrong kind of thing is a mismatch.", "quantifier": "all schemas with such a part, all data", "why_tests_cant": "all data and all ways to reach the part", "anchors": ["src/validate.rs:validate", "src/validate.rs:validate_map_member", "src/validate.rs:validate_array_member", "src/validate.rs:validate_range", "src/validate.rs:deref_range_rule", "src/validate.rs:validate_choiceify", "src/validate.rs:validate_map_choiceify", "src/validate.rs:validate_array_unwrap", "src/validate.rs:validate_map_unwrap", "src/normalize.rs:normalize_size_range"]}
{"id": "C62", "title": "Errors of the parser quote the text", "statement": "A text that is refused is refused either as unparseable, quoting the rest of the text from a place where the rules read so far cannot be continued (behind a series of rules, at the name, at the =, or in the body of the first rule), or for a literal in it that cannot be represented (an integer, float, text or byte string), quoting that literal. The documentation says the quoted text is a snippet of the input, which is so except for hex strings, quoted without their blanks, and for generic arguments on a bareword key, which quote nothing. Both parsers give the same errors.", "quantifier": "all texts, all behaviours of the string libraries", "why_tests_cant": "which of several errors survives depends on the backtracking of the parser", "anchors": ["src/parser/parse_err.rs:30-36", "src/parser/parse_err.rs:64-102", "src/parser/mod.rs:parse_cddl", "src/parser/mod.rs:uint_u64", "src/parser/mod.rs:float_or_int", "src/parser/mod.rs:grpent_member"]}
{"id": "C63", "title": "Notation does not matter", "statement": "Schemas that differ only in parentheses around types, in prelude names of the same meaning (tstr and text, nil and null, ...), and in the notation of literal keys (a:, \"a\":, \"a\" ^=>) translate to the same rules or are refused with the same error, so all answers are the same. If they also differ in the notation of occurrences (? and 0*1, + and 1*, * and 0*) or in the keys of array entries, all verdicts are the same and only the text of mismatches may differ.", "quantifier": "all pairs of schemas, all data", "why_tests_cant": "all combinations of notations in all places", "anchors": ["src/flatten.rs:flatten_type", "src/flatten.rs:flatten_typename", "src/flatten.rs:flatten_memberkey", "src/ivt.rs:Occur::limits", "src/validate.rs:validate_array_occur", "src/validate.rs:validate_map_occur"]}
{"id": "C64", "title": "Repetitions end with the data", "statement": "Where the entry of an array or map takes an element or pair whenever it matches (a type, a key, a group with such a member, a choice of such entries, a repetition of at least one), repeating it succeeds no more often than there is data left, and the loop ends with the round after that. Where an entry matches without taking anything (an empty group, an optional entry for which there is no data), the loop runs until the upper limit, 2^64-1 rounds for * and +: [* (? int)] does not end in practice.", "quantifier": "all entries, all data, all limits", "why_tests_cant": "a test can only wait for a while", "anchors": ["src/validate.rs:validate_array_occur", "src/validate.rs:validate_map_occur", "src/validate.rs:WorkingArray", "src/validate.rs:WorkingMap", "src/ivt.rs:Occur::limits"]}
{"id": "C65", "title": "Arrays and maps are read from left to right", "statement": "For schemas in which whatever is tried can be undone (the test of C15) arrays and maps are read as by a parsing expression grammar: entries one after the other, of a choice the first option that takes something, a repetition as often as it goes, an array entry taking the next element, a map entry the first pair in key order whose key fits, and what a failed option has read being there for the next. There is exactly one such reading; the data is accepted if it is read to the end, refused if something does not fit or is left, and an error of another kind is reported if the reading meets it.", "quantifier": "all schemas passing the test, all arrays and maps", "why_tests_cant": "all schemas and data; the code takes things out of a working copy and puts them back, which is right only if every failed attempt is undone", "anchors": ["src/validate.rs:validate_array", "src/validate.rs:validate_map", "src/validate.rs:validate_array_member", "src/validate.rs:validate_map_member", "src/validate.rs:WorkingArray", "src/validate.rs:WorkingMap"]}
{"id": "C66", "title": "How often the parser reads the same text", "statement": "The grammar of group entries is arranged so that the parser does not fall into 2^N iterations by backtracking (comment at src/parser/mod.rs:598-636). For N nested brackets of arrays and maps around a type, type2 is called exactly 2N+1 times. For groups in parentheses it is not so: a=[([([1],)],)] with N such groups, a text of 5N+5 characters, takes at least 2^N calls of type2, because each group is read as a type up to its comma and then once more as a group.", "quantifier": "all depths of nesting, all behaviours of the string libraries", "why_tests_cant": "tests check results, not the number of steps; the growth shows only over all depths", "anchors": ["src/parser/mod.rs:598-636", "src/parser/mod.rs:grpent_member", "src/parser/mod.rs:grpent_val", "src/parser/mod.rs:grpent_parens", "src/parser/mod.rs:type2", "src/parser/mod.rs:type2_parens"]}
{"id": "C67", "title": "What an entry that fails has used up", "statement": "For every schema, arrays and maps are accepted as follows. Entries are tried one after the other on the data that is left; of a choice, the options are tried on what those before have left; a repetition goes on as long as its entry does not fail. An entry that fails has used up what it took, except that a group gives back what its own entries took (through choices, repetitions, names and ~, but not what was taken by a group inside it that did not fail). Behind & in a map the members of the group are tried as options, of a keyed member its value and of a named one the members of the group it names. The outcome is unique; the data is accepted exactly if all of it is taken, and any error other than a mismatch is the one met.", "quantifier": "all schemas, all arrays and maps, all contexts of generics", "why_tests_cant": "the tests use schemas in which nothing is lost; what is lost depends on the nesting of groups, choices and repetitions of any depth", "anchors": ["src/validate.rs:WorkingArray", "src/validate.rs:WorkingMap", "src/validate.rs:validate_array_member", "src/validate.rs:validate_map_member", "src/validate.rs:validate_array_occur", "src/validate.rs:validate_map_occur", "src/validate.rs:validate_map_choice", "src/validate.rs:validate_map_choiceify"]}
{"id": "C68", "title": "How many calls the parser makes at most", "statement": "Every text, in order or not, is read with at most four calls of type2 for each of its characters, doubled for each opening parenthesis and each single quote in it: 4 * n * 2^(p + q), wherever and however it fails. So without parentheses and quotes the time is linear. With p parentheses it can take 2^p calls, so no factor suffices in general.", "quantifier": "all texts, all behaviours of the string libraries", "why_tests_cant": "a bound over all texts, also the malformed ones; tests can time some texts", "anchors": ["src/parser/mod.rs:type2", "src/parser/mod.rs:type1", "src/parser/mod.rs:ty", "src/parser/mod.rs:grpent_member", "src/parser/mod.rs:grpent_val", "src/parser/mod.rs:grpchoice", "src/parser/mod.rs:group", "src/parser/mod.rs:rule_val", "src/parser/mod.rs:cddl"]}
{"id": "C69", "title": "How many calls validation takes", "statement": "For rules under which every value is looked into by one option only (a test that reads the rules: the first element of an array, or the first member of a map, tells the options apart; no groups, generics, ~, & and .cbor), validation takes at most a constant times the square of the size of the data, and a constant times its size if there are no maps; the constants are computed from the rules. The square is reached: under m = {* uint => int, * nint => int} the map with the keys -n to n-1 takes at least n*n calls. Without this it can take exponentially many calls for data that is accepted: e = [e, \"+\", e] / [e, \"*\", e] / int takes 2^d calls for d nested products.", "quantifier": "all tables that pass the test, all data; all nesting depths up to the recursion limit for the lower bound", "why_tests_cant": "a bound over all data; tests that take exponential time do not end", "anchors": ["src/validate.rs:validate", "src/validate.rs:validate_choice", "src/validate.rs:validate_array", "src/validate.rs:validate_array_member", "src/validate.rs:validate_array_occur", "src/validate.rs:validate_map", "src/validate.rs:validate_map_member", "src/validate.rs:validate_map_keyvalue", "src/validate.rs:map_search", "src/validate.rs:validate_map_occur"]}
{"id": "C70", "title": "How deep the parser recurses", "statement": "The calls of type2 and group (through which all recursion of the parser passes) are never nested deeper than twice the number of opening brackets ( [ { < in the text, plus one: with that much room the result is the parser's. Nested arrays and maps need exactly that much, so no fixed stack is enough for all texts, though the validator has a limit of 50.", "quantifier": "all texts, all depths", "why_tests_cant": "a bound over all texts; an overflowing stack ends the test run", "anchors": ["src/parser/mod.rs:type2", "src/parser/mod.rs:group", "src/parser/mod.rs:parse_cddl"]}
{"id": "C71", "title": "With repetitions that take something, calls are bounded by a power of the breadth of the data", "statement": "If whatever is repeated takes an element or a pair when it matches, and so do the arguments of generic rules, and there is no .cbor (a test that reads the rules), then validation takes at most (S + b + 3)^(3 * (S + 1)^51) calls, and (S + b + 3)^(153 * (S + 1)) without generic rules, where S is the size of the largest rule and b the largest number of elements or pairs in one place of the data. So for fixed rules the calls are polynomial in the breadth of the data, however deep it is. Without the test this is false: against [* (? int)] the empty array is accepted after 2^64 - 1 calls.", "quantifier": "all tables that pass the test, all data", "why_tests_cant": "a bound over all data and all rules; the counterexample does not end in practice", "anchors": ["src/validate.rs:validate", "src/validate.rs:validate_array_member", "src/validate.rs:validate_array_occur", "src/validate.rs:validate_map_member", "src/validate.rs:validate_map_occur", "src/validate.rs:validate_map_choiceify", "src/validate.rs:Context"]}
{"id": "C72", "title": "The rules of a text are no larger than twice the text", "statement": "Flattening copies nothing: the rules of a schema text of n characters have together at most 2n parts (names count for two). So how deep validation nests is bounded by the length of the schema text alone, whatever the data: 3 * (2n + 1)^51 calls, and 153 * (2n + 1) without generic rules; and so is the exponent of the bound on the number of calls of C71.", "quantifier": "all schema texts that are accepted, all rule names, all JSON texts, CBOR bytes and data", "why_tests_cant": "a bound over all texts", "anchors": ["src/flatten.rs:flatten", "src/flatten.rs:flatten_type2", "src/flatten.rs:flatten_group", "src/flatten.rs:flatten_groupentry", "src/parser/mod.rs:parse_cddl", "src/validate.rs:Context", "src/context.rs:BasicContext"]}
{"id": "C73", "title": "Built without the feature ciborium", "statement": "The crate can be built without CBOR support. A schema that uses no .cbor then gets the same answers. Where a value is checked against .cbor the validator stops with an Unsupported error that names the feature; if no key of a map uses .cbor or a name, every answer is either that error or the answer of the build with the feature, so nothing is wrongly accepted or turned down. With .cbor in a key this fails: the search for a key drops the error, and data that match are turned down as not matching. Without the feature validation always returns and nothing panics.", "quantifier": "all rule tables, all values, all rules, all library behaviours", "why_tests_cant": "two builds of the crate cannot be linked into one test, and the claim is over all schemas and data", "anchors": ["src/validate.rs:validate_control_cbor", "src/validate.rs:validate", "src/validate.rs:map_search", "src/validate.rs:do_validate"]}
{"id": "C74", "title": "Generic rules can be written out", "statement": "Writing the body of a rule, with the arguments in the places of its parameters, instead of the name of the rule with its arguments does not change whether a value is accepted, whichever uses are replaced and however rules and arguments nest; so a schema whose generic rules are not recursive means the same as one without generic rules. This is for schemas whose keys name no rules (parameters that stand for types are allowed), and in which & and ~ stand before names of rules that are not generic: an error in a key, such as the recursion limit, counts as a key that does not match, so a named key can be missed in the first form and found in the second. The other exception are values for which the first form ends in an error of the schema or at the recursion limit: the second form may then give an answer, as for a size range whose limits are parameters.", "quantifier": "all schemas, all choices of uses to replace, all values, all library behaviours", "why_tests_cant": "all schemas and all ways to replace names in them", "anchors": ["src/validate.rs:Context::lookup_rule", "src/validate.rs:Context::derive", "src/validate.rs:GenericMap", "src/validate.rs:validate_rule"]}
{"id": "C75", "title": "Every datum has a schema of its own", "statement": "For every datum, however it nests, there is a type that accepts it and nothing else: literals, arrays of such types, maps with such types as keys and values. If the integers in the datum are above -2^63 and below 2^64 and its texts and floats have a notation, the type can be written as a schema text, with which validate_cbor_bytes and validate_json_str say yes exactly to the inputs that decode to the datum. Other data is a mismatch, never another error, and so every finite set of such data has a schema text that accepts just its members.", "quantifier": "all data, all CBOR and JSON inputs, all library behaviours", "why_tests_cant": "all data against all other data", "anchors": ["src/validate.rs:validate_literal", "src/validate.rs:validate_array", "src/validate.rs:validate_map", "src/validate.rs:validate_map_keyvalue", "src/validate.rs:map_search", "src/validate.rs:map_search_literal", "src/flatten.rs:flatten", "src/parser/mod.rs:parse_cddl", "src/json.rs:validate_json_str", "src/cbor.rs:validate_cbor_bytes"]}
{"id": "C76", "title": "What no schema tells apart", "statement": "Data that differs only in negative integers and floats, between which no literal of the schema lies, gets the same answer with the same message, wherever in the data they stand (keys of maps included). Integers up to -2^63 cannot be written in a schema text, so no schema text tells one of them from another (CBOR has them down to -2^64): two integers get the same answers from all schema texts exactly if they are equal or both at most -2^63. The same holds for NaNs of the same sign.", "quantifier": "all schema texts, all data so related, all library behaviours", "why_tests_cant": "all schemas at once; no number of schemas tried shows that none tells two data apart", "anchors": ["src/validate.rs:validate", "src/validate.rs:validate_literal", "src/validate.rs:check_range", "src/validate.rs:validate_control", "src/validate.rs:validate_map", "src/value.rs:Value", "src/parser/mod.rs:float_or_int", "src/flatten.rs:flatten_value", "src/cbor.rs:validate_cbor_bytes", "src/json.rs:validate_json_str"]}
{"id": "C77", "title": "What is not supported is refused, not misread", "statement": "A text that uses tags (#), extends a type or a group (/= or //=, with or without white space in between), or has any other character outside of literals and comments that CDDL does not use there, is refused by the parser, wherever this stands; the characters that may stand there are exactly those listed. A schema with a control operator other than the seven supported ones is refused, wherever the operator stands. Sockets are names like others. The exception are the names of the prelude for tagged data, which are read as the types of what the tags enclose.", "quantifier": "all schema texts, all places in them outside of literals and comments, all syntax trees, all library behaviours", "why_tests_cant": "every place in every text; a test has one text with one such feature at one place", "anchors": ["src/lib.rs:unimplemented features", "src/parser/mod.rs:cddl", "src/parser/mod.rs:parse_cddl", "src/flatten.rs:flatten_control"]}
{"id": "C78", "title": "Schemas that are cut short or have a bracket wrong are refused", "statement": "In a text that is parsed, all brackets outside of literals and comments are closed by brackets of their kind in good order, and no literal is left open. So what is left of a schema that is cut off while a bracket or literal is open is refused; and if one bracket is left out, put in, or replaced by another bracket or by signs that are not brackets, at most one of the two texts is parsed.", "quantifier": "all texts, all places in them, all brackets, all library behaviours", "why_tests_cant": "every text and every place at which it can be cut or mistyped; a test has one", "anchors": ["src/parser/mod.rs:parse_cddl", "src/parser/mod.rs:cddl", "src/parser/mod.rs:type2", "src/parser/mod.rs:group", "src/parser/mod.rs:grpent_parens"]}
{"id": "C79", "title": "Contexts can be stacked", "statement": "A context that asks one schema and then, for names it does not have, another one gives the same answers with the same errors as the two schema texts joined. Stacking is associative, and a context without rules adds nothing. Rules whose names are all found above are checked as without what is below; a library below keeps its meaning as long as what is above has none of the names it uses, but not otherwise.", "quantifier": "all schemas, all contexts, all data, all library behaviours", "why_tests_cant": "all pairs of schemas and all contexts; the crate has no test with a context of this kind", "anchors": ["src/context.rs:LookupContext", "src/context.rs:BasicContext", "src/lib.rs:stacking CDDL documents", "src/validate.rs:Context::lookup_rule"]}
{"id": "C80", "title": "A literal that cannot be represented is reported as such", "statement": "If a text is read without trouble up to a literal that cannot be represented (an integer beyond 64 bits, a malformed float, a string with a wrong escape, wrong hexadecimal digits or base64), then parsing, and every entry point that takes the text, gives the error of that kind quoting that literal, whatever stands behind it, whichever rule is asked for and whatever the data; a key with generic arguments in front of ':' is likewise reported as such. This holds in every rule, alternative, operator argument, generic argument, parenthesis, array, map, key and occurrence bound; only not in the value behind a key and behind the first alternative of an entry without key.", "quantifier": "all texts, all places in them, all library behaviours", "why_tests_cant": "unbounded texts and nesting; the crate's tests have such literals only as a whole rule or token", "anchors": ["src/parser/mod.rs:value", "src/parser/mod.rs:float_or_int", "src/parser/mod.rs:uint_u64", "src/parser/mod.rs:bytestring", "src/parser/mod.rs:text_literal", "src/parser/mod.rs:grpent_member", "src/parser/parse_err.rs:ParseError"]}
{"id": "C81", "title": "Data that passes the same tests gets the same answer", "statement": "A schema tells data apart only by the tests written in it. Data of the same shape, in which corresponding integers have the same sign and lie the same way to every integer literal, floats the same way to every float literal, texts and byte strings equal the same literals, texts match the same patterns, lengths agree if there is a .size, and byte strings agree if there is a .cbor, gets the same answer with the same message; also as keys of maps. For texts, integers and byte strings the condition is exact: if one test tells two of them apart, some schema made of these tests does. So one datum stands for its whole class.", "quantifier": "all schemas, all data so related, all library behaviours", "why_tests_cant": "unbounded data and schemas; it is what tests that try one datum for each class take for granted", "anchors": ["src/validate.rs:validate", "src/validate.rs:validate_literal", "src/validate.rs:check_range", "src/validate.rs:validate_control", "src/validate.rs:validate_control_size", "src/validate.rs:validate_control_regexp", "src/validate.rs:validate_map", "src/validate.rs:map_search_literal", "src/validate.rs:validate_array"]}
{"id": "C82", "title": "Keys and texts can be replaced in schema and data together", "statement": "If texts are replaced one-to-one, in all literals and keys of the schema and in the data alike, then the answer stays: accepted data stays accepted, and an error is one of the same sort. A schema so changed is translated to the same rules with the texts replaced, and it can be written as long as the new texts can. This holds for schemas without .cbor (or if no text is changed), with .regexp only where the pattern does not tell the new text from the old, and with .size only where the lengths stay; and if every key in the schema is a literal, or if the keys in the maps of the data stay in the same order. Without this last condition it is false, since a key that is not a literal takes the first key in sorted order that fits.", "quantifier": "all schemas, data and replacements so related", "why_tests_cant": "unbounded; a test fixes the texts and so cannot show that an answer is the same for all texts", "anchors": ["src/flatten.rs:flatten", "src/validate.rs:validate", "src/validate.rs:validate_literal", "src/validate.rs:validate_map_key", "src/validate.rs:map_search", "src/validate.rs:map_search_literal", "src/validate.rs:validate_map_keyvalue", "src/validate.rs:validate_map", "src/validate.rs:validate_array", "src/validate.rs:WorkingMap"]}
{"id": "C83", "title": "The libraries are asked only about what is in the schema and in the data", "statement": "Validation asks the libraries for two things only: whether a pattern written in the schema matches a text that is part of the data, and, if the schema has .cbor, how a byte string that is part of the data decodes. What decodes counts as part of the data. Libraries that give the same answers to these questions lead to the same result with the same message. A schema without .regexp and .cbor gets the same result whatever the libraries do. How floats are printed matters for the text of messages only.", "quantifier": "all schemas, all data, all pairs of libraries that agree on what is asked", "why_tests_cant": "unbounded; a test runs with one version of each library", "anchors": ["src/validate.rs:validate_control_regexp", "src/validate.rs:validate_control_cbor", "src/validate.rs:validate", "src/validate.rs:validate_array", "src/validate.rs:validate_map", "src/validate.rs:WorkingMap", "src/validate.rs:WorkingArray"]}
{"id": "C84", "title": "A rule that cannot do without itself accepts nothing", "statement": "If each of some rules needs one of them again, then none of them accepts any data: the answer is always an error. A type needs a rule if it refers to it, in all of its alternatives, in an entry of an array, map or group that has to be there, under + or n*m with n at least 1, under ~, or under .cbor. So neither the recursion limit nor anything else makes the validator take data on trust.", "quantifier": "all schemas with such rules, all data", "why_tests_cant": "unbounded; no test can try all data", "anchors": ["src/validate.rs:validate", "src/validate.rs:validate_rule", "src/validate.rs:validate_choice", "src/validate.rs:validate_array_member", "src/validate.rs:validate_array_occur", "src/validate.rs:validate_map_member", "src/validate.rs:validate_map_occur", "src/validate.rs:Context"]}
{"id": "C85", "title": "No part of accepted data goes unmatched", "statement": "For every schema: each element of an accepted array is accepted by a type that stands for an element in the entries of the array, and for each pair of an accepted map there is a key with a type in the entries of the map that accept the key and the value. So every part of accepted data, at whatever depth, is accepted by a type that stands in the schema under the one that accepted the whole, or lies in a part for which the schema says any. Data with a part that no type in the schema accepts is refused. (Unlike C15 and C16 this does not say that the entries are matched as often as they should be.)", "quantifier": "all schemas, all accepted data, all parts of it", "why_tests_cant": "unbounded; what goes unmatched after an option was given up depends on the order in which everything is tried", "anchors": ["src/validate.rs:validate_array", "src/validate.rs:validate_array_member", "src/validate.rs:validate_array_value", "src/validate.rs:validate_map", "src/validate.rs:validate_map_member", "src/validate.rs:validate_map_keyvalue", "src/validate.rs:validate_map_choiceify", "src/validate.rs:WorkingArray", "src/validate.rs:WorkingMap"]}
{"id": "C86", "title": "Every entry that has to be there is there", "statement": "For every schema: each entry of an array is filled by elements of an accepted array, and each entry of a map by pairs of an accepted map. A type is filled by an element it accepts, a key with a type by a pair whose key and value they accept, a group if all its entries are, a choice if one of its options is, a repetition if it is optional or its entry is. So a pair whose key is written in the schema and that is not optional is in every accepted map, with a value that its type accepts, also where it stands in a group, behind a name or behind ~. (Unlike C15 and C16 this does not say that the elements are different ones or in order.)", "quantifier": "all schemas, all accepted arrays and maps", "why_tests_cant": "unbounded; depends on everything that was tried and undone before", "anchors": ["src/validate.rs:validate_array", "src/validate.rs:validate_array_member", "src/validate.rs:validate_array_occur", "src/validate.rs:validate_map", "src/validate.rs:validate_map_member", "src/validate.rs:validate_map_occur", "src/validate.rs:validate_map_keyvalue", "src/validate.rs:validate_map_choiceify_members", "src/validate.rs:WorkingArray", "src/validate.rs:WorkingMap"]}
{"id": "C87", "title": "Without any, accepted data is nested no deeper than the schema allows", "statement": "If any does not stand under a rule, all data the rule accepts is nested at most so deep, recursive as the schema may be: if no rule has parameters and each rule nests arrays and maps at most B deep, at most 50 * B deeper than the brackets of the rule itself (and this is reached); with parameters, at most 3 * (S + 1) ^ 51 deep, where S is the size of the largest rule. With any there is no bound.", "quantifier": "all schemas without any, all data, all JSON texts and CBOR bytes", "why_tests_cant": "a bound on everything that is accepted cannot be tested; it comes from the recursion limit of 50 and from what is nested in each rule", "anchors": ["src/validate.rs:Context::inc_depth", "src/validate.rs:MAX_DEPTH", "src/validate.rs:lookup_rule", "src/validate.rs:validate", "src/validate.rs:validate_array", "src/validate.rs:validate_map"]}
{"id": "C88", "title": "Accepted arrays and maps are no larger and no smaller than their entries allow", "statement": "An accepted array has no more elements, and an accepted map no more pairs, than its entries can take together: a type takes one element, a key with a type one pair, a group what its entries take together, a choice what its options take together, a repetition its upper limit (at least 1) times what its entry takes; names and ~ are followed. The options of a choice have to be added up: there is a schema whose options take at most three and two elements and that accepts an array of four, because an option that fails keeps what its inner groups have taken. Likewise from below: an accepted array has at least as many elements, and an accepted map at least as many pairs, as its entries must take together, where a choice must take what all its options take and a repetition its lower limit times what its entry takes. So an array of types without marks or groups is accepted only with exactly one element for each type.", "quantifier": "all schemas, all arrays and maps, all JSON texts", "why_tests_cant": "unbounded; what is taken by options that fail counts too", "anchors": ["src/validate.rs:validate_array", "src/validate.rs:validate_array_member", "src/validate.rs:validate_array_occur", "src/validate.rs:validate_array_value", "src/validate.rs:validate_map", "src/validate.rs:validate_map_member", "src/validate.rs:validate_map_occur", "src/validate.rs:validate_map_keyvalue", "src/validate.rs:WorkingArray", "src/validate.rs:WorkingMap"]}
{"id": "C89", "title": "A schema that asks for what JSON cannot express accepts no JSON", "statement": "If a type cannot do without a byte string (bstr, a byte string literal, .cbor, bstr .size), or without a key that is not a text, wherever that stands (behind names, in groups, in all options of a choice, behind ~, in repetitions that are not optional, at any depth of arrays and maps), then no JSON text is accepted. Where it is optional this does not follow.", "quantifier": "all schemas, all JSON texts", "why_tests_cant": "unbounded; the part that cannot be met can stand at any depth", "anchors": ["src/json.rs:try_from", "src/json.rs:validate_json_str", "src/validate.rs:validate_prelude_type", "src/validate.rs:validate_literal", "src/validate.rs:validate_array_member", "src/validate.rs:validate_map_member", "src/validate.rs:validate_map_keyvalue", "src/validate.rs:validate_control_cbor", "src/validate.rs:validate_control_size"]}
{"id": "C90", "title": "A key cannot be asked for twice", "statement": "An accepted map has at least as many keys of any kind as its entries need together (a pair needs one if its key type accepts only keys of this kind; groups, names, ~, choices and repetitions as in C88). So if the entries need one certain key twice, wherever they stand, nothing is accepted at all: no JSON text and no CBOR data. In particular a map with the same literal key in two entries that are not optional accepts nothing, whatever the types.", "quantifier": "all schemas, all data", "why_tests_cant": "unbounded; pairs that have been taken must never come back before the second entry is reached, also after groups and options have failed", "anchors": ["src/validate.rs:validate_map", "src/validate.rs:validate_map_member", "src/validate.rs:validate_map_keyvalue", "src/validate.rs:validate_map_occur", "src/validate.rs:validate_map_key", "src/validate.rs:map_search", "src/validate.rs:WorkingMap"]}
{"id": "C91", "title": "Elements and keys of a kind can be counted in the schema", "statement": "For any kind of values: an accepted array has at least as many elements of this kind as its entries need together and at most as many as they can take together; an accepted map has at most as many keys of this kind as its entries can take together (at least: C90). A type can take one element, and none if it accepts only values of other kinds; it needs one if it accepts only values of this kind; groups, names, ~, choices and repetitions as in C88. So a repetition without limit of other values does not loosen the bound.", "quantifier": "all schemas, all kinds of values, all arrays and maps, all JSON texts", "why_tests_cant": "unbounded", "anchors": ["src/validate.rs:validate_array", "src/validate.rs:validate_array_member", "src/validate.rs:validate_array_occur", "src/validate.rs:validate_array_value", "src/validate.rs:validate_map", "src/validate.rs:validate_map_member", "src/validate.rs:validate_map_occur", "src/validate.rs:validate_map_keyvalue", "src/validate.rs:WorkingArray", "src/validate.rs:WorkingMap"]}
{"id": "C92", "title": "A contradiction that cannot be avoided makes a schema empty", "statement": "If certain types accept nothing, then a type that cannot do without one of them accepts nothing, and no JSON text and no CBOR data is accepted for a rule of such a type. A type cannot do without it through names and generic arguments, in every option of a choice, in an array or map entry that has to be there (also in groups, through ~, and in repetitions of at least one), in the key or the value of such a map entry, and inside .cbor. Types that accept nothing are integer ranges with the end below the start, choices without options, maps with the same key in two entries, and rules that need each other without an end. Where the entry is optional this does not follow.", "quantifier": "all schemas, all nestings, all JSON texts, all CBOR data", "why_tests_cant": "unbounded", "anchors": ["src/validate.rs:do_validate", "src/validate.rs:validate", "src/validate.rs:validate_rule", "src/validate.rs:validate_choice", "src/validate.rs:validate_range", "src/validate.rs:validate_array", "src/validate.rs:validate_array_member", "src/validate.rs:validate_map", "src/validate.rs:validate_map_member", "src/validate.rs:validate_control_cbor", "src/cbor.rs:validate_cbor_bytes", "src/json.rs:validate_json_str"]}
