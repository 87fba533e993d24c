{
 "claims": [
  {
   "property": "C01",
   "status": "proved",
   "theorems": [
    "Cddl.C01_validation_returns",
    "Cddl.C01_validate_returns",
    "Cddl.C01_data_returns",
    "Cddl.C44_returns"
   ],
   "note": "for every lookup, value and rule; for the depth of calls see C50, for their number C69 and C71"
  },
  {
   "property": "C02",
   "status": "proved",
   "theorems": [
    "Cddl.C02_no_panic",
    "Cddl.C02_no_panic_cbor",
    "Cddl.C02_no_panic_json"
   ],
   "note": "panics modelled: unwrap of missing snapshot, pop of empty array, removal of absent key, shift overflow"
  },
  {
   "property": "C03",
   "status": "proved",
   "theorems": [
    "Cddl.C03_no_mapCut",
    "Cddl.C03_no_mapCut_table"
   ],
   "note": "for lookups that do not return MapCut themselves"
  },
  {
   "property": "C04",
   "status": "proved",
   "theorems": [
    "Cddl.C04_prelude",
    "Cddl.C04_uint_xor_nint",
    "Cddl.C04_disjoint"
   ],
   "note": ""
  },
  {
   "property": "C05",
   "status": "proved",
   "theorems": [
    "Cddl.C05_literal",
    "Cddl.C05_unique"
   ],
   "note": ""
  },
  {
   "property": "C06",
   "status": "proved",
   "theorems": [
    "Cddl.C06_accepts",
    "Cddl.C06_fatal",
    "Cddl.C06_mismatch"
   ],
   "note": ""
  },
  {
   "property": "C07",
   "status": "proved",
   "theorems": [
    "Cddl.C07_flatten",
    "Cddl.C07_duplicate",
    "Cddl.C07_assoc",
    "Cddl.C07_order",
    "Cddl.C07_order_needs"
   ],
   "note": "same verdict: accepted alike, mismatch alike, same fatal error"
  },
  {
   "property": "C08",
   "status": "proved",
   "theorems": [
    "Cddl.C08_int_range",
    "Cddl.C08_float_range",
    "Cddl.C08_empty",
    "Cddl.C08_mixed",
    "Cddl.C08_no_numbers"
   ],
   "note": "float values compared as exact dyadic numbers; lower endpoint assumed not NaN (a NaN literal cannot be written in CDDL)"
  },
  {
   "property": "C09",
   "status": "proved",
   "theorems": [
    "Cddl.C09_integer_controls",
    "Cddl.C09_bad_argument"
   ],
   "note": ""
  },
  {
   "property": "C10",
   "status": "proved",
   "theorems": [
    "Cddl.C10_size_uint",
    "Cddl.C10_size_uint_range",
    "Cddl.C10_size_single",
    "Cddl.C10_size_empty",
    "Cddl.C10_bad_size",
    "Cddl.C10_bad_size_range"
   ],
   "note": ""
  },
  {
   "property": "C11",
   "status": "proved",
   "theorems": [
    "Cddl.C11_size_tstr",
    "Cddl.C11_size_bstr"
   ],
   "note": ""
  },
  {
   "property": "C12",
   "status": "proved",
   "theorems": [
    "Cddl.C12_record",
    "Cddl.C12_length"
   ],
   "note": ""
  },
  {
   "property": "C13",
   "status": "proved",
   "theorems": [
    "Cddl.C13_keys_ignored",
    "Cddl.C13_keys_added",
    "Cddl.C13_named_entries",
    "Cddl.C13_keyed_one",
    "Cddl.C13_keyed_length"
   ],
   "note": "a key may be removed only from an entry that is a single item; removing it from an entry naming a group makes the name mean the group (example in the file)"
  },
  {
   "property": "C14",
   "status": "partial",
   "theorems": [
    "Cddl.C14_homogeneous_partial",
    "Cddl.C14_only_arrays",
    "Cddl.C14_upper_zero_refuted",
    "Cddl.C14_exact",
    "Cddl.C14_not_array"
   ],
   "note": "false for upper bound 0: [0*0 int] accepts [5]"
  },
  {
   "property": "C15",
   "status": "partial",
   "theorems": [
    "Cddl.C15_sound_partial",
    "Cddl.C15_array_partial",
    "Cddl.C15_no_rules_partial",
    "Cddl.C15_nested_group_refuted",
    "Cddl.C15_unwrap_refuted",
    "Cddl.C15_repetition_refuted",
    "Cddl.C15_sound_refuted",
    "Cddl.C15_checked_partial",
    "Cddl.C15_json_str_partial",
    "Cddl.C15_cbor_bytes_partial",
    "Cddl.C15_json_str_refuted"
   ],
   "note": "false of the code as stated: what a nested group, an unwrapped array or a bare repetition took before failing is not given back (refutations with witnesses). Proved, against a declarative semantics, for every schema in which whatever is tried can be undone (Judgement.Agrees, a condition on the rules)"
  },
  {
   "property": "C16",
   "status": "partial",
   "theorems": [
    "Cddl.C16_map_partial",
    "Cddl.C16_nested_group_refuted",
    "Cddl.C16_unwrap_refuted",
    "Cddl.C15_checked_partial",
    "Cddl.C15_json_str_partial"
   ],
   "note": "false of the code as stated, for the reasons given at C15; proved for every schema in which whatever is tried can be undone"
  },
  {
   "property": "C17",
   "status": "partial",
   "theorems": [
    "Cddl.C17_array_partial",
    "Cddl.C17_map_partial",
    "Cddl.C17_next_alternative_partial",
    "Cddl.C17_tuples",
    "Cddl.C17_records",
    "Cddl.C17_array_refuted",
    "Cddl.C17_map_refuted"
   ],
   "note": "false of the code for nested groups and unwrapped types (refutations); proved for every entry that is atomic in the sense of Spec/Rollback.lean; choices between tuples and between records in full (C17_tuples, C17_records)"
  },
  {
   "property": "C18",
   "status": "proved",
   "theorems": [
    "Cddl.C18_record",
    "Cddl.C18_not_map"
   ],
   "note": ""
  },
  {
   "property": "C19",
   "status": "proved",
   "theorems": [
    "Cddl.C19_order"
   ],
   "note": ""
  },
  {
   "property": "C20",
   "status": "proved",
   "theorems": [
    "Cddl.C20_wildcard_occur",
    "Cddl.C20_wildcard",
    "Cddl.C20_upper_zero"
   ],
   "note": "map sizes fit a 64-bit usize"
  },
  {
   "property": "C21",
   "status": "proved",
   "theorems": [
    "Cddl.C21_cut",
    "Cddl.C21_cut_result",
    "Cddl.C21_no_cut",
    "Cddl.C21_cut_choice",
    "Cddl.C21_cut_in_group"
   ],
   "note": ""
  },
  {
   "property": "C22",
   "status": "partial",
   "theorems": [
    "Cddl.C22_missing_rules_not_masked_partial",
    "Cddl.C22_missing_rules_keys_partial",
    "Cddl.C22_limit_not_masked_partial",
    "Cddl.C22_passed_on",
    "Cddl.C22_map_key_refuted"
   ],
   "note": "false as stated for names used in non-literal map keys: map_search swallows every error there (C22_map_key_refuted); proved for every schema whose map keys lead, through names and generic parameters, only to rules that exist (C22_missing_rules_keys_partial); for the recursion limit, for keys that use no names"
  },
  {
   "property": "C23",
   "status": "proved",
   "theorems": [
    "Cddl.C23_wrong_arity",
    "Cddl.C23_right_arity",
    "Cddl.C23_direct"
   ],
   "note": ""
  },
  {
   "property": "C24",
   "status": "proved",
   "theorems": [
    "Cddl.C24_instantiate",
    "Cddl.C24_parameter",
    "Cddl.C24_callee_independent",
    "Cddl.C24_rename_parameters",
    "Cddl.C24_rename_rules"
   ],
   "note": ""
  },
  {
   "property": "C25",
   "status": "proved",
   "theorems": [
    "Cddl.C25_within_limit",
    "Cddl.C25_beyond_limit",
    "Cddl.C25_cycle"
   ],
   "note": ""
  },
  {
   "property": "C26",
   "status": "proved",
   "theorems": [
    "Cddl.C26_only_reachable",
    "Cddl.C26_unreachable_rule"
   ],
   "note": ""
  },
  {
   "property": "C27",
   "status": "proved",
   "theorems": [
    "Cddl.C27_missing_rule",
    "Cddl.C27_lookup_error"
   ],
   "note": ""
  },
  {
   "property": "C28",
   "status": "proved",
   "theorems": [
    "Cddl.C28_conversion",
    "Cddl.C28_untagged",
    "Cddl.C28_tagged",
    "Cddl.C28_duplicate_keys",
    "Cddl.C28_order",
    "Cddl.C01_data_returns"
   ],
   "note": "starts from the decoded ciborium Value; the decoder itself is a library"
  },
  {
   "property": "C29",
   "status": "proved",
   "theorems": [
    "Cddl.C29_conversion",
    "Cddl.C29_numbers",
    "Cddl.C29_object_order",
    "Cddl.C01_data_returns"
   ],
   "note": "starts from the decoded serde_json Value; which numbers serde_json keeps as integers is a library matter"
  },
  {
   "property": "C30",
   "status": "proved",
   "theorems": [
    "Cddl.C30_agree"
   ],
   "note": ""
  },
  {
   "property": "C31",
   "status": "proved",
   "theorems": [
    "Cddl.C31_total_order",
    "Cddl.C31_equality",
    "Cddl.C31_cbor_maps",
    "Cddl.C31_json_maps",
    "Cddl.C31_order",
    "Cddl.C31_in_order"
   ],
   "note": "The order is Value.Before (Spec/ValueOrder.lean); texts are compared by their UTF-8 bytes there, by code points in the model."
  },
  {
   "property": "C32",
   "status": "proved",
   "theorems": [
    "Cddl.C32_accepts",
    "Cddl.C32_undecodable",
    "Cddl.C32_not_bytes"
   ],
   "note": "the CBOR decoder is a parameter of the model"
  },
  {
   "property": "C33",
   "status": "proved",
   "theorems": [
    "Cddl.C33_accepts",
    "Cddl.C33_any_member",
    "Cddl.C33_fatal",
    "Cddl.C33_not_a_group",
    "Cddl.C33_map_entry",
    "Cddl.C33_map_accepts",
    "Cddl.C33_map_inline_refuted"
   ],
   "note": "C33_map_entry and C33_map_accepts: &g among the entries of a map. C33_map_inline_refuted: there &( ... ) keeps the keys, unlike &g."
  },
  {
   "property": "C34",
   "status": "proved",
   "theorems": [
    "Cddl.C34_array_group",
    "Cddl.C34_map_group",
    "Cddl.C34_array_reference",
    "Cddl.C34_map_reference",
    "Cddl.C34_nested_group_refuted",
    "Cddl.C34_group_as_type",
    "Cddl.C34_unwrap_wrong"
   ],
   "note": "references to generic rules whose members use the parameters are first written out, by C74; the refutation shows that groups nested in groups are not inlined"
  },
  {
   "property": "C35",
   "status": "proved",
   "theorems": [
    "Cddl.C35_no_panic",
    "Cddl.C35_well_formed",
    "Cddl.C35_type_rule",
    "Cddl.C35_parsed_full",
    "Cddl.C35_from_text",
    "Cddl.C35_needs_full",
    "Cddl.C35_errors"
   ],
   "note": "well-formedness is proved for every parsed schema text; which regular expressions compile is a parameter"
  },
  {
   "property": "C36",
   "status": "proved",
   "theorems": [
    "Cddl.C36_last_wins",
    "Cddl.C36_undefined",
    "Cddl.C36_drop_overridden",
    "Cddl.C36_order",
    "Cddl.C36_order_validate",
    "Cddl.C36_order_needs_distinct"
   ],
   "note": ""
  },
  {
   "property": "C37",
   "status": "proved",
   "theorems": [
    "Cddl.C37_prelude",
    "Cddl.C37_prelude_misuse",
    "Cddl.C37_never_referenced",
    "Cddl.C37_redefinition_ignored",
    "Cddl.C37_unsupported",
    "Cddl.C37_user_names"
   ],
   "note": ""
  },
  {
   "property": "C38",
   "status": "proved",
   "theorems": [
    "Cddl.C38_parse",
    "Cddl.C38_flatten",
    "Cddl.C38_from_str"
   ],
   "note": "same outcome and errors, same rules in the same order, for every text"
  },
  {
   "property": "C39",
   "status": "proved",
   "theorems": [
    "Cddl.C39_returns",
    "Cddl.C39_slice_returns"
   ],
   "note": "deeply nested text may exhaust the stack of the real program: the depth of calls is C70"
  },
  {
   "property": "C40",
   "status": "proved",
   "theorems": [
    "Cddl.C40_leading",
    "Cddl.C40_gaps",
    "Cddl.C40_trailing",
    "Cddl.C40_insert",
    "Cddl.C40_layouts",
    "Cddl.C40_between"
   ],
   "note": "C40_leading: white space in front, every outcome. C40_gaps: any gap outside of literals replaced by any other, for every text, parsed or not. C40_trailing, C40_insert: put in behind the text and behind punctuation. C40_layouts and C40_between: anywhere between the tokens of strict layouts (Spec/Grammar). Not claimed for white space put directly behind a digit or a letter in a text that is no strict layout, such as x = 1y = 2; there it can change the meaning (1e5)."
  },
  {
   "property": "C41",
   "status": "partial",
   "theorems": [
    "Cddl.C41_literal",
    "Cddl.C41_rule",
    "Cddl.C41_too_large_partial",
    "Cddl.C41_too_large_rule",
    "Cddl.C41_refuted",
    "Cddl.C41_alternative_refuted",
    "Cddl.C47_sound"
   ],
   "note": "The value of every literal is exact. Which error a too large literal gives: MalformedInteger wherever the text is read without trouble up to the literal (any rule, alternative, parentheses, array, map, generic argument, operator, key, occurrence bound), apart from two places; refuted there: behind the key of a group entry and behind the first alternative of an entry without key the error is swallowed and the text is Unparseable. That no tree ever contains another number than the one written is C47_sound (ValueText.uint, .nint)."
  },
  {
   "property": "C42",
   "status": "proved",
   "theorems": [
    "Cddl.C42_roundtrip",
    "Cddl.C42_layout",
    "Cddl.C42_unambiguous",
    "Cddl.C42_injective",
    "Cddl.C42_parsed",
    "Cddl.C42_image"
   ],
   "note": "The printer is part of the specification (the crate has none). Floats and escapes are printed by parameters assumed to be read back by the number and escape routines."
  },
  {
   "property": "C43",
   "status": "proved",
   "theorems": [
    "Cddl.C43_covers",
    "Cddl.C43_parse",
    "Cddl.C43_open_comment"
   ],
   "note": "a final comment may lack its line ending"
  },
  {
   "property": "C44",
   "status": "proved",
   "theorems": [
    "Cddl.C44_cbor_bytes",
    "Cddl.C44_json_str",
    "Cddl.C44_reuse_cbor",
    "Cddl.C44_reuse_json",
    "Cddl.C44_json_cbor",
    "Cddl.C44_answers",
    "Cddl.C44_layout",
    "Cddl.C44_reprint",
    "Cddl.C44_returns"
   ],
   "note": "The answers of validate_cbor_bytes and validate_json_str are exactly the staged ones (Spec/Stages), for all library behaviours; ciborium and serde_json decoding are parameters."
  },
  {
   "property": "C45",
   "status": "proved",
   "theorems": [
    "Cddl.C45_within",
    "Cddl.C45_beyond"
   ],
   "note": "for t = [* t]: data nested up to 48 levels below the outermost array is accepted, 49 or more is reported"
  },
  {
   "property": "C46",
   "status": "proved",
   "theorems": [
    "Cddl.C46_flatten_iff",
    "Cddl.C46_unique",
    "Cddl.C46_fails_iff"
   ],
   "note": ""
  },
  {
   "property": "C47",
   "status": "proved",
   "theorems": [
    "Cddl.C47_sound",
    "Cddl.C47_rejects",
    "Cddl.C47_no_equals"
   ],
   "note": "soundness of the parser with respect to a declarative grammar on (text, tree) pairs; nom, escape8259, base64, hex and f64 parsing are modelled by their documentation or are parameters"
  },
  {
   "property": "C48",
   "status": "proved",
   "theorems": [
    "Cddl.C48_display",
    "Cddl.C48_fatal"
   ],
   "note": "Display of ValidateError and ParseError modelled from the thiserror format strings and the derived Debug of ErrorKind; equality of texts is equality of errors up to MapCut/Mismatch."
  },
  {
   "property": "C49",
   "status": "proved",
   "theorems": [
    "Cddl.C49_complete",
    "Cddl.C49_checked",
    "Cddl.C49_exact",
    "Cddl.C49_json_str",
    "Cddl.C49_cbor_bytes",
    "Cddl.C49_refuted"
   ],
   "note": "The class of schemas is given by the decidable test RuleTable.predictive (Spec/Predictive.lean). C49_refuted: without the test the statement is false ([* int, int] on [1, 2]: greedy matching). Cuts of literal keys are part of the declarative meaning. Optional entries with a single key may stand before wildcards, with a cut ({? w: int, * tstr => any}) or without ({? w => int, * tstr => any}). Keys of maps must be literals or prelude types here; named keys are covered by C54 to C56, where the test RuleTable.tidy shows that checking a key gives no error that the key search would swallow."
  },
  {
   "property": "C50",
   "status": "proved",
   "theorems": [
    "Cddl.C50_generic",
    "Cddl.C50_plain",
    "Cddl.C50_table",
    "Cddl.C50_text"
   ],
   "note": "The budget of the model is the nesting depth of calls (loops do not spend it), so a sufficient budget bounds the depth of the call stack. Sizes of stack frames are not modelled; neither is the recursion of Drop, Clone, of the parser and of the decoders."
  },
  {
   "property": "C51",
   "status": "proved",
   "theorems": [
    "Cddl.C51_meaning",
    "Cddl.C51_tables",
    "Cddl.C51_json_str",
    "Cddl.C51_cbor_bytes",
    "Cddl.C51_refuted"
   ],
   "note": "Loosening is an inductive relation on schemas (Spec/Wider): wider types, more options, weaker occurrence indicators, optional and additional optional entries, names for types and types for names, through rules and generic arguments. The meaning of a loosened schema contains that of the old one (C51_meaning, no conditions). For the validator: if the old schema passes the test of C15 and the new one that of C49, accepted data stays accepted, leaving aside errors of schema and recursion limit. C51_refuted shows that without the tests it is false ([int, int] to [* int, int])."
  },
  {
   "property": "C52",
   "status": "proved",
   "theorems": [
    "Cddl.C52_meaning",
    "Cddl.C52_tables",
    "Cddl.C52_json_str",
    "Cddl.C52_cbor_bytes"
   ],
   "note": "Two schemas of which each is a loosening of the other in the sense of C51, both passing the tests of C15 and C49, give the same verdict on every data (accept, mismatch), unless one of them reports an error of the schema, of decoding or of the recursion limit."
  },
  {
   "property": "C53",
   "status": "proved",
   "theorems": [
    "Cddl.C53_join",
    "Cddl.C53_lines",
    "Cddl.C53_flatten",
    "Cddl.C53_more_rules",
    "Cddl.C53_more_rules_before"
   ],
   "note": "C53_join: any white space or comments between the two texts, if the first does not end within a comment. C53_lines: a new line is enough, for all texts. C53_flatten: the tables are appended. C53_more_rules and C53_more_rules_before: the answers of the entry points, up to the text of the messages, are those of the one schema alone."
  },
  {
   "property": "C54",
   "status": "proved",
   "theorems": [
    "Cddl.C54_plan",
    "Cddl.C54_checked",
    "Cddl.C54_json_str",
    "Cddl.C54_cbor_bytes",
    "Cddl.C54_exact",
    "Cddl.C54_exact_json",
    "Cddl.C54_exact_cbor",
    "Cddl.C54_refuted"
   ],
   "note": "The test RuleTable.tidy (Spec/TidyCheck.lean) reads only the rules; C54_refuted shows it is needed. C54_exact asks for RuleTable.decisive, which is the test of C49 without the condition on keys."
  },
  {
   "property": "C55",
   "status": "proved",
   "theorems": [
    "Cddl.C55_checked",
    "Cddl.C55_lower",
    "Cddl.C55_json_str",
    "Cddl.C55_cbor_bytes",
    "Cddl.C55_exact",
    "Cddl.C55_exact_json",
    "Cddl.C55_exact_cbor",
    "Cddl.C55_refuted"
   ],
   "note": "The height is computed by a test on the rules; C55_refuted: one level more may reach the limit."
  },
  {
   "property": "C56",
   "status": "proved",
   "theorems": [
    "Cddl.C56_json",
    "Cddl.C56_cbor",
    "Cddl.C56_printed_json",
    "Cddl.C56_accepted_json",
    "Cddl.C56_loosened_json",
    "Cddl.C56_loosened_cbor"
   ],
   "note": "Combines C42, C46, C47, C15, C49, C51, C54 and C55."
  },
  {
   "property": "C57",
   "status": "proved",
   "theorems": [
    "Cddl.C57_flatten",
    "Cddl.C57_json",
    "Cddl.C57_cbor"
   ],
   "note": "Stated for any two texts whose trees are related by Renaming (Spec/Rename). Examples show that the conditions are needed: a parameter named like a rule hides it, and undefined names are part of the message."
  },
  {
   "property": "C58",
   "status": "proved",
   "theorems": [
    "Cddl.C58_regexp",
    "Cddl.C58_mismatch",
    "Cddl.C58_translated",
    "Cddl.C58_refused",
    "Cddl.C58_text"
   ],
   "note": "The regex library (which patterns compile, which texts match) is a parameter of the model."
  },
  {
   "property": "C59",
   "status": "proved",
   "theorems": [
    "Cddl.C59_type",
    "Cddl.C59_literal",
    "Cddl.C59_range",
    "Cddl.C59_choice",
    "Cddl.C59_tuple",
    "Cddl.C59_record",
    "Cddl.C59_container",
    "Cddl.C59_too_few",
    "Cddl.C59_no_key",
    "Cddl.C59_no_pair",
    "Cddl.C59_control",
    "Cddl.C59_bad_control",
    "Cddl.C59_bad_size",
    "Cddl.C59_size_tstr",
    "Cddl.C59_size_bstr",
    "Cddl.C59_size_uint",
    "Cddl.C59_size_uint_over",
    "Cddl.C59_size_uint_range",
    "Cddl.C59_cbor",
    "Cddl.C59_choiceify",
    "Cddl.C59_sign"
   ],
   "note": "Tuples and records are described in full (iff with TupleSays and RecordSays); the other theorems give the message for one kind of fault each. The complaints of the comparisons are stated as they are in the code, five of twelve being misleading (DESIGN.md, section 6)."
  },
  {
   "property": "C60",
   "status": "proved",
   "theorems": [
    "Cddl.C60_rule",
    "Cddl.C60_schema",
    "Cddl.C60_exclusive",
    "Cddl.C60_text",
    "Cddl.C60_kinds",
    "Cddl.C60_answer"
   ],
   "note": "Exact in both directions (iff with BadRule). Each error that texts can have is shown by an example."
  },
  {
   "property": "C61",
   "status": "proved",
   "theorems": [
    "Cddl.C61_type",
    "Cddl.C61_map_entry",
    "Cddl.C61_array_entry",
    "Cddl.C61_unwrap"
   ],
   "note": "The part at fault must be the first thing looked at (first entry, first option); what comes before it may otherwise decide first, see C06, C13, C18."
  },
  {
   "property": "C62",
   "status": "proved",
   "theorems": [
    "Cddl.C62_blame",
    "Cddl.C62_slice",
    "Cddl.C62_snippet",
    "Cddl.C62_snippet_refuted"
   ],
   "note": "C62_snippet gives the two exceptions to the documented meaning of the quoted text; C62_snippet_refuted proves that the documentation is wrong there. For an error in the body of the first rule only the place is described, not why reading ended there."
  },
  {
   "property": "C63",
   "status": "proved",
   "theorems": [
    "Cddl.C63_flatten",
    "Cddl.C63_answers",
    "Cddl.C63_json",
    "Cddl.C63_cbor"
   ],
   "note": "Spec/Notation lists the notations. Parentheses at the end of a range are not redundant (the crate refuses them), as an example shows."
  },
  {
   "property": "C64",
   "status": "proved",
   "theorems": [
    "Cddl.C64_array",
    "Cddl.C64_array_loop",
    "Cddl.C64_map",
    "Cddl.C64_map_loop",
    "Cddl.C64_idle",
    "Cddl.C64_idle_array",
    "Cddl.C64_idle_map",
    "Cddl.C64_refuted"
   ],
   "note": "That all repetitions end with the data is refuted (C64_refuted); which do and which do not is said by TakesElement/TakesPair and C64_idle."
  },
  {
   "property": "C65",
   "status": "proved",
   "theorems": [
    "Cddl.C65_array",
    "Cddl.C65_map",
    "Cddl.C65_array_accepts",
    "Cddl.C65_map_accepts",
    "Cddl.C65_rule",
    "Cddl.C65_refuted"
   ],
   "note": "The readings are ReadsArray and ReadsMap (Spec/Reads.lean). C65_refuted: without the test of C15 the code reads otherwise."
  },
  {
   "property": "C66",
   "status": "proved",
   "theorems": [
    "Cddl.C66_same",
    "Cddl.C66_brackets",
    "Cddl.C66_exponential",
    "Cddl.C66_none_left_out",
    "Cddl.C66_none_invented"
   ],
   "note": "The count is kept by a second version of the parser (Model/Calls.lean), whose results are those of the parser by C66_same, and whose count is that of the calls made by C66_none_left_out and C66_none_invented. The comment in the source is refuted by C66_exponential."
  },
  {
   "property": "C67",
   "status": "proved",
   "theorems": [
    "Cddl.C67_array",
    "Cddl.C67_map",
    "Cddl.C67_array_accepts",
    "Cddl.C67_map_accepts",
    "Cddl.C67_lost"
   ],
   "note": "The description is TriesArray and TriesMap (Spec/Tries.lean); no condition on the schema. C67_lost is a witness for what a group does not give back."
  },
  {
   "property": "C68",
   "status": "proved",
   "theorems": [
    "Cddl.C68_bound",
    "Cddl.C68_linear",
    "Cddl.C68_tight",
    "Cddl.C68_parens_needed"
   ],
   "note": "The count is that of C66 (Model/Calls.lean)."
  },
  {
   "property": "C69",
   "status": "proved",
   "theorems": [
    "Cddl.C69_quadratic",
    "Cddl.C69_linear",
    "Cddl.C69_square",
    "Cddl.C69_exponential",
    "Cddl.C69_counted",
    "Cddl.C69_none_left_out",
    "Cddl.C69_none_invented"
   ],
   "note": "The count is that of Model/Cost.lean, which follows the validator; C69_counted: it does not depend on the step budget; C69_none_left_out and C69_none_invented: what is counted are the calls that are made. The test is RuleTable.frugal (Spec/Frugal.lean)."
  },
  {
   "property": "C70",
   "status": "proved",
   "theorems": [
    "Cddl.C70_enough",
    "Cddl.C70_less",
    "Cddl.C70_needed",
    "Cddl.C70_unbounded"
   ],
   "note": "Depth counts nested calls of type2 and group; the other functions of the parser do not recurse. parseCddlAt is Spec/ParseDepth.lean."
  },
  {
   "property": "C71",
   "status": "proved",
   "theorems": [
    "Cddl.C71_generic",
    "Cddl.C71_plain",
    "Cddl.C71_idle",
    "Cddl.C71_refuted"
   ],
   "note": "The test is RuleTable.lively (Spec/Lively.lean), with a list of the names of rules that take something; the count is that of Model/Cost.lean."
  },
  {
   "property": "C72",
   "status": "proved",
   "theorems": [
    "Cddl.C72_total",
    "Cddl.C72_size",
    "Cddl.C72_depth",
    "Cddl.C72_depth_plain",
    "Cddl.C72_calls",
    "Cddl.C72_calls_plain"
   ],
   "note": "Sizes are those of Spec/Size.lean; the texts are related to the rules by the grammar of C47 and the translation of C46."
  },
  {
   "property": "C73",
   "status": "proved",
   "theorems": [
    "Cddl.C73_same",
    "Cddl.C73_unsupported",
    "Cddl.C73_no_panic",
    "Cddl.C73_returns",
    "Cddl.C73_budget",
    "Cddl.C73_yields",
    "Cddl.C73_agrees",
    "Cddl.C73_key_refuted"
   ],
   "note": "The validator without the feature is Model/Bare.lean. That the answer is the same or names the feature needs that keys of maps use neither .cbor nor names; C73_key_refuted shows that with .cbor in a key it is false of the code."
  },
  {
   "property": "C74",
   "status": "proved",
   "theorems": [
    "Cddl.C74_tables",
    "Cddl.C74_json",
    "Cddl.C74_cbor",
    "Cddl.C74_expand",
    "Cddl.C74_no_generics",
    "Cddl.C74_accepts",
    "Cddl.C74_nonrecursive",
    "Cddl.C74_refuted",
    "Cddl.C74_key_names"
   ],
   "note": "Writing out is the relation WriteOut (Spec/WriteOut.lean); removing all generic rules is RuleTable.expand (Spec/Expand.lean). Keys of maps are left as they are, or are parameters that stand for a type that is not a literal and has no names; names behind & and ~ are kept. C74_nonrecursive: generic rules that are not recursive can all be removed. C74_refuted shows that the exception for fatal errors is needed, C74_key_names that keys with names of rules must be left out."
  },
  {
   "property": "C75",
   "status": "proved",
   "theorems": [
    "Cddl.C75_own",
    "Cddl.C75_text",
    "Cddl.C75_cbor",
    "Cddl.C75_json",
    "Cddl.C75_mismatch",
    "Cddl.C75_finite",
    "Cddl.C75_example"
   ],
   "note": "The type and its text are Value.own and Value.ownSchema (Spec/Own.lean), printed as in C42. That a text or float has a notation is OkValue of Spec/Print.lean."
  },
  {
   "property": "C76",
   "status": "proved",
   "theorems": [
    "Cddl.C76_blind",
    "Cddl.C76_literals",
    "Cddl.C76_schema",
    "Cddl.C76_cbor",
    "Cddl.C76_json",
    "Cddl.C76_low",
    "Cddl.C76_nan",
    "Cddl.C76_integers",
    "Cddl.C76_example",
    "Cddl.C76_map_example"
   ],
   "note": "Data so related is Alike (Spec/Alike.lean). C76_nan assumes that the float parser returns no NaN for a number."
  },
  {
   "property": "C77",
   "status": "proved",
   "theorems": [
    "Cddl.C77_alphabet",
    "Cddl.C77_refused",
    "Cddl.C77_tag",
    "Cddl.C77_extend",
    "Cddl.C77_control",
    "Cddl.C77_control_error",
    "Cddl.C77_answer",
    "Cddl.C77_tags_dropped",
    "Cddl.C77_exact"
   ],
   "note": "Outside of literals and comments: Outside (Spec/Outside.lean); the characters: CodeChar (Spec/Alphabet.lean)."
  },
  {
   "property": "C78",
   "status": "proved",
   "theorems": [
    "Cddl.C78_complete",
    "Cddl.C78_refused",
    "Cddl.C78_cut_bracket",
    "Cddl.C78_cut_literal",
    "Cddl.C78_one_bracket",
    "Cddl.C78_other_bracket"
   ],
   "note": "What is open: openAt, Complete (Spec/Brackets.lean)."
  },
  {
   "property": "C79",
   "status": "proved",
   "theorems": [
    "Cddl.C79_joined",
    "Cddl.C79_text",
    "Cddl.C79_assoc",
    "Cddl.C79_nothing",
    "Cddl.C79_above",
    "Cddl.C79_below",
    "Cddl.C79_below_refuted"
   ],
   "note": "The last theorem shows that the condition of C79_below is needed."
  },
  {
   "property": "C80",
   "status": "proved",
   "theorems": [
    "Cddl.C80_reported",
    "Cddl.C80_slice",
    "Cddl.C80_entry",
    "Cddl.C80_literal",
    "Cddl.C80_integer_part",
    "Cddl.C80_generic_key",
    "Cddl.C80_swallowed"
   ],
   "note": "The converse of C62_blame. C80_swallowed shows that the two kinds of places left out of the statement have to be left out."
  },
  {
   "property": "C81",
   "status": "proved",
   "theorems": [
    "Cddl.C81_same",
    "Cddl.C81_rules",
    "Cddl.C81_cbor",
    "Cddl.C81_json",
    "Cddl.C81_texts",
    "Cddl.C81_integers",
    "Cddl.C81_bytes",
    "Cddl.C81_example",
    "Cddl.C81_size_example"
   ],
   "note": "The tests: Probes and Node.Made; passing the same tests: Akin (Spec/Akin.lean)."
  },
  {
   "property": "C82",
   "status": "proved",
   "theorems": [
    "Cddl.C82_reword",
    "Cddl.C82_rules",
    "Cddl.C82_cbor",
    "Cddl.C82_json",
    "Cddl.C82_tree",
    "Cddl.C82_text",
    "Cddl.C82_schema",
    "Cddl.C82_order_refuted",
    "Cddl.C82_example",
    "Cddl.C82_schema_example"
   ],
   "note": "Other texts: Node.reword, Cddl.reword (Spec/RewordTree.lean) and Reworded; where this is possible: Node.Rewordable (Spec/Reword.lean). C82_order_refuted shows that the condition on keys is needed."
  },
  {
   "property": "C83",
   "status": "proved",
   "theorems": [
    "Cddl.C83_asked",
    "Cddl.C83_rules",
    "Cddl.C83_json",
    "Cddl.C83_none",
    "Cddl.C83_print",
    "Cddl.C83_example"
   ],
   "note": "The data met: Met (Spec/Asked.lean); what the schema has: Node.Made (Spec/Akin.lean)."
  },
  {
   "property": "C84",
   "status": "proved",
   "theorems": [
    "Cddl.C84_endless",
    "Cddl.C84_error",
    "Cddl.C84_rules",
    "Cddl.C84_calls",
    "Cddl.C84_example"
   ],
   "note": "What needs a rule: Node.Needs (Spec/Endless.lean)."
  },
  {
   "property": "C85",
   "status": "proved",
   "theorems": [
    "Cddl.C85_array",
    "Cddl.C85_map",
    "Cddl.C85_parts",
    "Cddl.C85_absent",
    "Cddl.C85_json",
    "Cddl.C85_example",
    "Cddl.C85_absent_example"
   ],
   "note": "Where a type stands in the schema: ElementOf, PairOf and Under; parts of data: PartOf (Spec/Stands.lean). Holds for every schema, so it is what remains of C15 and C16 where these are false."
  },
  {
   "property": "C86",
   "status": "proved",
   "theorems": [
    "Cddl.C86_array",
    "Cddl.C86_map",
    "Cddl.C86_key",
    "Cddl.C86_json",
    "Cddl.C86_example",
    "Cddl.C86_key_example"
   ],
   "note": "What fills an entry: Filled, FilledM and Demands (Spec/Stands.lean). Holds for every schema; the other half of C85."
  },
  {
   "property": "C87",
   "status": "proved",
   "theorems": [
    "Cddl.C87_generic",
    "Cddl.C87_plain",
    "Cddl.C87_json",
    "Cddl.C87_json_plain",
    "Cddl.C87_cbor",
    "Cddl.C87_example",
    "Cddl.C87_tight",
    "Cddl.C87_any_needed"
   ],
   "note": "Height of data: Value.height (Spec/Tidy.lean); brackets of rules and absence of any: Spec/NoAny.lean; what stands under a rule: Spec/Stands.lean."
  },
  {
   "property": "C88",
   "status": "proved",
   "theorems": [
    "Cddl.C88_array",
    "Cddl.C88_map",
    "Cddl.C88_array_least",
    "Cddl.C88_map_least",
    "Cddl.C88_tuple",
    "Cddl.C88_json",
    "Cddl.C88_example",
    "Cddl.C88_least_example",
    "Cddl.C88_failed_options"
   ],
   "note": "How much entries take: AtMost and AtMostM, from below AtLeast and AtLeastM (Spec/AtMost.lean). From above options are added up, not compared: C88_failed_options shows that this is needed of this code."
  },
  {
   "property": "C89",
   "status": "proved",
   "theorems": [
    "Cddl.C89_types",
    "Cddl.C89_json",
    "Cddl.C89_example",
    "Cddl.C89_optional"
   ],
   "note": "What a type cannot do without: NotJson, NotJsonElement, NotJsonPair (Spec/NotJson.lean). From C86: what has to be there is there."
  },
  {
   "property": "C90",
   "status": "proved",
   "theorems": [
    "Cddl.C90_keys",
    "Cddl.C90_twice",
    "Cddl.C90_same_key",
    "Cddl.C90_calls",
    "Cddl.C90_example",
    "Cddl.C90_optional",
    "Cddl.C90_count_example"
   ],
   "note": "What entries need: KeysAtLeast (Spec/Twice.lean)."
  },
  {
   "property": "C91",
   "status": "proved",
   "theorems": [
    "Cddl.C91_array_least",
    "Cddl.C91_array_most",
    "Cddl.C91_map_most",
    "Cddl.C91_map_between",
    "Cddl.C91_json",
    "Cddl.C91_example",
    "Cddl.C91_map_example"
   ],
   "note": "What entries need and can take: ElemsAtLeast, ElemsAtMost, KeysAtMost (Spec/Kinds.lean). As in C88, from above the options of a choice are added up."
  },
  {
   "property": "C92",
   "status": "proved",
   "theorems": [
    "Cddl.C92_types",
    "Cddl.C92_calls",
    "Cddl.C92_contradictions",
    "Cddl.C92_example",
    "Cddl.C92_optional"
   ],
   "note": "What a type cannot do without: Hopeless, HopelessElement, HopelessPair (Spec/Hopeless.lean). Contradictions to start with: C08_empty, C84_endless, C90_same_key, the empty choice."
  }
 ]
}