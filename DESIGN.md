# Formal model of cddl-cat: design

The code under study is the Rust crate in /repo (`cddl-cat` 0.7.1).  It is read as text only.
Its pipeline is: CDDL text -> (parser, nom 7) syntax tree -> (flatten) internal tree (`Node`)
kept in a rule table -> (validate) match a data `Value` that was converted from CBOR or JSON.

## 1. Layout

    lean/Verif/Model/*.lean    the model, one file per Rust source file, each definition cites file:lines
    lean/Verif/Spec/*.lean     small independent specifications used in theorem statements
    lean/Verif/Proofs/*.lean   helper lemmas
    lean/Verif/Props/*.lean    the property theorems named in MANIFEST.json, each with a concrete example
    lean/Verif/Tests/*.lean    the tests of the crate, evaluated in the model (tests, not proofs)
    seeded/LOG.jsonl           wrong programs tried against the theorems
    AXIOMS.md                  the axioms of every theorem of the manifest (generated)

How to read seeded/LOG.jsonl: the wrong programs are edits of the model, and a run stops at the first module that no longer
builds.  `caught` only says that some declaration failed (`failed_declarations`); a proof can also fail because its script no
longer fits, without its statement being false.  `claim_theorems_lost` are the theorems of the named claim that depend on a
failed declaration.  Where there were none, the module of the claim was built alone with the edit (`second_run`): it
fails (`claim_declarations_failed`), is not reached because a module it imports fails, or still builds.  In the last case the
edit is caught by other theorems only, as far as was seen (only Props/Cnn was built, not further modules of a claim).  `claim_shown_broken` sums this up;
where it is false the entry is no evidence for the named claim.

## 2. How the code is modelled

* Every Rust function becomes a total Lean function.  A Rust `Result` becomes `Res`:
  `ok`, `err e` (the `ValidateError` variants with their messages), `panic` (an `unwrap()` of `None`, pop of an empty
  array, ...) and `fuel` (the model ran out of its budget; this is not an outcome of the code).
* The recursive validator functions are written as bodies that take the functions they call (`valBody`, `arrBody`,
  ... in Model/Validate).  `fns env n` ties the knot with a budget `n` of nesting depth.  C01 proves that for every input
  there is a budget that is not exhausted and that a larger one gives the same answer.  `validate`, `doValidate`,
  `validateJsonStr` etc. (no budget) are that answer, and the equations of the functions without budget are theorems
  (Proofs/Limit).  C44_returns and C01_data_returns state this for the entry points.
* `WorkingArray`/`WorkingMap` (the speculative copies with snapshot/rewind/commit) are modelled as state
  that is passed through, including after failure, because the Rust code mutates them in place.
* `BTreeMap<Value,Value>` is a list sorted by the derived `Ord` of `Value`; insertion, lookup and removal are
  modelled on that list and the order is proved to be a lawful total order (C31).
* The rule table is the list of insertions; lookup takes the last one of a name.
* i128 is modelled by unbounded `Int`.  The conversions only produce values in -2^64..2^64-1
  and the theorems that depend on the width (C10) carry an explicit bound.
* usize is 64 bits wide.  Counters of the occurrence loops are unbounded; the theorems that depend on the width carry
  an explicit bound on the number of data items.
* f64 is modelled by its 64-bit pattern, IEEE `<`, `<=` and the total order of `float_ord` by
  arithmetic on the pattern (C08 ties these to exact dyadic numbers).
* The nom combinators used by the parser are modelled over `List Char` with nom's
  three outcomes (ok, recoverable error, failure), in Model/Nom, after nom's documentation.
* The recursion of the parser is bounded by a budget, too; C39 shows that the length of the text suffices.

### What is modelled of each file

| file | modelled | not modelled |
|---|---|---|
| src/parser/mod.rs | everything from `comment` to `slice_parse_cddl` | `blank()` (dead code), unit tests (they are run in Tests/Parser) |
| src/parser/parse_err.rs | all | |
| src/ast.rs | all types | derived `Debug`/`Clone` |
| src/flatten.rs | all | unit tests (run in Tests/Flatten) |
| src/ivt.rs | all types, `Display`, `symbol`, `limits` | hand-written `Debug` of `KeyValue`, helper constructors for tests |
| src/validate.rs | all, and the build without `ciborium` (Model/Bare) | |
| src/normalize.rs, src/context.rs | all | |
| src/value.rs | type and order | `Debug` |
| src/util.rs | error type, `Display`, `is_fatal` | test helper trait `ErrorMatch` |
| src/cbor.rs, src/json.rs | conversions, all entry points | decoders (parameters) |
| src/lib.rs | (documentation only) | |

## 3. Parameters of the model (not modelled, left abstract and universally quantified)

* `regexMatch`, `regexOk`: the `regex` crate.
* `cborDecode`: `ciborium::de::from_reader` (bytes to CBOR item); `jsonDecode`: `serde_json::from_str`.
* `fmtF64` (printing of floats in error messages), `parseF64` (std float parsing),
  `base64` decoding and `escape8259::unescape`: parser parameters (`ParseExt`).
  Hex decoding (crate `hex`) is modelled.
* Theorems hold for every choice of these functions.  Where a theorem needs something of them (C42: that a printed float
  or string is read back) it is a hypothesis of the theorem.
* Memory, running time and the size of stack frames are not modelled (C50 bounds the number of frames).

## 4. Properties and how each is proved

Basic safety of validation
* C01 termination: a multiset-like measure on the chain of generic scopes, lexicographic, of length <= 51 (Proofs/Term).
* C02 no panic: the number of snapshots never drops below its level on entry; by induction on the budget (Proofs/Safe).
* C03 no MapCut from the public functions: induction on the budget.
* C50 nesting depth bounded by the schema alone: the measure of C01 turned into a number in a mixed base (Proofs/Depth).
* C22 fatal errors are not masked: induction; false for map keys (witness), `_partial` for schemas whose keys use no names,
  or names and generic parameters that lead only to rules that exist (`Spec/KeyReach.lean`).

Single types
* C04, C05 prelude types and literals: case analysis against a predicate on values.
* C06, C07 choice: induction on the option list.
* C08 ranges, C09 integer controls, C10, C11 size: case analysis and arithmetic; C10 needs a bit-length lemma.
* C32 .cbor, C33 &group: unfolding equations and list lemmas; Spec/Choiceify says which types a group lists.
  C33_map_entry: the same among the entries of a map, where the working copy is handed on.

Arrays and maps
* C12 records, C13 keys ignored: induction on the entry list / simulation on the budget (Proofs/Sim).
* C14 occurrence counts: induction on the array; false for upper bound 0 (witness).  `C14_exact` gives the verdict for all
  limits, the wrong ones included.
* C15, C16 soundness: Spec/Sat is a declarative meaning of the internal tree in the manner of RFC 8610 (slices of arrays,
  collections of pairs, cuts of literal keys), with no notion of order of matching.  Acceptance implies that meaning
  for every schema in which what is tried can be undone (Spec/Rollback; decided by `RuleTable.undoable`,
  Spec/Undoable), by induction on the budget with a frame property of working copies (Proofs/Undo, Sound*).  False
  in general, with witnesses, also from text to verdict (`C15_json_str_refuted`).
* C49 completeness: for schemas in which the next element or key decides (Spec/Predict; decided by
  `RuleTable.predictive`), a mismatch implies that the data is not described; with C15 the verdict is exactly the
  meaning (`C49_exact`).  `C49_refuted` shows that some such condition is necessary.
  Optional entries may take a key that the description left to a later wildcard: the proof carries the pairs already taken
  away along the derivation (`MatchFine`, Proofs/PredictMain).  The key search swallows every error, so checking a key must
  not fail with anything but a mismatch; `Guard` (Proofs/Guard) is what is needed for that, and it is given by plain keys
  (C49) or by a plan (Proofs/TidyGuard, used by C54 to C56 with `RuleTable.decisive`).
* C54 only mismatches: Spec/Tidy says what may stand where, relative to a plan of what rules and parameters are used for; by
  induction on the budget nothing else is ever looked at (Proofs/Tidy).  `RuleTable.tidy` computes a plan and checks it;
  ranks of rules show that the recursion limit is not reached.  `C54_exact`: with C15 and C49 the answer is yes exactly
  for the data described.
* C55 recursion through arrays and maps: the same plans, with ranks that count only the rules used before the next array or
  map; below each array or map the rank is bounded by the slack, so the depth is at most rank + slack * height.
* C56 from texts to verdicts: the grammar, the translation of trees, the conversion of data and the meaning of tables put
  together; C51 without the errors left open there.
* C51, C52 loosening and rewriting schemas: Spec/Wider relates schemas; the meaning is monotone in it, by structural recursion
  on derivations of `Sat` (Proofs/Wider); C15 and C49 carry that over to verdicts.  `C51_refuted` without their tests.
* C17 failed alternatives leave no trace: false in general (witnesses), `_partial` for atomic entries.  Choices between
  tuples in arrays and between records in maps are described in full, without tests (Props/C17Alt).
* C18, C19, C20, C21 maps: induction on the member list with lemmas on sorted maps (Proofs/VMap, Field, Collect).
* C34 unwrap and inlining: unfolding equations; `C34_nested_group_refuted` marks the border.
* C57 names: Spec/Rename renames trees and translated rules; translation commutes with renaming (Proofs/Rename), and renamed
  tables are related by the congruence of C26, which compares messages too.
* C58 `.regexp`: equations for the control, iff for its translation (the regex library is a parameter), and the two joined for
  whole texts.
* C59 messages: Spec/Message says how parts of a schema are written; for tuples and records all answers are given by two
  inductive relations, `TupleSays` and `RecordSays`, and the validator is shown to give exactly the answer so described.
* C60 errors of translation: Spec/SyntaxError lists what can be wrong with each part of a tree, first fault first; both
  directions by structural recursion (Proofs/FlattenError), and a recursion on the grammar for which errors texts can have.
* C61 errors of validation: Spec/Fault lists the parts of a schema that make no sense where they stand, with the message.
* C62 errors of the parser: Spec/Blame lists the literals that cannot be represented and the places where reading can end;
  each parser is shown to blame only these, from the bottom up (Proofs/Blame).
* C63 notations: Spec/Notation relates trees that say the same; flattening both gives the same rules, or rules of the same form
  for which the simulation of Proofs/Cong applies.
* C64 repetitions: working copies only shrink, counting what can be given back (Proofs/Takes); Spec/Takes says which entries take
  something.
* C65 reading: Spec/Reads is a big-step semantics over unchanged data, shown deterministic; the validator follows it, by induction
  on its budget (Proofs/Reads), with the facts of Proofs/SoundMain that failed attempts are undone.
* C66 backtracking: Model/Calls is the parser with a counter of calls of `type2`; forgetting the counter gives the parser
  (Proofs/Calls).  The bounds are by induction on the depth of nesting.
  The count is checked as in C69: C66_none_left_out and C66_none_invented.
* C67 using up: Spec/Tries is like Spec/Reads, but carries the data and what the innermost group has noted through failures
  as well; no condition on schemas.  The snapshots of the working copy are the notes of the groups that are open.
* C68 calls of the parser: a text is worth two calls for each character, and what stands behind a parenthesis or a quote is
  worth twice as much.  Every parser is shown either to have paid for its calls with what it has read, or to have stopped
  at a character at which all parsers to come stop as well (Proofs/Linear).  The second reading of a group in parentheses,
  and of what stands behind a byte string taken for a group name, is paid for by the doubling.
* C71 calls in general: each level of calls multiplies their number by at most the size of a rule or the breadth of the
  data (repetitions end with the data, by the test and induction on the step budget), and C50 bounds the levels.
* C72 sizes: by recursion on the derivation of the text in the grammar (Proofs/TextSize), then C50 and C71.
* C73 without `ciborium`: two comparisons of the budgeted functions, one for equal answers (Proofs/Bare) and one for equal or
  `Unsupported` (Proofs/BareYields); that it always returns by the depth of calls (Proofs/BareReturns).
* C74 writing out: a relation between nodes in two scopes (Proofs/WriteOut): the scope on the left binds the parameters that
  are replaced, that on the right may bind fewer.  All seven functions give related answers for related nodes, for every step
  budget on the left.  `RuleTable.expand` is shown to give such a pair of tables (Proofs/Expand), and
  to be defined where generic rules are ranked, by induction on rank and node (Proofs/Removable).
* C75 a schema for one datum: induction on the datum; arrays by C12, maps by following the entries through the working map
  (Proofs/Own), where the search for a key finds the one key that its type accepts; the text by C42 and the translation.
* C76 alike data: the budgeted functions are compared on two data, with the two working maps drawn from one set of pairs of
  entries that is ordered alike on both sides (Proofs/Alike); that a text has only writable literals by recursion over the
  grammar and the translation (Proofs/AlikeText).
* C81 data that passes the same tests: as C76, with the tests of the schema in place of its literals (Proofs/Akin); working maps
  are kept sorted, so that a literal key is found by equality alone.  Exactness by one node for each test.
* C82 other texts in schema and data: the budgeted functions are compared on the schema and the reworded schema, with errors of the
  same sort (Proofs/Reword).  The two working maps hold the same pairs, in any order; the order is needed only by the search
  for a key that is not a literal.  The translation is followed through all of Model/Flatten, and the rewritten schema is
  printed with C42 (Proofs/RewordTree).
* C83 what the libraries are asked: the budgeted functions are compared under two sets of libraries, with working copies whose
  elements stay in the set of data met (Proofs/Asked).  For the printing of floats, C82's comparison is used with all texts
  unchanged.
* C84 rules that cannot do without themselves: by induction on the step budget, no call on a node that needs one of the rules
  succeeds (Proofs/Endless).
* C85 nothing unmatched: what is no longer in the working copy has been matched, which rewinding and committing keep true
  (Proofs/Stands).  For maps this needs that keys are unique, as rewinding overwrites.
* C86 nothing missing: a success on a working copy that holds only elements or pairs of the data has used some of them
* C87 height of accepted data: with C85 at a given budget, the height of data is below the budget, which C50 bounds; without
  parameters, below the brackets of the rules that can still be looked up (Proofs/Reach).
* C88 size of accepted arrays and maps: each function leaves all but so many elements, after success and after failure; rewinding
  only adds (Proofs/AtMost).  From below: nothing ever grows (Proofs/Takes), so what has been taken before success counts
  (Proofs/AtLeast).
* C89 what JSON cannot express: the values of JSON have no bytes and only texts for keys; with C86 by induction on what the type
  cannot do without.
* C90 keys asked for twice: the pairs with keys of a kind are counted; nothing that is taken comes back except by rewinding to
  where it was there (Proofs/Twice); a map has each key once.
* C91 elements and keys of a kind: as C88, counting only those (Proofs/Kinds).
* C92 contradictions that cannot be avoided: induction on what cannot be done without, as C89, from C86 (Props/C92).
* C70 depth of the parser: recursion passes through `type2` and `group`, and only after an opening bracket has been read
  (Proofs/ParseDepth); nested arrays and maps need all of the bound.
* C69 calls of the validator: Model/Cost counts the calls next to Model/Validate.  The upper bound keeps an account of what
  the options still to come may spend on each value; it holds for every step budget, by induction (Proofs/Frugal).  The lower
  bounds are by induction on the depth of the data, and on the number of keys that are left (C69_square).
  That the count is right is proved against Model/Validate one call deep: answers that differ only in calls that are not
  counted give the same result (C69_none_left_out), and a counted call that panics makes the caller panic
  (C69_none_invented).

Names and generics
* C23, C24 generics: derive/lookup; C24 against substitution, and invariance under renaming (Spec/Cong, Proofs/Cong).
* C25, C45 recursion limit: induction on the chain / on the depth of data.
* C26 reachable rules: simulation by induction on the budget.  C27 missing rules: direct, and for every place where
  validation begins with a name (Spec/Uses).
* C79 stacked contexts: the stack of two tables is the table of both; C26 for what is not reached.

Data
* C28, C29, C30 conversions: structural induction against relations between data (Spec/Convert).
* C31 order: structural induction on pairs and triples of values; `C31_order` says what the order is (variant,
  then number, sign and magnitude of a float, UTF-8 bytes of a text, first difference of a list), stated in
  Spec/ValueOrder without the model's comparison.

Schema text
* C35, C36, C37, C46 flatten: structural induction on the syntax tree; C46 characterises flatten exactly by a
  declarative translation (Spec/Syntax).
* C38 slice variants: simulation of the two parsers.
* C39 parsing returns: progress lemmas for each parser.
* C47 parser soundness: every parser yields only what the grammar (Spec/Grammar) derives.
* C42 round trip: every strict layout of a printable tree is parsed to that tree (Proofs/ParseRun*), printing gives a
  layout, every parsed tree is printable (Proofs/ParseImage*).
* C40 white space: two runs of the parser, on texts that differ in one gap outside of literals (Spec/Outside), are related
  step by step: both before the gap, or both at the same place behind it (Proofs/Gap*); likewise for white space put in
  behind punctuation (Proofs/Join*).
* C53 joining: the run on the joined text is compared with the run on the first text alone. As long as a bracket is open
  neither reaches the end of the first text, by counting brackets outside of literals (Proofs/Level, Balanced); outside of
  all brackets the two runs agree up to what lies behind the last whole rule (Proofs/Cat*).
* C77 unsupported features: an automaton that knows whether it is in a literal or a comment and whether a slash came last
  reads every text the grammar derives (Proofs/Alphabet); operators by recursion on the translation (Proofs/FlatOps).
* C78 brackets: likewise, with a stack of the brackets that are open (Proofs/Nesting); one bracket more or less changes the
  number of brackets that are open at the end, and the bracket asked for last is the one that must come.
* C41 integer literals; one that does not fit makes the parser give up at once, in every text that is read without trouble
  up to it (`Spec/Malformed.lean`), except at the two places where the code discards the error; C43 the slices cover the text.
* C80 the same for every kind of literal, with the error it gives: by recursion on the place of the literal (Proofs/Malformed).

Whole program
* C44 entry points: composition, against stages written out in Spec/Stages.
* C48 error texts: the prefix of the text tells the error.

## 5. Trusted base

* The Lean 4.33 kernel, and only the axioms `propext`, `Classical.choice`, `Quot.sound` (AXIOMS.md lists them per theorem).
* That the model follows the Rust code.  It was compared by reading; in addition every assertion of the tests of the
  crate (tests/json_cddl.rs, tests/cbor_cddl.rs, tests/cbor_ivt.rs, tests/errors.rs, the unit tests of the parser and
  of flatten, the examples in the documentation) holds in the model (lean/Verif/Tests, checked by the kernel).
* The behaviour of nom, BTreeMap, HashMap, VecDeque, `hex` and of derived `Ord`/`Display` as documented.

## 6. Disagreements between code and intended behaviour

Each is a behaviour of the code reproduced by the model; the theorem proving it is named where there is one.

Validation
1. An upper limit of 0 is treated like 1: `[0*0 int]` accepts `[5]`.  C14_upper_zero_refuted, C14_exact, C20_upper_zero.
2. Snapshots do not nest: a nested group that succeeds forgets what it took, and the alternative around it, when it then fails, cannot give
   back what it took.  `[(int,), tstr // int]` accepts `[1, 2]` and `[inner, tstr // int, int]` with
   `inner = (int,)` rejects `[1, 2]`.  Maps alike.
   C15_nested_group_refuted, C15_json_str_refuted, C16_nested_group_refuted, C17_array_refuted, C34_nested_group_refuted.
   C67 says exactly what is given back and what is not.  C88_failed_options: an array longer than any option allows.
3. `~x` takes no snapshot, so `[~x / int]` and the like keep what a failed `~x` took.  C15_unwrap_refuted, C16_unwrap_refuted,
   C17_map_refuted.
4. A repetition with lower limit >= 2 as an option of a choice keeps what it took (C15_repetition_refuted; only in
   hand-made trees, parsed text cannot contain it).
5. `map_search` ignores every error while looking for a non-literal key, so `{* nosuchrule => int}` gives a mismatch or
   even acceptance instead of MissingRule.  C22_map_key_refuted.
6. `bstr .cbor t` on bytes that do not decode is a fatal error even inside a choice.  C32_undecodable.
7. `[* ()]` and `[* (? int)]` loop `usize::MAX` times (this ends in the model, but not in practice).  C64_idle, C64_refuted, C71_idle.
8. Matching is greedy: `[* int, int]` rejects `[1, 2]`.  C49_refuted.  (RFC 8610 appendix A describes such a matching, too.)
9. A cut inside an alternative of `//` does not stop later alternatives, as the group erases it.  C03, C21.
10. Floats are compared by bits for literals (`0.0` does not match `-0.0`), and NaN is in no range.  C05, C08.
11. `~int` and generic arguments on prelude names give GenericError; messages of range and control errors sometimes
    name another operator than the one written: `.le` on nint says ".lt", `.gt` on int says "over .ge", and `.gt` and
    `.ge` on nint and `.ge` on int say "over" where the number is under the limit.  `[3* int]` is written in messages as
    `3*18446744073709551615`.  C59.

    Added later, so that the numbers stay: 23. Among the entries of a map, `&g` throws away the keys of its members, but
    `&( ... )` keeps them: `{&(p: ga, q: gb)}` refuses what `{&g}` with `g = (p: ga, q: gb)` accepts.
    C33_map_inline_refuted.

Names
12. Prelude names cannot be shadowed by rules or parameters.  C37.
13. Of two rules of one name the last one counts, silently.  C36.
14. Rule references nest at most 50 deep, whatever the data, so data nested 51 deep under `t = [* t]` is reported as a
    structural error.  C25, C45; C55 says up to which height that cannot happen.

Parsing
15. `schar`/`bchar` stop at 0x10FFD (a typo for 0x10FFFD): text literals with characters such as U+1F600 do not parse.
16. The literal -9223372036854775808 is refused as MalformedInteger, so no schema text tells this integer from those below it.  C76_integers.
17. `{a: 99999999999999999999}` is reported as Unparseable, not MalformedInteger; `[99999999999999999999.5]` is refused though
    `x = 99999999999999999999.5` is not.  The same holds for other literals that are refused,
    as in `{a: h'0'}`.  C41_refuted, C41_alternative_refuted, C80_swallowed, C80_integer_part.
18. `x = a: int` and `x = 3*5 int` do not parse; `(a,)` is a group where `(a)` is a type; `a..b` is one identifier.
19. A comment ended by a lone carriage return makes parsing fail.
20. The slice of a group rule includes white space and comments behind it.
21. A group name in place of an entry never reaches the syntax tree as such (C42_image).
    Added later: 24. The text of a parse error is documented as a snippet of the input.  That of a hex string lacks the blanks,
    and that of generic arguments on a key is a fixed message.  C62_snippet_refuted.
    25. The comment above `grpent_member` says how 2^N iterations are avoided; nested groups in parentheses still take them.
    C66_exponential.  Without parentheses the comment is right: C68_linear; in general the
    factor is 2 for each parenthesis or quote: C68_bound.
    26. Options of a choice that begin alike are tried from the start, so validation takes exponential time in the depth of the
    data, also for data that is accepted.  C69_exponential; C69_quadratic for schemas where this cannot happen.
    27. The parser has no limit on its recursion (the validator stops at 50), so deeply nested text overflows the stack.
    C70_unbounded; C70_enough bounds the depth by the number of opening brackets.
    28. Built without the feature `ciborium`, `.cbor` in the key of a map does not say so: the data is turned down as not
    matching.  C73_key_refuted.

Data
22. CBOR maps with duplicate keys keep the last pair; CBOR tags are refused.  C28.
    Added later: 29. The names of the prelude for tagged data (`tdate`, `biguint`, ...) are documented as not implemented.  They
    are not refused, but read without the tags, so `tdate` accepts any text.  C77_tags_dropped.
    30. The two schemas that the documentation of `Array` calls allowed (src/ivt.rs:331-338) do not parse; they have `=` for `:`.
    doc_array in Tests/Docs.
    31. An error in a key, also the recursion limit, counts as a key that does not match, so `{* key => int}` turns down data that
    it should accept, or report, if it stands behind fifty names.  C74_key_names.
    32. Whether data is accepted can depend on the alphabetical order of its keys: `{tstr => int, "b" => tstr}` accepts
    `{"a": 1, "b": "x"}`, but with `a` and `b` exchanged in both the data is turned down.  C82_order_refuted.
