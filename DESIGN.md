# Formal model of hcl-rs: design

The code under study is the Rust workspace in `/repo` (`hcl-primitives`, `hcl-edit`, `hcl-rs`,
`hcl2json`). It is read as text; nothing is built or executed. The model and the proofs are in
`lean/Verif/`. Files under `lean/Verif/Model/` transcribe the code function by function, each
definition citing the file and lines it models. Files under `lean/Verif/Spec/` contain small
specifications written without reference to the model. Files under `lean/Verif/Lemmas/` contain
helper lemmas. Files under `lean/Verif/Props/` contain the property theorems (one theorem or small
group per property `Cnn` of `properties.jsonl`) together with non-vacuity examples and, where the
real code violates the property, a theorem proving the violation on a concrete witness
(`Cnn_..._fails`) plus the strongest `_partial` theorem proved.

## General modelling choices

* Text is `List Char`. Rust's `&str` byte offsets become character offsets. All offsets in the code
  lie on character boundaries, so slicing is the same; the one place where bytes matter (the column
  of an error inside a multi-byte character) is modelled on bytes.
* A function with `&mut` state becomes a function returning the new state. A loop becomes structural
  recursion, or recursion on a fuel argument together with a proof that the fuel supplied by the
  top-level function is sufficient.
* A panic is an explicit error value of the model's result type. Integer overflow is modelled as a
  panic (debug profile) and, where it matters, as wrap-around (release profile).
* Parser combinators (winnow) are modelled as functions `Input → Result` with three outcomes: ok,
  backtrack, cut. The semantics of the combinators used is part of the trusted base.
* `f64` is modelled concretely: a double is NaN, an infinity, or a sign, a mantissa below 2^53 and
  an exponent, with correctly rounded (nearest-even) operations computed over integers.
* The Unicode predicates `XID_Start`, `XID_Continue` and `char::is_whitespace` enter as parameters
  (a structure of predicates) with the few facts used stated as explicit hypotheses in it.
* Hash maps whose iteration order is not observed are association lists.

## Plan per property

| id | modelled | proof |
|----|----------|-------|
| C01, C02 | `ident.rs` | induction on the string; spec = grammar predicate |
| C03, C04 | `expr.rs` operators | complete case analysis; `FromStr` over all strings |
| C05, C06 | `template.rs` escape/unescape | violation witness; partial theorem: strings in which a marker is not directly followed by `$`/`%` |
| C07–C12 | `number.rs` over the concrete f64 | violation witnesses; partials with the exact side conditions |
| C13, C14 | `encode_quoted_string`, `string` | induction on the string; violation witnesses |
| C15 | `trivia.rs` | induction on the input; spec = inductive trivia grammar |
| C16, C17 | whole parser | fuel sufficiency, consumption invariant by induction on fuel |
| C18, C53 | whole parser + encoder + despan | violation witnesses for every lossy construct; partial theorem under explicit conditions |
| C19 | pratt 0.4 algorithm + `pratt.rs` | induction on the chain; violation witness for non-associative chains |
| C20 | body parser | invariant of `BodyParseState` |
| C21, C22 | `structure/body.rs` | invariant over operation sequences, refinement to a list/map spec |
| C23 | `util.rs`, `HeredocTemplate::dedent` | induction over lines; violation witness |
| C24 | `visit.rs` | structural induction; violation witness |
| C25 | equality impls | structural; violation witness |
| C26 | `locate_error`, the layout of a displayed error | arithmetic on byte lists |
| C27, C28 | conversions | structural induction; violation witnesses |
| C30–C33, C52 | `format/*`, `util.rs` | structural induction on the formatted tree |
| C29, C51 | `format/*` + parser | the formatted text is a spelling in the sense of `Spec/Syntax.lean`, by structural induction; then C61 |
| C34–C45 | `eval/*` | structural induction; specs = map/filter/group functions |
| C46, C47 | `json_spec.rs` | induction over bodies; violation witness |
| C48, C49, C57–C60 | `ser/*`, `structure/ser`, `expr/ser`, `value/ser` | everything a `Serialize` implementation can do is a tree; predicates closed under the operations of the serializers, by induction on the tree; violation witnesses |
| C61 | the whole of `parser/*` | the grammar as a relation between trees and texts (`Spec/Syntax.lean`), including quoted templates, heredocs and directives; the parser runs on every spelling, by induction on the derivation and on the recursion depth; what it returns is compared with the spelled tree by `Spec/Means.lean`, in which the text of a template counts by the elements it spells |
| C65 | everything from `to_string` to `from_str` | induction on the data: what is serialized is printable, its JSON nodes merge to an expression that is deserialized to the same data; then C51 |
| C66 | both deserializers and `From<Value> for Expression` | by C67, what is accepted from a value is described by `Reads`; induction on that |
| C67 | `from_value` for user types | soundness by induction on the depth of the recursion, completeness by induction on the description `Reads`, and every deserialization ends by induction on the type |
| C68 | `Deserializer for Expression` and `from_body` for user types | like C67, with the description `ReadsE`, for object keys of every form (`ReadsKeyE`, `Denotes`: a field is named by text or by its position); operations read by their parts with `ReadsOp` |
| C69 | where the parser accepts line breaks | the grammar of C17 carries the flag of the parser for line breaks; induction over it for texts without brackets |
| C70 | the macros `expression!`, `value!`, `body!`, `attribute!`, `block!` | rewriting of token trees, rule by rule; a separate relation between trees and tokens, induction over it |
| C71 | mutable visitors with overridden methods and state | a generic relation over the parts of a node (`parts`, `shell`), shown to determine the result; induction over documents |
| C72 | iterators and builders of `hcl-rs`, label matching of `hcl-edit` | the rest of the items as state, simulation by a row of filtered items; induction over the calls |
| C73 | the evaluator with the expressions attached to contexts and errors | simulation of the plain evaluator (`C73_same`, `C73_complete`), with an invariant on the errors; induction on the fuel |
| C74 | the container operations of `Object` | entries as a list; a separate account of what a history stores for each key (`Known.history`); induction over the history |
| C75 | the trees of the parser | induction over the grammar of C17: keys are compared before spans are resolved, and resolving does not change keys without whitespace; violation witnesses |
| C76 | the evaluator with the parser and the conversion of templates | a measure on texts (braces, letters `u`/`U`, control characters) that no printing of a parsed tree increases, by induction over the grammar of C17, and that a template in an interpolation has less of; well-founded recursion over parts; panics by induction over the fuel |
| C77 | the encoder, the operations on bodies, the parser | relations "the same tree except for one part"; for any tree by induction over them; for parsed documents by recursion over the grammar of C17, like C18, with offsets; witness for numbers changed in place |
| C78 | in-place evaluation with the expressions attached to contexts and errors | simulation of in-place evaluation from some depth of recursion on, by structural induction with C44 for the parts evaluated before, C73 for the errors of plain evaluation and C76 for its end |
| C79 | plain and in-place evaluation in two contexts, one extending the other | simulation of evaluation in the larger context; structural induction on in-place evaluation with congruence of evaluation in the larger context; violation witness |
| C80 | in-place evaluation in two contexts, one extending the other | structural induction; what was evaluated without errors is the expression of a value, which in-place evaluation keeps; violation witness |
| C81 | the `hcl2json` tool over the models of the parser, in-place evaluation, deserialization and the parallel map (`Model/Tool.lean`) | induction over arguments and walks, composition with C44, C50, C63 and C79; violation witnesses |
| C82 | parser, conversion and formatter; the contents that are kept (`Spec/Reformat.lean`) | everything that can be read is printable, by induction over the grammar of C17; for templates, that no literal follows another one, by induction over the recursion depth of the parser; composition with C51 and C83; violation witnesses |
| C83 | formatter, template parser and conversion; the templates that are kept (`Spec/TemplateText.lean`) | the text spells the template, by induction over the template; composition with C61 and C43; violation witnesses |
| C84 | `eval::from_str` and `eval::to_string` for bodies (`Model/EvalText.lean`), on top of parser, evaluator, (de)serializer and formatter | induction over bodies; composition with C17, C51, C58, C63, C68 and C28; violation witnesses |
| C85 | `Display` of `ErrorKind`, `Error`, `Errors` and `ParamType`, the messages of `FuncDef::call` (`Model/EvalMessage.lean`) | every part of a message ends by itself: values because the parser stops behind them (C61, C29), types by induction over their text; violation witnesses |
| C86 | `FuncDefBuilder`, `FuncDef::new`, `FuncArgs` (`Model/EvalFuncDef.lean`) | induction over the calls of the builder, then C40 |
| C87 | `From`/`FromIterator` for `Value` and `Expression` (`Model/From.lean`) | induction over the data, on top of the serializers of C57–C60 and the numbers of C09 |
| C88 | the accessors of `Value` (`Model/Accessors.lean`) | cases, with C12 for numbers; violation witness: `is_i64` is false for every integer that is not negative, against its documentation |
| C89 | `From<Attribute>`, `From<Block>`, `From<Structure>` and `From<Body>` for `Value` (`Model/StructValue.lean`) | induction over labels and over the structures of a body, on top of the model of C46 |
| C90 | evaluation (`Model/Eval.lean`, `Model/Body.lean`); places are given by the relations of `Spec/Exchange.lean` | induction over the place; the expression that an error reports is not compared, see C73 |
| C91 | evaluation (`Model/Eval.lean`); renaming is the relation of `Spec/Rename.lean` | mutual induction over the renaming; contexts are related by what they know each name as |
| C92 | builders of calls, traversals, `for` expressions, templates and directives (`Model/ExprBuild.lean`), sequences of calls as lists of steps | induction over the steps from the last; evaluation of traversals in parts by C39 |
| C93 | `format_context_error` (`Model/ErrorMessage.lean`); the notes are arguments, with the texts they display as: which parser notes what is not modelled | induction over the expectations |
| C94 | accessors of `hcl-edit` expressions (`Model/EditAccessors.lean`), conversions (`Model/Convert.lean`) and equality (`Model/EditEq.lean`) | by cases of the expressions |
| C95 | operations of `Array` and `FuncArgs` (`Model/EditSeq.lean`); capacities are not modelled | induction on the history, positions by the laws of lists |
| C96 | accessors of `Structure`, changes through `StructureMut` and `AttributeMut` (`Model/EditInPlace.lean`); a mutable reference is modelled by the change made through it; `Body::get_mut`, for which C21 has a counterexample, is left out | induction on the history; the operations bring in no structures but those they are given |
| C62–C64 | `de/*`, `expr/de.rs`, `value/de.rs`, `structure/de.rs` | a deserializer is a function from a request to an event, a type is a tree of what a derived implementation asks for; induction on the type and the data, violation witnesses |
| C54 | `eval` of templates in place | simulation of evaluation; violation witness |
| C55 | `Display` of trees of `hcl-edit` with any decor, read back by the parser | the printed text is a spelling (relation of C61) of what the tree converts to, by induction over the tree (`Spec/Decorated.lean` says for which trees); violation witnesses |
| C56 | equality impls | structural induction over pairs and triples of trees |
| C50 | `hcl2json` `bulk_convert` | indexed parallel map over any schedule (permutation of indices) |

## Trusted base

* Lean 4.33.0's kernel. Every theorem depends on `propext`, `Classical.choice` and `Quot.sound` at
  most; many depend on fewer. No axioms are added, and there is no `sorry`, `native_decide` or
  `bv_decide`. `decide +kernel` is used for concrete examples and witnesses only: the kernel
  evaluates them.
* The correspondence between the Lean definitions in `Model/` and the cited Rust lines, by reading.
  `scripts/conformance.py` runs the model's parser and encoder on the inputs of the repository's own
  parser tests, and `scripts/citations.py` checks that the files and lines cited exist. Both are
  tests of the model, not proofs.
* External code, modelled from its documented behaviour and not verified:
  * winnow 1.0 combinators (`Model/Winnow.lean`): ok, backtrack and cut; `repeat` and `separated`
    with their check for parsers that do not consume; `take_until`, `escaped_transform` as used.
  * pratt 0.4 (`PrattParser::parse`, modelled in `Model/EditParser.lean`).
  * vecmap-rs and indexmap: insertion order, replacing the value and keeping the key.
  * serde's data model (`Serializer` and its default methods, the derived implementations for the types
    of this crate, `Serialize for VecMap`), the derived and the standard library's `Deserialize`
    implementations (what they ask for, which events they accept, unknown fields ignored, missing fields
    an error except for `Option`) and `serde::de::value` (`Model/De.lean`), rayon's indexed parallel iterator (C50: one slot per item, any order). `hcl2json` (C81): the file system, `walkdir` and `globset` are functions that do not change during a run; `serde_json::Value` is deserialized like the crate's `Value`.
  * ryu and the shortest decimal text of a double: the parameter `FmtEnv.showFloat`. itoa is modelled.
  * unicode-ident and `char::is_whitespace`: the parameter `Uni`, with the facts about ASCII that are
    used as fields of the structure.
  * Rust's `str` methods, and IEEE-754 arithmetic and correctly rounded decimal conversion (`Model/F64.lean`).
  * The Rust compiler's tokens and its parser for expressions in the macros (C70): the parameter `Rust` with the
    assumptions `Spec.Sane`: a literal or parenthesised expression ends where it ends, and `to_expression`,
    `to_value` and `String::from` of a literal give that literal. `Props/Macro.lean` has an instance.
* Simplifications:
  * Texts are lists of characters and offsets are character offsets. The one place where bytes matter,
    the column of an error, is modelled on bytes (`Model/EditError.lean`).
  * Writers do not fail. User functions in evaluation are pure functions. Memory and the depth of the
    call stack are not limited.
  * The parser's fuel is the length of the input plus one; that this is enough is part of C16, and so is that every greater bound gives the same results (`C16_depth`).
  * A panic of the parser inside `Template` conversions is treated as an error
    (`templateOrDefault` in `Model/Convert.lean`).
  * The visitor model lists the nodes that are passed to a method, for the methods in `Model/Visit.lean`.
  * A method of a mutable visitor (`Model/VisitMut.lean`) either replaces its node or calls the default function once
    and changes the result; methods for particular kinds of expressions and for plain values are not overridden.
  * Mutable references (`get_mut`, `iter_mut`, `value_mut`, ...) are modelled by the changes made through them
    (C21, C77, C95, C96).
  * The counters of the handle registries do not wrap around. A map that calls `serialize_value` before
    `serialize_key` (a panic) is not modelled.
* Not modelled: threads (except for the schedule in C50), attributes of serde's derive macros (`flatten`,
  `default`, untagged enums, ...), hand-written `Deserialize` implementations outside of this crate, error message texts (but those of parse errors, C26 and C93, and of evaluation errors, C85). Of `hcl2json`: parsing of the command line, the text of the JSON, warnings (C81).

## Disagreements between the code and the properties

Each is a theorem in `Props/` with a concrete witness. Where a property is false of the code, the
`_partial` theorem next to the witness gives the condition under which it holds.

| property | what the code does | theorem |
|----|----|----|
| C05, C06 | a `$` or `%` directly in front of a marker swallows the escaping of the marker: `${$a$${` | `C05_roundtrip_fails`, `C06_no_live_marker_fails`, `C06_literal_changed` |
| C07 | mixed-sign arithmetic goes through `f64`, or overflows and panics | `C07_add_inexact`, `C07_sub_panics`, `C07_mul_overflows` |
| C08 | negating a positive integer above `i64::MAX` wraps or panics | `C08_neg_panics`, `C08_neg_wraps` |
| C09 | a float without fraction outside of the `i64` range is clamped | `C09_clamps` |
| C10 | equality of an integer and a float rounds the integer, so it is not transitive | `C10_not_transitive` |
| C11 | division by zero and overflowing quotients panic | `C11_zero_divisor`, `C11_quotient_overflow` |
| C12 | `is_i64` is false for non-negative integers, in contrast to its documentation | `C12_is_i64_doc_fails` |
| C13 | strings with the markers of C05 do not survive encoding and parsing | `C13_roundtrip_fails`, `C13_not_a_string_fails` |
| C14 | a malformed escape in front of the closing quote is dropped silently | `C14_accepted_fails` |
| C15 | a lone carriage return inside a line comment makes it no comment | `C15_lone_cr` |
| C16 | `-9223372036854775808` panics in a debug build | `C16_debug_panics` |
| C17, C19 | the rest of `a == b == c` is read and dropped | `C17_operand_dropped` |
| C18 | nested quoted templates, heredocs in quoted templates and duplicate object keys are printed as text that does not parse; whitespace around operators, CRLF, escape sequences and more are not preserved | `C18_nested_template`, `C18_nested_heredoc`, `C18_duplicate_key_lost`, `C18_operator_space_lost`, ... |
| C21 | `get_mut` can rename a key to one that exists | `C21_get_mut_false` |
| C23 | dedenting removes content when a line is less indented, and re-indenting loses tabs, blank lines and CRLF | `C23_content_lost`, `C23_tabs_lost`, `C23_blank_line_lost`, `C23_crlf_lost` |
| C24 | the collection of a `for` directive is not visited | `C24_collection_fails` |
| C25 | equality ignores the `...` of a call, and compares some whitespace | `C25_expand_fails`, `C25_trailing_fails`, `C25_directive_fails` |
| C26 | the column counts bytes | `C26_column_wrong` |
| C27 | heredoc strip mode, strip markers of `else`, and unparsable template texts are lost in conversion | `C27_strip_mode_fails`, `C27_else_strip_lost`, `C27_unparsed_lost`, `C27_entry_lost` |
| C30 | compact objects have commas, others do not | `C30_false` |
| C32 | a reused formatter can start a body with an empty line | `C32_false` |
| C33 | a marker at the end of a text is not detected | `C33_false` |
| C41 | a one-of type without alternatives accepts nothing | `C41_false` |
| C44, C45 | evaluation in place differs when one key text is written in two ways, and may fail where `evaluate` succeeds | `C44_false`, `C44_fails_spuriously` |
| C46, C47 | blocks and attributes that clash by name are lost | `C46_false`, `C47_false` |
| C48 | an expression directly inside `Block<T>`, a structure in a field and an expression as a map key stay in the handle registry for ever | `C48_leak`, `C48_leak_structure`, `C48_leak_key` |
| C52 | printing and parsing the least `i64` panics in a debug build | `C52_smallest_panics` |
| C53 | decor of operators keeps its span instead of the text | `C53_operator_decor_spanned` |
| C54 | bodies of `for` directives are evaluated without the loop variables | `C54_false` |
| C79 | in place, entries whose keys are equal already merge: `{ "a" = true, (x) = false, ("a") = null }` with `x` unknown becomes `{ "a" = null, (x) = false }`, and so `{ a = false }` once `x = "a"` | `C79_false` |
| C80 | in place, an entry that fails can be overwritten by a later one with the same key: `{ "a" = x, ("a") = true }` reports `x` and becomes `{ "a" = true }`, which reports nothing | `C80_false` |
| C81 | with `--continue-on-error`, a directory that cannot be walked to the end is reported as ignored, but the files found before the error are converted | `C81_not_ignored` |
| C81 | `a = x` and `a = "$${x}"` give the same JSON, `{"a":"${x}"}`: a text cannot be told from an expression | `C81_ambiguous` |
| C82 | reformatting changes the meaning of `a = 1 .0` and of `a = - -0` and makes `a = {b = [1], -1 = 2}` invalid | `C82_changes_fails`, `C82_minus_fails`, `C82_valid_fails` |
| C82, C13 | displaying the template `$${$$${` changes its text | `C82_template_fails` |
| C83 | displaying a template escapes each literal for itself: the literals `$` and `{x}` are displayed as the interpolation `${x}`, and the literal `$` in front of an interpolation turns it into text; neighbouring and empty literals and the strip markers of an `else` that does not exist are lost | `C83_inject_fails`, `C83_dollar_fails`, `C83_literals_fails`, `C83_empty_fails`, `C83_else_fails`, `C83_markers_fails` |
| C84 | `eval::to_string` escapes not all markers: with `x` the text `%{%${y}`, it writes `a = "%%{%${y}"` for `a = x`, and reading that evaluates the variable `y`, a part of the data; other such texts give a document that cannot be read | `C84_inject_fails`, `C84_write_fails` |
| C85 | a missing key can look like the rest of a message; a function's own message can look like any other; line breaks in a message look like further errors; a `OneOf` without alternatives is called `any` but no argument is accepted for it | `C85_key_fails`, `C85_own_fails`, `C85_list_fails`, `C85_arguments_fails` |
| C55 | a `ForExpr` built from scratch prints `[for xin y : x]`; no parentheses are added around operands; a variable as object key prints like an identifier; after a template nested in a template the printer no longer escapes quotes; text inside the directives of a quoted template is escaped by the printer and not unescaped by the parser; the line breaks of a heredoc inside of a quoted template are escaped, so that it does not end; an `IfDirective` built from scratch prints `%{ifx }`, which this parser reads back but other readers of HCL take for the word `ifx` | `C55_for_fails`, `C55_parentheses_fails`, `C55_key_fails`, `C55_nested_fails`, `C55_directive_fails`, `C55_heredoc_fails` |
| C75 | keys are compared while whitespace in them is recorded as positions in the text: `{ ([ ]) = 1, ([ ]) = 2 }` has two entries whose keys compare equal; `-9223372036854775809` is read as a positive number in a release build and compares equal to two different numbers | `C75_keys_fails`, `C75_numbers_fails` |
| C57 | the number of a leaked handle comes out in place of the expression, so the output depends on earlier serializations; `to_value` from within a serialization gives `{ handle = n }` | `C57_history_fails`, `C57_to_value_fails` |
| C59 | `to_value` of an object expression with entries fails, and of a template wraps it in an interpolation | `C59_object_fails`, `C59_template_fails` |
| C60 | `to_value` rejects maps whose keys are numbers and accepts newtype variants whose names are not identifiers, `to_expression` the other way round; a map that mixes enum and string keys of the same text gives different values | `C60_number_key_fails`, `C60_variant_name_fails`, `C60_mixed_keys_fail` |
| C61 | arrays, function calls and `for` expressions leave the parser in a state in which line breaks are whitespace: in an object the next item may be taken for a continuation of the value, and in a body an operation may go on in the next line | `C61_items_fails`, `C61_lines_fails` |
| C51 | an object with the key `for` in front, or an array that starts with a variable `for`, is formatted with white space behind the word and then read as a `for` expression | `C51_for_fails`, `C29_for_fails` |
| C51 | the formatter separates object items by line breaks, and after a value with an array, call or `for` expression the next item is read as its continuation | `C51_items_fails` |
| C51 | a legacy index on a number is written without a blank and read as a float | `C51_legacy_index_fails` |
| C51 | the escapes in a quoted template are decoded by the parser and not written again by the formatter | `C51_template_fails` |
| C61 | an empty heredoc swallows what follows, up to the next line with the same delimiter: `heredoc_end` wants a line ending in front of the delimiter, but that one was consumed with the introduction | `C61_emptyHeredoc_fails` |
| C61 | a heredoc ends in front of a line that begins with the delimiter, even if more follows on that line | `C61_heredocLine_fails` |
| C61 | text between directives is never unescaped, even if the directives are in a quoted template; so a quote in such a text does not end the template | rule `Control` of `Spec/Syntax.lean` (marked "Deviation") |
| C51 | a `<<-` heredoc is formatted without its indentation, and read back as a `<<` heredoc | `C51_heredoc_fails` |
| C29 | a string value that looks like a template is written raw, which may be invalid or denote another string | `C29_templated_fails` |
| C29 | the smallest 64 bit integer is written as `-9223372036854775808`, and the parser panics on it in a debug build | `C29_min_fails` |
| C62 | an identifier made with `Identifier::unchecked` that is none is rejected by deserialization | `C62_unchecked_fails` |
| C63 | a `Value` is not deserialized from an object with a number, boolean or `null` as a key, and a variable as a key comes out as `${x}`; `Value::from` accepts the former and gives `x` for the latter | `C63_scalar_key_fails`, `C63_variable_key_fails` |
| C64 | `from_value` rejects newtype structs, or takes the first element of an array for them | `C64_newtype_fails`, `C64_newtype_array_fails` |
| C64 | `Some(None)`, non-finite floats, enum variants as keys (in expressions) and integers as keys (in values) do not survive | `C64_some_null_fails`, `C64_infinity_fails`, `C64_variant_key_fails`, `C64_integer_key_fails` |
| C65 | `Block<Vec<T>>` with one element or none is not read back, nor is a tuple variant in a `Block` or a document that is an `Option` | `C65_tuple_block_fails`, `C65_one_block_fails`, `C65_no_block_fails`, `C65_labeled_one_fails`, `C65_option_fails` |
| C66 | newtype structs are an array in a value and transparent in an expression; a struct variant given as an array is accepted only from a value; enums as map keys are accepted only from a value | `C66_newtype_fails`, `C66_struct_variant_fails`, `C66_enum_key_fails` |
| C68 | `from_str::<Option<T>>` and `from_str::<String>` fail for every document; `a = (1)` is not accepted for an integer | `C68_document_option_fails`, `C68_document_text_fails` and the example beside `C68_expression_rejected` |
| C69 | behind a tuple, a function call or a `for` expression, and behind a `.`, an expression goes on over a line break | `C69_tuple_fails`, `C69_dot_fails` |
| C70 | `a = -1` does not compile in `body!`, nor at the end of an object; `[, 1]` is accepted; a raw identifier as a label is taken with its `r#` | `C70_negative_fails`, `C70_leading_comma_fails`, `C70_raw_label_fails` |
| C77 | a number of a parsed document that is changed in place (`value_mut`, `DerefMut`, `visit_number_mut`) is printed as before, because the text that was read is kept; `format` has to be called too | `C77_number_fails`, `C77_number_document_fails`, `C77_number_format` |
| C77 | an expression inside of a quoted template that is replaced by one with a quoted template: the escape flag of the encoder is off behind it, so quotes in the rest of the template are printed without a backslash (the same cause as in C55) | `C77_template_fails` |
