{"id": "C01", "title": "Identifier validation accepts exactly the identifier grammar", "statement": "Ident::try_new(s) (and is_ident(s)) succeeds iff s is non-empty, its first character is XID_Start or '_', and every other character is XID_Continue or '-'; on success as_str returns s unchanged.", "quantifier": "every string over every choice of the Unicode XID tables", "why_tests_cant": "the set of strings is infinite; a test can only sample accepted and rejected names", "anchors": ["crates/hcl-primitives/src/ident.rs:Ident::try_new", "crates/hcl-primitives/src/ident.rs:is_ident", "crates/hcl-primitives/src/ident.rs:is_id_start", "crates/hcl-primitives/src/ident.rs:is_id_continue"]}
{"id": "C02", "title": "Sanitized identifiers are always valid and sanitizing is a no-op on valid ones", "statement": "Ident::new_sanitized(s) always passes identifier validation; if s already is a valid identifier it is returned unchanged; sanitizing twice equals sanitizing once.", "quantifier": "every input string", "why_tests_cant": "unbounded set of inputs, the interesting ones are exotic characters in first or later position", "anchors": ["crates/hcl-primitives/src/ident.rs:Ident::new_sanitized"]}
{"id": "C03", "title": "Operator spelling round-trips", "statement": "For every unary and binary operator, parsing its textual form (FromStr of as_str) yields the operator back, distinct operators have distinct spellings, and every string accepted by FromStr is the as_str of the result.", "quantifier": "all operators and all strings", "why_tests_cant": "the second half quantifies over all strings", "anchors": ["crates/hcl-primitives/src/expr.rs:UnaryOperator", "crates/hcl-primitives/src/expr.rs:BinaryOperator"]}
{"id": "C04", "title": "Binary operator precedence and associativity follow the HCL specification", "statement": "The precedence relation induced by BinaryOperator::precedence is the HCL spec's six-level table, higher binds tighter.", "quantifier": "all pairs of operators", "why_tests_cant": "finite but must be complete, and it is used by the parser for chains of any length", "anchors": ["crates/hcl-primitives/src/expr.rs:BinaryOperator::precedence"]}
{"id": "C05", "title": "Unescaping an escaped template literal gives the literal back", "statement": "unescape_markers(escape_markers(s)) == s.", "quantifier": "every string s", "why_tests_cant": "false for strings with a marker that immediately follows another marker, which a sampled test misses; only a proof over all strings separates the good inputs from the bad ones", "anchors": ["crates/hcl-primitives/src/template.rs:escape_markers", "crates/hcl-primitives/src/template.rs:unescape_markers"]}
{"id": "C06", "title": "Escaped literals contain no live template markers", "statement": "In escape_markers(s) every '${' or '%{' is preceded by an extra '$' / '%', i.e. a template parser reads the escaped text as one plain literal: no user data can start an interpolation or directive.", "quantifier": "every string s", "why_tests_cant": "an injection-style property: it is about the worst string, not a sampled one", "anchors": ["crates/hcl-primitives/src/template.rs:escape_markers", "crates/hcl-edit/src/parser/string.rs:escaped_marker"]}
{"id": "C07", "title": "Number arithmetic is exact on integers that fit", "statement": "For Numbers holding integers a and b, the value of a+b, a-b, a*b as a Number is the mathematical result whenever that result is representable in u64 or i64.", "quantifier": "all pairs of 64 bit integers", "why_tests_cant": "2^128 pairs; the wrong ones sit at the mixed-sign and overflow boundaries", "anchors": ["crates/hcl-primitives/src/number.rs:impl Add/Sub/Mul for Number"]}
{"id": "C08", "title": "Number negation is arithmetic negation", "statement": "-n denotes the negated value for every Number n, so the literal '-<digits>' denotes minus the digits.", "quantifier": "all Numbers", "why_tests_cant": "the failing values are above i64::MAX", "anchors": ["crates/hcl-primitives/src/number.rs:impl Neg for Number", "crates/hcl-edit/src/parser/expr.rs:neg_number"]}
{"id": "C09", "title": "Numbers built from floats keep their value", "statement": "Number::from_f64(x) is None exactly for NaN and infinities and otherwise denotes the real number x.", "quantifier": "all f64 values", "why_tests_cant": "2^64 bit patterns", "anchors": ["crates/hcl-primitives/src/number.rs:Number::from_f64", "crates/hcl-primitives/src/number.rs:N::from_finite_f64"]}
{"id": "C10", "title": "Number equality is an equivalence and agrees with Hash and the order", "statement": "== on Number is reflexive, symmetric and transitive, equal numbers hash alike, and partial_cmp returns Equal exactly when == holds.", "quantifier": "all triples of Numbers", "why_tests_cant": "needs the right triple near 2^53", "anchors": ["crates/hcl-primitives/src/number.rs:impl PartialEq for N", "crates/hcl-primitives/src/number.rs:impl Hash for N", "crates/hcl-primitives/src/number.rs:impl PartialOrd for N"]}
{"id": "C11", "title": "Number arithmetic never panics and never creates a non-finite Number", "statement": "a op b for op in + - * / % terminates without panicking and the resulting Number is finite.", "quantifier": "all pairs of Numbers and all operators", "why_tests_cant": "the panicking pairs (division by zero, overflow) are isolated points of a huge domain", "anchors": ["crates/hcl-primitives/src/number.rs:impl_binary_ops"]}
{"id": "C12", "title": "Integer and float accessors agree with the stored value", "statement": "as_u64 returns Some(k) only if the number denotes k, as_i64 returns Some(k) only if the number denotes k; From<u64>/From<i64> followed by the matching accessor returns the original integer.", "quantifier": "all integers", "why_tests_cant": "boundary conversions between signed and unsigned representation", "anchors": ["crates/hcl-primitives/src/number.rs:Number::as_u64", "crates/hcl-primitives/src/number.rs:Number::as_i64", "crates/hcl-primitives/src/number.rs:From impls"]}
{"id": "C13", "title": "Quoted strings survive encode and parse", "statement": "For every string value s, the quoted string emitted by the encoder is parsed back by the string parser as exactly s and nothing of the following input is consumed.", "quantifier": "every string and every following text", "why_tests_cant": "all Unicode strings, control characters, quotes, backslashes and markers in any combination", "anchors": ["crates/hcl-edit/src/encode/mod.rs:encode_quoted_string", "crates/hcl-edit/src/parser/string.rs:string"]}
{"id": "C14", "title": "Malformed escape sequences are rejected", "statement": "A quoted string containing a backslash that does not start a valid escape sequence is not accepted by the parser.", "quantifier": "every quoted string literal", "why_tests_cant": "where in the string the malformed escape occurs matters, and there is no bound on its position", "anchors": ["crates/hcl-edit/src/parser/string.rs:build_string", "crates/hcl-edit/src/parser/string.rs:escaped_char"]}
{"id": "C15", "title": "Whitespace and comment skipping is total and only skips trivia", "statement": "Skipping trivia always succeeds; the skipped text consists solely of blanks, (where allowed) line breaks and complete comments; it is maximal: what follows does not start with more trivia; single-line trivia never skips a newline outside a block comment.", "quantifier": "every input text", "why_tests_cant": "infinitely many nestings and sequences of comments and blanks", "anchors": ["crates/hcl-edit/src/parser/trivia.rs:ws", "crates/hcl-edit/src/parser/trivia.rs:sp"]}
{"id": "C16", "title": "Parsing always terminates with a result or an error", "statement": "parse_body, parse_expr and parse_template return Ok or Err for every input; no input makes the parser loop forever.", "quantifier": "every input text", "why_tests_cant": "termination over all inputs cannot be observed by running finitely many", "anchors": ["crates/hcl-edit/src/parser/mod.rs:parse_body", "crates/hcl-edit/src/parser/mod.rs:parse_expr", "crates/hcl-edit/src/parser/mod.rs:parse_template"]}
{"id": "C17", "title": "A successful parse consumes the whole input", "statement": "If parse_body/parse_expr/parse_template returns Ok, every character of the input has been consumed by the grammar in one left-to-right pass: no prefix, suffix or gap is ignored.", "quantifier": "every input text", "why_tests_cant": "must hold for all inputs", "anchors": ["crates/hcl-edit/src/parser/mod.rs:parse_complete"]}
{"id": "C18", "title": "Parse then print reproduces the document", "statement": "For every document that parses, printing the parsed body without modification yields the input text byte for byte (comments, whitespace, number notation included).", "quantifier": "every parseable document", "why_tests_cant": "the central promise of hcl-edit; holds or fails per combination of grammar constructs of any nesting depth", "anchors": ["crates/hcl-edit/src/parser/mod.rs:parse_body", "crates/hcl-edit/src/encode/structure.rs", "crates/hcl-edit/src/encode/expr.rs", "crates/hcl-edit/src/encode/template.rs", "crates/hcl-edit/src/repr.rs:Decor::despan"]}
{"id": "C19", "title": "Operator chains parse by precedence without losing operands", "statement": "The tree built for a chain t0 op1 t1 ... opn tn has exactly the operands and operators of the chain in order, higher precedence operators are nested inside lower ones and equal precedence arithmetic/logical operators associate to the left.", "quantifier": "operator chains of any length", "why_tests_cant": "chains have unbounded length", "anchors": ["crates/hcl-edit/src/parser/pratt.rs:parse_binary_op", "crates/hcl-edit/src/parser/state.rs:ExprParseState::on_binary_ops"]}
{"id": "C20", "title": "Parsed bodies never define an attribute twice", "statement": "In every Body returned by parse_body, at every nesting level, no two attributes have the same key.", "quantifier": "every parseable document", "why_tests_cant": "unbounded documents and nesting", "anchors": ["crates/hcl-edit/src/parser/structure.rs:structure", "crates/hcl-edit/src/parser/state.rs:BodyParseState::is_redefined"]}
{"id": "C21", "title": "Body mutation keeps attribute keys unique", "statement": "Starting from Body::new(), no sequence of insert/try_insert/push/remove/remove_attribute/remove_blocks/retain-like operations yields a body with two attributes of the same key; rejected insertions leave the body unchanged.", "quantifier": "every finite sequence of body operations", "why_tests_cant": "histories of arbitrary length", "anchors": ["crates/hcl-edit/src/structure/body.rs:Body::insert", "crates/hcl-edit/src/structure/body.rs:Body::try_insert", "crates/hcl-edit/src/structure/body.rs:Body::push", "crates/hcl-edit/src/structure/body.rs:Body::remove"]}
{"id": "C22", "title": "Body lookup and removal are consistent", "statement": "get_attribute(k) returns the unique attribute with key k iff one was added and not removed; remove_attribute(k) removes exactly that one and leaves the relative order and content of everything else; get_blocks/remove_blocks select exactly the blocks with the identifier.", "quantifier": "every body and key", "why_tests_cant": "all bodies, all positions", "anchors": ["crates/hcl-edit/src/structure/body.rs:Body::get_attribute", "crates/hcl-edit/src/structure/body.rs:Body::remove_attribute", "crates/hcl-edit/src/structure/body.rs:Body::remove_blocks"]}
{"id": "C23", "title": "Heredoc dedent only removes indentation", "statement": "Dedenting a heredoc removes the same number of leading whitespace characters from each non-empty line and never removes a non-whitespace character; indenting the result again by that number restores a template indented with spaces.", "quantifier": "every heredoc template and indentation", "why_tests_cant": "lines, literals and interpolations in any arrangement", "anchors": ["crates/hcl-edit/src/util.rs:dedent_by", "crates/hcl-edit/src/util.rs:min_leading_whitespace", "crates/hcl-edit/src/util.rs:indent_by", "crates/hcl-edit/src/template/mod.rs:HeredocTemplate::dedent"]}
{"id": "C24", "title": "Visitors reach every node", "statement": "The default Visit implementation calls visit_expr for every expression occurring anywhere in the document, including those inside templates and directives.", "quantifier": "every document tree", "why_tests_cant": "trees of any shape", "anchors": ["crates/hcl-edit/src/visit.rs"]}
{"id": "C25", "title": "Equality is semantic: it ignores decor and nothing else", "statement": "Two hcl-edit values compare equal iff they are the same up to whitespace/comment decoration and spans.", "quantifier": "all pairs of trees", "why_tests_cant": "all pairs", "anchors": ["crates/hcl-edit/src/expr/func_call.rs:PartialEq for FuncArgs", "crates/hcl-edit/src/repr.rs:PartialEq for Decorated"]}
{"id": "C26", "title": "Reported error locations lie in the input", "statement": "The line, column and offset of a parse error are one-based/zero-based positions of the input: line is one more than the number of newlines before the offset and column counts characters from the line start. The displayed error shows the line of the error with a caret under the erroneous character.", "quantifier": "every input text and error offset", "why_tests_cant": "all inputs, including empty ones, ones ending in a newline, and multi-byte characters", "anchors": ["crates/hcl-edit/src/parser/error.rs:locate_error", "crates/hcl-edit/src/parser/error.rs:ErrorInner (Display)"]}
{"id": "C27", "title": "hcl and hcl-edit expression trees convert back and forth without loss", "statement": "Converting an hcl::Expression to hcl_edit::Expression and back returns the original expression.", "quantifier": "every expression tree", "why_tests_cant": "trees of any shape and depth", "anchors": ["crates/hcl-rs/src/expr/edit.rs", "crates/hcl-rs/src/template/edit.rs", "crates/hcl-rs/src/structure/edit.rs"]}
{"id": "C28", "title": "Values convert to expressions and back without loss", "statement": "Value::from(Expression::from(v)) == v for every Value v, and evaluating Expression::from(v) in any context yields v.", "quantifier": "every value and context", "why_tests_cant": "values of any depth, all contexts", "anchors": ["crates/hcl-rs/src/expr/mod.rs:From<Value> for Expression", "crates/hcl-rs/src/value/from.rs:From<Expression> for Value", "crates/hcl-rs/src/eval/impls.rs"]}
{"id": "C29", "title": "Formatted values parse back to the same value", "statement": "hcl::format of a Value (null, booleans, numbers, strings, arrays, objects) is valid HCL whose parse converts back to the same Value.", "quantifier": "every Value and every formatter configuration", "why_tests_cant": "unbounded values; strings with quotes, newlines and markers; keys that look like keywords", "anchors": ["crates/hcl-rs/src/format/impls.rs", "crates/hcl-rs/src/format/escape.rs", "crates/hcl-edit/src/parser/expr.rs"]}
{"id": "C30", "title": "Formatting options change layout only", "statement": "Compact/dense/indent options never change the sequence of non-whitespace tokens emitted.", "quantifier": "every value and pair of formatter configurations", "why_tests_cant": "all inputs and configurations", "anchors": ["crates/hcl-rs/src/format/mod.rs:FormatterBuilder", "crates/hcl-rs/src/format/mod.rs:Formatter"]}
{"id": "C31", "title": "Formatting leaves the formatter balanced", "statement": "After formatting any value, indentation depth, nesting stack and compact-mode level are what they were before, so brackets are balanced and later output is indented correctly.", "quantifier": "every value and every formatter state", "why_tests_cant": "nesting of any depth", "anchors": ["crates/hcl-rs/src/format/mod.rs:begin_array", "crates/hcl-rs/src/format/mod.rs:end_array", "crates/hcl-rs/src/format/mod.rs:with_compact_mode"]}
{"id": "C32", "title": "Formatting does not depend on what was formatted before", "statement": "Formatting a body with a formatter that has already been used gives the same text as with a fresh formatter.", "quantifier": "every pair of successive bodies", "why_tests_cant": "histories of a stateful object", "anchors": ["crates/hcl-rs/src/format/mod.rs:Formatter", "crates/hcl-rs/src/format/mod.rs:format_string", "crates/hcl-rs/src/ser/mod.rs:Serializer"]}
{"id": "C33", "title": "Template detection is exact", "statement": "A string is treated as a template (written unescaped) iff it contains an unescaped '${' or '%{' marker.", "quantifier": "every string", "why_tests_cant": "all strings, overlapping markers", "anchors": ["crates/hcl-rs/src/util.rs:is_templated"]}
{"id": "C34", "title": "Variable lookup is lexically scoped", "statement": "A variable evaluates to the innermost declaration; declarations in inner scopes neither leak out nor alter outer ones; evaluation depends only on the variables and functions that occur in the expression.", "quantifier": "every expression, every pair of contexts agreeing on the free names", "why_tests_cant": "all contexts and expressions", "anchors": ["crates/hcl-rs/src/eval/mod.rs:Context", "crates/hcl-rs/src/eval/impls.rs"]}
{"id": "C35", "title": "Conditionals evaluate only the selected branch", "statement": "cond ? a : b evaluates to a's result if cond is true and to b's if false, whatever the other branch is (even one that fails); a non-boolean condition is an error.", "quantifier": "all expressions and contexts", "why_tests_cant": "arbitrary subexpressions", "anchors": ["crates/hcl-rs/src/eval/impls.rs:Conditional"]}
{"id": "C36", "title": "Binary and unary operators are strict and typed", "statement": "Both operands are evaluated; logical operators accept only booleans, arithmetic and comparisons only numbers, ==/!= anything; every other combination is an error, never a value.", "quantifier": "all operator/value combinations", "why_tests_cant": "all values", "anchors": ["crates/hcl-rs/src/eval/expr.rs:evaluate_binary_op"]}
{"id": "C37", "title": "for expressions are map/filter/group", "statement": "A for-expression over an array or object yields exactly the images of the elements passing the condition, in order; for object results a duplicate key is an error unless grouping, which collects all values per key in order.", "quantifier": "all collections, bodies and contexts", "why_tests_cant": "collections of any length", "anchors": ["crates/hcl-rs/src/eval/impls.rs:ForExpr", "crates/hcl-rs/src/eval/expr.rs:Collection"]}
{"id": "C38", "title": "Splat operators distribute over elements", "statement": "x[*].t on an array maps the rest of the traversal over its elements, on null is [], on any other value is a one-element array; x.*.a.b[0] applies only the attribute accesses per element and the rest to the result.", "quantifier": "all values and traversals", "why_tests_cant": "traversals and arrays of any length", "anchors": ["crates/hcl-rs/src/eval/expr.rs:evaluate_traversal"]}
{"id": "C39", "title": "Indexing returns the addressed element or an error", "statement": "Indexing an array with a number i returns element i iff i is a whole number below the length, otherwise an error; attribute and key access returns the value of the key iff present.", "quantifier": "all arrays, objects and indices", "why_tests_cant": "all sizes and indices", "anchors": ["crates/hcl-rs/src/eval/expr.rs"]}
{"id": "C40", "title": "Functions are only invoked with arguments that satisfy their signature", "statement": "A call expression yields the implementation's result on exactly the evaluated arguments if the argument count fits the parameters (extra only with a variadic parameter) and every argument satisfies the declared parameter type; otherwise it is an error whatever the implementation is.", "quantifier": "all function definitions and argument lists", "why_tests_cant": "all arities and types", "anchors": ["crates/hcl-rs/src/eval/func.rs:FuncDef::call", "crates/hcl-rs/src/eval/func.rs:ParamType::is_satisfied_by"]}
{"id": "C41", "title": "Parameter types describe value sets", "statement": "ParamType::is_satisfied_by agrees with the reading of the type: any, bool, number, string, homogeneous array/object of the element type, nullable = null or T, one-of = union.", "quantifier": "all types and values", "why_tests_cant": "recursive types and values of any depth", "anchors": ["crates/hcl-rs/src/eval/func.rs:ParamType::is_satisfied_by"]}
{"id": "C42", "title": "Template strip markers trim exactly one line's whitespace", "statement": "A '~' marker removes, from the directly adjacent literal only, spaces up to and including at most one line break, and removes nothing else.", "quantifier": "all templates", "why_tests_cant": "all literals and marker positions", "anchors": ["crates/hcl-rs/src/eval/template.rs:strip_literal", "crates/hcl-rs/src/eval/template.rs:evaluate_template"]}
{"id": "C43", "title": "Template evaluation concatenates its parts", "statement": "A template without strip markers evaluates to the concatenation of its literals and the string forms of its interpolations in order; a template that is a single interpolation evaluates to the interpolated value itself.", "quantifier": "all templates and contexts", "why_tests_cant": "templates of any length and nesting", "anchors": ["crates/hcl-rs/src/eval/template.rs", "crates/hcl-rs/src/eval/impls.rs:TemplateExpr"]}
{"id": "C44", "title": "In-place evaluation agrees with evaluation", "statement": "If evaluate_in_place succeeds on an expression or body, the result is the expression form of what evaluate returns.", "quantifier": "every expression/body and context", "why_tests_cant": "all trees", "anchors": ["crates/hcl-rs/src/eval/impls.rs:evaluate_in_place", "crates/hcl-rs/src/eval/mod.rs:evaluate_nested_exprs"]}
{"id": "C45", "title": "In-place evaluation keeps going after errors", "statement": "evaluate_in_place on a body evaluates every attribute, even when others fail; it reports every failure, and attributes that do not fail are replaced by their value.", "quantifier": "every body and context", "why_tests_cant": "any number of attributes and failures at any position", "anchors": ["crates/hcl-rs/src/eval/impls.rs:Body::evaluate_in_place", "crates/hcl-rs/src/eval/error.rs:Errors"]}
{"id": "C46", "title": "JSON conversion keeps every block", "statement": "Converting a Body to JSON (HCL JSON spec) keeps, for each block type and label path, all blocks in order: a single block becomes an object, several become an array.", "quantifier": "every body", "why_tests_cant": "bodies of any size, interleavings of blocks", "anchors": ["crates/hcl-rs/src/structure/json_spec.rs"]}
{"id": "C47", "title": "JSON conversion keeps every attribute", "statement": "Every attribute of a Body appears in the JSON object under its key with the value's JSON form.", "quantifier": "every body", "why_tests_cant": "attribute/block name collisions are rare in samples", "anchors": ["crates/hcl-rs/src/structure/json_spec.rs"]}
{"id": "C48", "title": "Serialization state is restored", "statement": "The thread-local internal-serialization mode has the same value before and after every serialization, including nested and failing ones; every internal handle that is inserted is removed once, and handles live at the same time are distinct.", "quantifier": "every nesting of serializations and every failure point", "why_tests_cant": "histories and failure points", "anchors": ["crates/hcl-rs/src/ser/mod.rs:with_internal_serialization", "crates/hcl-rs/src/ser/mod.rs:InternalHandles"]}
{"id": "C49", "title": "Labeled block serialization nests labels in order", "statement": "Serializing nested maps as labeled blocks yields, per leaf, one block whose labels are the keys on the path from outermost to innermost.", "quantifier": "nested maps of any depth", "why_tests_cant": "any depth", "anchors": ["crates/hcl-rs/src/ser/blocks.rs", "crates/hcl-rs/src/structure/ser/mod.rs:serialize_labeled_blocks"]}
{"id": "C50", "title": "Bulk conversion keeps the input order", "statement": "hcl2json's bulk conversion returns results in the order of the matched files regardless of how the parallel map is scheduled; with --continue-on-error exactly the failing files are missing.", "quantifier": "every file list and every schedule", "why_tests_cant": "scheduling is nondeterministic", "anchors": ["crates/hcl2json/src/main.rs:bulk_convert"]}
{"id": "C51", "title": "Formatted expressions parse back to the same expression", "statement": "For every Expression tree obtainable from the parser, formatting it and parsing the text gives an equal tree.", "quantifier": "every expression tree", "why_tests_cant": "operators, parentheses, templates in any nesting", "anchors": ["crates/hcl-rs/src/format/impls.rs", "crates/hcl-edit/src/parser/expr.rs", "crates/hcl-edit/src/encode/expr.rs"]}
{"id": "C52", "title": "Numbers survive formatting and parsing", "statement": "Display of an integer Number is parsed back by the number parser as the same Number.", "quantifier": "all integers in range", "why_tests_cant": "2^64 values", "anchors": ["crates/hcl-primitives/src/number.rs:impl Display", "crates/hcl-edit/src/parser/number.rs:number"]}
{"id": "C53", "title": "Spans of parsed nodes address their source text", "statement": "Every span reported for a node of a parsed document lies within the input, spans of children lie inside the span of their parent, and the decor (prefix/suffix) spans are inside the input so removing spans never panics.", "quantifier": "every parseable document", "why_tests_cant": "unbounded documents", "anchors": ["crates/hcl-edit/src/raw_string.rs:RawString::despan", "crates/hcl-edit/src/repr.rs", "crates/hcl-edit/src/parser/repr.rs"]}
{"id": "C54", "title": "In-place evaluation of a template preserves its value", "statement": "If Template::evaluate_in_place succeeds, evaluating the template afterwards in the same context yields the same string as evaluating the original template.", "quantifier": "every template and context", "why_tests_cant": "templates of any nesting, contexts of any content", "anchors": ["crates/hcl-rs/src/eval/impls.rs:Template::evaluate_in_place"]}
{"id": "C56", "title": "Equality is an equivalence relation", "statement": "== on hcl-edit expressions and bodies and on hcl-rs expressions is reflexive, symmetric and transitive, and on hcl-rs expressions it holds exactly for trees that differ at most in the order of object entries.", "quantifier": "all triples of trees that hold well-formed numbers and whose objects have distinct keys", "why_tests_cant": "all trees; Eq is a promise about every triple of values, and objects compare regardless of order", "anchors": ["crates/hcl-edit/src/expr/mod.rs:Expression", "crates/hcl-edit/src/expr/object.rs:PartialEq for Object", "crates/hcl-edit/src/structure/body.rs:PartialEq for Body", "crates/hcl-rs/src/expr/mod.rs:Expression"]}
{"id": "C57", "title": "Serialization does not depend on the history", "statement": "What a value is serialized to depends only on the value, not on which serializations the thread has done before or is in the middle of.", "quantifier": "every value, every history of serializations, every nesting", "why_tests_cant": "histories of any length and values of any shape", "anchors": ["crates/hcl-rs/src/ser/mod.rs:InternalHandles", "crates/hcl-rs/src/structure/ser/mod.rs", "crates/hcl-rs/src/expr/ser/mod.rs"]}
{"id": "C58", "title": "The crate's own trees survive serialization unchanged", "statement": "Serializing a Body gives that body, to_expression of an Expression gives that expression, expressions in the fields of a struct become attributes with exactly these expressions, to_value of a Value gives that value, and to_expression of a Value gives Expression::from of it; a field name that is not an identifier is an error.", "quantifier": "every body, expression, value and struct", "why_tests_cant": "trees of any size", "anchors": ["crates/hcl-rs/src/structure/body.rs:Body::from_serializable", "crates/hcl-rs/src/expr/mod.rs:Expression::from_serializable", "crates/hcl-rs/src/value/mod.rs:to_value"]}
{"id": "C59", "title": "to_value of an expression agrees with Value::from", "statement": "to_value of an expression gives the same value as Value::from of the expression.", "quantifier": "every expression", "why_tests_cant": "expressions of any shape", "anchors": ["crates/hcl-rs/src/expr/ser/mod.rs:Serialize for Expression", "crates/hcl-rs/src/expr/mod.rs:From<Expression> for Value"]}
{"id": "C60", "title": "to_value, to_expression and documents agree on the user's data", "statement": "For data made of the serde data model (scalars, options, sequences, maps, structs and enum variants), to_value and to_expression both succeed and Value::from of the expression is the value; a struct or map serialized as a document has one attribute for each field, in order, with exactly the expression that to_expression gives for the field; an enum variant as a document is the document of a map with the variant's name as key; an object expression as a document has one attribute for each entry.", "quantifier": "every value of the serde data model, of any depth", "why_tests_cant": "values of any shape and depth", "anchors": ["crates/hcl-rs/src/value/ser.rs:ValueSerializer", "crates/hcl-rs/src/expr/ser/mod.rs:ExpressionSerializer", "crates/hcl-rs/src/structure/ser/mod.rs:BodySerializer"]}
{"id": "C61", "title": "Every way to write an expression, a template or a document is understood", "statement": "A text that spells an expression, a template or a body according to the HCL grammar - with any whitespace, comments, line breaks, trailing commas, redundant parentheses, escape sequences, interpolations, directives and strip markers the grammar allows - parses, and converts to exactly that expression, template or body. In particular no text has two readings.", "quantifier": "every expression, template and body and every way to write it down", "why_tests_cant": "unbounded nesting and arbitrary whitespace and comments between any two tokens", "anchors": ["crates/hcl-edit/src/parser/mod.rs:parse_expr", "crates/hcl-edit/src/parser/mod.rs:parse_body", "crates/hcl-edit/src/parser/expr.rs", "crates/hcl-edit/src/parser/structure.rs", "crates/hcl-edit/src/parser/trivia.rs"]}
{"id": "C62", "title": "The crate's own types are deserialized unchanged", "statement": "Deserializing a Value from a Value, an Expression from an Expression and a Body from a document gives exactly the tree one started with; deserializing an Expression from a document gives the same as Expression::from of its body. The result of every deserialization is determined by the type and the input.", "quantifier": "every value, expression and body of any depth, and every type and input for the last sentence", "why_tests_cant": "trees of any shape and depth", "anchors": ["crates/hcl-rs/src/expr/de.rs:Deserialize for Expression", "crates/hcl-rs/src/value/de.rs:Deserialize for Value", "crates/hcl-rs/src/structure/de.rs", "crates/hcl-rs/src/de/mod.rs:from_body"]}
{"id": "C63", "title": "Deserializing a Value agrees with the conversion", "statement": "Deserializing a Value from an expression or a document gives the same value as Value::from of that expression or body.", "quantifier": "every expression and every body", "why_tests_cant": "trees of any shape and depth", "anchors": ["crates/hcl-rs/src/expr/de.rs:ExprDeserializer", "crates/hcl-rs/src/de/mod.rs:from_str", "crates/hcl-rs/src/expr/mod.rs:From<Expression> for Value"]}
{"id": "C64", "title": "Data survives serialization and deserialization", "statement": "For every type with derived Serialize and Deserialize implementations (scalars, options, sequences, tuples, maps, structs, newtypes and enums, nested in any way, also with fields of this crate's types) and every value of it: T::deserialize(to_expression(x)) and from_value(to_value(x)) succeed and give x back.", "quantifier": "every type made of the serde data model and every value of it, of any depth", "why_tests_cant": "unboundedly many types and values", "anchors": ["crates/hcl-rs/src/expr/de.rs:ExprDeserializer", "crates/hcl-rs/src/value/de.rs:ValueDeserializer", "crates/hcl-rs/src/expr/ser/mod.rs:to_expression", "crates/hcl-rs/src/value/mod.rs:to_value"]}
{"id": "C65", "title": "Data survives a document", "statement": "For every value x of a struct, map or enum type whose fields are attributes, Block<T> or LabeledBlock<T> (nested to any depth): from_str(to_string(x)) succeeds and gives x back.", "quantifier": "every type made of the serde data model with attributes, blocks and labeled blocks, every value of it, of any depth", "why_tests_cant": "unboundedly many types and values; the claim goes through the serializer, the formatter, the parser and the deserializer", "anchors": ["crates/hcl-rs/src/ser/mod.rs:to_string", "crates/hcl-rs/src/de/mod.rs:from_str", "crates/hcl-rs/src/structure/json_spec.rs:IntoJsonSpec", "crates/hcl-rs/src/ser/blocks.rs:Block"]}
{"id": "C66", "title": "A value and the expression that stands for it are read alike", "statement": "Whatever T::deserialize (from_value) accepts from a Value, it accepts with the same result from Expression::from of that value.", "quantifier": "every deserializable type, every value", "why_tests_cant": "unboundedly many types and values; two separate deserializers have to agree", "anchors": ["crates/hcl-rs/src/value/de.rs:ValueDeserializer", "crates/hcl-rs/src/expr/de.rs:Deserializer for Expression", "crates/hcl-rs/src/expr/mod.rs:From<Value> for Expression"]}
{"id": "C67", "title": "from_value accepts exactly the values of the type", "statement": "from_value::<T>(v) returns for every v: Ok with exactly the datum the value describes - integers in range, strings of one character for char, arrays with an element for every tuple member, objects with an entry for every field that is not an Option, enums by the name of the variant - and an error for every other value.", "quantifier": "every user type made of the serde data model (structs, enums, maps, sequences, tuples, options, newtypes, scalars, Value, Number, Identifier), every value", "why_tests_cant": "acceptance and rejection over unboundedly many types and values", "anchors": ["crates/hcl-rs/src/value/de.rs:ValueDeserializer", "crates/hcl-rs/src/value/mod.rs:from_value"]}
{"id": "C68", "title": "Expressions and documents are accepted exactly if they fit the type", "statement": "T::deserialize of an Expression returns Ok with exactly the datum the expression describes, and an error for every other expression; every expression fits String, as its text or as an interpolation; from_body and from_str read a document like the object it stands for, except that Option and text (String, char, Identifier) are never read from a document.", "quantifier": "every user type made of the serde data model, every expression and body", "why_tests_cant": "acceptance and rejection over unboundedly many types and expressions", "anchors": ["crates/hcl-rs/src/expr/de.rs:Deserializer for Expression", "crates/hcl-rs/src/de/mod.rs:from_body", "crates/hcl-rs/src/structure/json_spec.rs:IntoJsonSpec"]}
{"id": "C55", "title": "A document changed or built through hcl-edit prints to text with the same content", "statement": "For every Body or Expression of hcl-edit, whether parsed, built from scratch or changed in between, with any whitespace and comments set as decor where the language allows them: to_string() gives a text that parses, and the parsed tree converts to the same hcl-rs Body or Expression as the original tree. In particular replacing the value of one attribute changes that value and nothing else.", "quantifier": "every tree of hcl-edit with every combination of decor, whatever sequence of edits produced it", "why_tests_cant": "the space of trees and decorations is unbounded and default decor interacts with every neighbouring token", "anchors": ["crates/hcl-edit/src/encode/mod.rs:EncodeDecorated", "crates/hcl-edit/src/encode/expr.rs:Encode for Expression", "crates/hcl-edit/src/encode/structure.rs:Encode for Body", "crates/hcl-edit/src/structure/body.rs:Display for Body", "crates/hcl-edit/src/parser/mod.rs:parse_body"]}
{"id": "C69", "title": "Outside of brackets a line break ends an expression", "statement": "Outside of brackets, strings, heredocs and comments an expression never continues on the next line: a text that is accepted as an expression, or that is the text of an attribute of an accepted document, has no line break outside of them. So the attribute on the next line is never taken for a part of the value above it.", "quantifier": "every source text, every attribute of every parsed document at any depth", "why_tests_cant": "whether whitespace may contain a line break is a flag handed down through every nonterminal of the grammar and back up, for unboundedly many combinations", "anchors": ["crates/hcl-edit/src/parser/expr.rs:expr_inner", "crates/hcl-edit/src/parser/expr.rs:expr_with_state", "crates/hcl-edit/src/parser/trivia.rs:sp", "crates/hcl-edit/src/parser/structure.rs:attribute_expr"]}
{"id": "C70", "title": "The macros build what is written in them", "statement": "`expression!`, `value!`, `body!`, `attribute!` and `block!` give the expression, value or document that is written between their brackets: literals, null, booleans, arrays and objects with their elements in order, attributes with their keys and values, blocks with all their labels, with or without trailing commas; and every spelling of a document that the grammar of these constructs allows is accepted.", "quantifier": "every expression, value and document, of any size and depth, every way to write it with or without commas", "why_tests_cant": "the macros are recursive rewriting of token lists where the first matching rule wins; which rule matches depends on the tokens that follow, for unboundedly many inputs", "anchors": ["crates/hcl-rs/src/macros.rs:body", "crates/hcl-rs/src/macros.rs:structures", "crates/hcl-rs/src/macros.rs:expression", "crates/hcl-rs/src/macros.rs:expression_internal", "crates/hcl-rs/src/macros.rs:value_internal", "crates/hcl-rs/src/macros.rs:block"]}
{"id": "C71", "title": "Mutable visitors change what their methods change and nothing else", "statement": "Visiting a document with a `VisitMut` hands every node that it reaches to its method, in source order, and puts the result in its place; everything else of the document stays as it was, including whitespace and comments. A visitor whose methods leave the nodes alone leaves the document unchanged, and no visitor makes a body define an attribute twice.", "quantifier": "every document, every visitor that overrides any of the methods for bodies, structures, labels, expressions, object keys, traversal operators, template elements, identifiers and literals, by replacing the node or by changing the result of the default function, with any state", "why_tests_cant": "the default functions form a mutual recursion over about forty node types; a part that is not put back, visited twice or visited in the wrong order shows only for documents with that part", "anchors": ["crates/hcl-edit/src/visit_mut.rs:VisitMut", "crates/hcl-edit/src/visit_mut.rs:visit_body_mut", "crates/hcl-edit/src/visit_mut.rs:visit_expr_mut", "crates/hcl-edit/src/visit_mut.rs:visit_element_mut", "crates/hcl-edit/src/structure/mod.rs:StructureMut"]}
{"id": "C72", "title": "Iterators give out every attribute and block once; builders keep what is added", "statement": "The iterators of a body over its structures, attributes and blocks give out each of them exactly once and in order, however `next` and `next_back` are interleaved, report the number of the structures that are left, and give out nothing afterwards. A body or block from a builder has the labels and structures that were added, in that order. `has_labels` holds exactly for the prefixes of the labels of a block, `has_exact_labels` exactly for the labels.", "quantifier": "every body, every sequence of calls from both ends, every sequence of builder calls, every list of labels", "why_tests_cant": "the results depend on the interleaving of calls from both ends and on which structures are skipped in between", "anchors": ["crates/hcl-rs/src/structure/iter.rs:impl_find_map_iterator", "crates/hcl-rs/src/structure/iter.rs:impl_exact_size_iterator", "crates/hcl-rs/src/structure/body.rs:BodyBuilder", "crates/hcl-rs/src/structure/block.rs:BlockBuilder", "crates/hcl-edit/src/structure/block.rs:Block::has_labels", "crates/hcl-edit/src/structure/block.rs:Block::has_exact_labels"]}
{"id": "C73", "title": "The error of a failed evaluation names an expression that fails with it", "statement": "When the evaluation of an expression fails, `Error::expr` is a part of the evaluated expression (templates counting with what they parse to) whose own evaluation fails with the same error. It is the expression in which the one that raised the error stands directly, or that expression itself if it is the outermost or an iteration of it failed; the kind of the error fits the expression that raised it (an undefined variable is a variable of that name, an inapplicable operator an operation with that operator, and so on). No expression is named only if a template does not parse or a directive of a template that is evaluated on its own fails.", "quantifier": "every expression or template, every context, every kind of error", "why_tests_cant": "all nestings of expressions, loops and templates in which an error can occur", "anchors": ["crates/hcl-rs/src/eval/mod.rs:Context::error", "crates/hcl-rs/src/eval/mod.rs:Context::child_with_expr", "crates/hcl-rs/src/eval/error.rs:Error::expr", "crates/hcl-rs/src/eval/impls.rs", "crates/hcl-rs/src/eval/expr.rs", "crates/hcl-rs/src/eval/template.rs"]}
{"id": "C74", "title": "An object is a map that keeps the order of its entries", "statement": "After any history of `insert`, `extend`, `remove`, `remove_entry`, `clear` and changes through `get_mut`, `get_key_value_mut` and `iter_mut`, an `hcl-edit` `Object` that started empty has no two keys that compare equal, and `get`, `get_key_value` and `contains_key` tell what was stored last for the key. `insert` keeps the place and the key of an entry that is there and appends one that is not, removing keeps the order of the other entries, and the returned values are those that were stored before.", "quantifier": "every history of operations with any keys whose numbers are well-formed and whose own objects have distinct keys", "why_tests_cant": "all histories, and all keys, which may be any expression", "anchors": ["crates/hcl-edit/src/expr/object.rs:Object"]}
{"id": "C75", "title": "The keys of objects in parsed documents are distinct", "statement": "No object anywhere in a parsed expression, template or document has two keys that compare equal. So equality of parsed documents is an equivalence relation that says that the contents are the same.", "quantifier": "every text that parses", "why_tests_cant": "all texts and all depths of nesting", "anchors": ["crates/hcl-edit/src/parser/expr.rs:object", "crates/hcl-edit/src/expr/object.rs:ObjectKey", "crates/hcl-edit/src/expr/mod.rs:Expression::eq", "crates/hcl-edit/src/raw_string.rs:RawString"]}
{"id": "C76", "title": "Evaluation ends, and panics only where the arithmetic of numbers does", "statement": "Evaluating an expression or a template ends in a value, an error or a panic, with a depth of recursion that depends on the expression alone and not on the variables and functions in scope, although the texts of templates are parsed during evaluation and may contain further templates. It panics only if a negation or an operation in it is applied to numbers on which the arithmetic panics, in the scope it stands in.", "quantifier": "every expression and template, parsed or built, every context", "why_tests_cant": "all nestings of expressions and of templates in the texts of templates", "anchors": ["crates/hcl-rs/src/eval/impls.rs", "crates/hcl-rs/src/eval/expr.rs", "crates/hcl-rs/src/eval/template.rs", "crates/hcl-rs/src/template/mod.rs:Template::from_expr", "crates/hcl-edit/src/parser/template.rs", "crates/hcl-rs/src/structure/edit.rs"]}
{"id": "C77", "title": "A change to a part of a document changes its text in that place only", "statement": "Replacing one expression of a document, at any depth, or inserting, pushing, removing or assigning attributes and blocks, changes the printed text in the place of that part only: for a parsed document the printed text is the source with the text of the new part in the place of the old one, and the new value is what is printed there.", "quantifier": "every document, every place in it, every new part", "why_tests_cant": "all nestings of expressions and blocks around the place, all combinations of whitespace and comments elsewhere in the document", "anchors": ["crates/hcl-edit/src/structure/body.rs:Body::insert", "crates/hcl-edit/src/structure/body.rs:Body::push", "crates/hcl-edit/src/structure/body.rs:Body::remove", "crates/hcl-edit/src/structure/body.rs:Body::remove_attribute", "crates/hcl-edit/src/structure/body.rs:Body::get_attribute_mut", "crates/hcl-edit/src/encode/structure.rs", "crates/hcl-edit/src/encode/expr.rs", "crates/hcl-edit/src/repr.rs:Formatted::value_mut"]}
{"id": "C78", "title": "Evaluation in place ends, and each of its errors names its cause", "statement": "evaluate_in_place on an expression, a body or a template ends, and panics only where an operation on numbers in it panics. Attaching expressions to the errors it collects changes neither the errors nor what is evaluated. Each of these errors names an expression: the one in which the expression that raised the error stands directly, or that expression itself if it is the outermost or an iteration of it failed, in the form it has after those of its parts have been replaced by their values that are evaluated before it. The expression that raised the error fails with it in its scope. No expression is named only if a template does not parse.", "quantifier": "every expression, body and template, every context", "why_tests_cant": "all nestings of expressions, loops and templates and all combinations of errors in them", "anchors": ["crates/hcl-rs/src/eval/mod.rs:EvaluateInPlace", "crates/hcl-rs/src/eval/mod.rs:evaluate_nested_exprs", "crates/hcl-rs/src/eval/impls.rs:evaluate_in_place", "crates/hcl-rs/src/eval/error.rs:Errors", "crates/hcl-rs/src/eval/error.rs:Error::expr"]}
{"id": "C79", "title": "Evaluation can be done in stages", "statement": "What evaluates to a value with some variables and functions defined evaluates to the same value when more are defined. evaluate_in_place with some of them, whatever errors it collects, followed by evaluation with more of them gives the value or error that evaluating the original with all of them gives.", "quantifier": "every expression, body and template, every context and every context that defines more", "why_tests_cant": "all nestings of expressions, all splits of the names into stages and all errors of the first stage", "anchors": ["crates/hcl-rs/src/eval/mod.rs:EvaluateInPlace", "crates/hcl-rs/src/eval/impls.rs:evaluate_in_place", "crates/hcl-rs/src/eval/mod.rs:Context::declare_var", "crates/hcl2json/src/main.rs:read_hcl"]}
{"id": "C80", "title": "Evaluation in place can be repeated", "statement": "evaluate_in_place on an expression, body or template that was evaluated in place before, with the same or fewer variables and functions and whatever errors, leaves it as evaluate_in_place leaves the original and returns the same errors. With the same ones it changes nothing. What it replaced without errors is final: no later evaluation in place changes it or fails.", "quantifier": "every expression, body and template, every context and every context that defines more", "why_tests_cant": "all nestings of expressions, all splits of the names into stages and all errors of the first stage", "anchors": ["crates/hcl-rs/src/eval/mod.rs:EvaluateInPlace", "crates/hcl-rs/src/eval/impls.rs:evaluate_in_place", "crates/hcl-rs/src/eval/error.rs:Errors"]}
{"id": "C81", "title": "hcl2json writes the value of every input", "statement": "Without arguments or with `-` hcl2json writes the value of the standard input, with one file its value. With several arguments or a directory it writes the values of all files they stand for, in the order of the arguments and of the walks, as an array or as an object by path, and fails if one of them cannot be read or walked. With --continue-on-error it writes those of the files that can be read. With --simplify the value under the name of an attribute is the value of its expression, if it can be evaluated without variables, and otherwise that of an expression with the same meaning.", "quantifier": "every set of arguments, every file system, every content of the files and every schedule of the parallel conversion", "why_tests_cant": "all documents, directories, failures of the file system and schedules", "anchors": ["crates/hcl2json/src/main.rs:main", "crates/hcl2json/src/main.rs:bulk_convert", "crates/hcl2json/src/main.rs:read_hcl", "crates/hcl2json/src/main.rs:glob_files"]}
{"id": "C82", "title": "Reformatting a document keeps its content", "statement": "Reading a document, formatting what was read and reading the result gives a document with the same attributes, blocks, labels and expressions, and formatting that again gives the same text. The same holds for expressions and for templates. Nothing is required of the text but that it can be read and that its content has none of the listed forms that the formatter does not keep.", "quantifier": "every text that can be read as a document, expression or template, every format configuration with blanks for indentation, both builds", "why_tests_cant": "all texts, with all nestings of expressions, comments and white space", "anchors": ["crates/hcl-edit/src/parser/mod.rs:parse_body", "crates/hcl-rs/src/format/mod.rs:to_string", "crates/hcl-rs/src/format/impls.rs:format"]}
{"id": "C83", "title": "A template that is displayed can be read again", "statement": "Template::from_str(template.to_string()) gives the template back, for every template whose literals are not empty, do not follow each other and do not end in the character that the next control sequence starts with. So different templates are displayed differently, serializing a template as a string loses nothing, and a template expression made from the text evaluates to what the template evaluates to.", "quantifier": "every template built from literals, interpolations and directives nested to any depth, every expression in them, every format configuration with blanks for indentation, both builds", "why_tests_cant": "all templates with all nestings of directives and expressions, all literals", "anchors": ["crates/hcl-rs/src/template/mod.rs:Template", "crates/hcl-rs/src/format/impls.rs:Format for Template", "crates/hcl-edit/src/parser/template.rs:template"]}
{"id": "C84", "title": "Documents are read and written with evaluation", "statement": "eval::from_str reads the document in which every attribute, in all blocks, has the value of its expression, and fails if one of them cannot be evaluated. So an attribute gives its field the value of its expression, and a document of data is read as by hcl::from_str in every context. eval::to_string writes the evaluated document: reading that text, with or without evaluation and in any context, gives what eval::from_str gives for the original.", "quantifier": "every text, every context, every type to read, every state of the thread", "why_tests_cant": "all documents, expressions, contexts and types", "anchors": ["crates/hcl-rs/src/eval/mod.rs:from_str", "crates/hcl-rs/src/eval/mod.rs:to_string", "crates/hcl-rs/src/eval/impls.rs:Evaluate for Body"]}
{"id": "C85", "title": "The messages of evaluation errors tell the errors apart", "statement": "Two evaluation errors with the same message are of the same kind and about the same operator, name, key, index, position and values, in expressions with the same text. Parameter types that are named alike in a message allow the same values. The message of several errors starts with their number and lists the message of each, in order.", "quantifier": "every two errors, parameter types and lists of errors", "why_tests_cant": "all pairs of errors, with values of any size and arbitrarily nested types", "anchors": ["crates/hcl-rs/src/eval/error.rs:Display for ErrorKind", "crates/hcl-rs/src/eval/error.rs:Display for Errors", "crates/hcl-rs/src/eval/func.rs:Display for ParamType", "crates/hcl-rs/src/eval/func.rs:FuncDef::call"]}
{"id": "C86", "title": "Functions get their arguments as declared with the builder", "statement": "For every sequence of calls of the builder of function definitions, the declared parameters are all parameters of all calls in order, and the variadic parameter is that of the last call that sets one. A call expression whose arguments fit these declarations is the result of the implementation, which sees all arguments in order, exactly those for the declared parameters as positional arguments and exactly the others as variadic arguments. Any other call fails with an error that does not depend on the implementation.", "quantifier": "all sequences of builder calls, implementations and argument lists", "why_tests_cant": "all interleavings of builder calls and all numbers of arguments", "anchors": ["crates/hcl-rs/src/eval/func.rs:FuncDefBuilder", "crates/hcl-rs/src/eval/func.rs:FuncArgs", "crates/hcl-rs/src/eval/func.rs:FuncDef::new", "crates/hcl-rs/src/eval/func.rs:FuncDef::call"]}
{"id": "C87", "title": "Conversions of Rust data agree with serialization", "statement": "For all data made of (), booleans, integers, floats, numbers, strings, lists and iterators of pairs: to_value gives what Value::from gives, to_expression gives what Expression::from gives, converting by way of an expression gives the same value as converting directly, and the value is well formed. An iterator of pairs becomes an object with the keys in the order in which they appear first, each with the value given last. Integers keep their value; floats become null if they are not finite, and otherwise a number, of the same value between -2^63 and 2^63.", "quantifier": "all data, of any nesting, with any repeated keys, and all states of the thread before", "why_tests_cant": "all nestings, key orders and numbers", "anchors": ["crates/hcl-rs/src/value/from.rs", "crates/hcl-rs/src/expr/mod.rs:From for Expression", "crates/hcl-rs/src/value/ser.rs:ValueSerializer", "crates/hcl-rs/src/expr/ser/mod.rs:ExpressionSerializer"]}
{"id": "C88", "title": "The accessors of a value tell its kind and contents", "statement": "Every value is of exactly one of the kinds null, boolean, number, string, array and object, as told by is_null to is_object, and the accessor of that kind, and no other, gives its contents. as_u64 and as_i64 give k exactly if the value is the integer k and k fits. is_u64 and is_i64 are true exactly for the integers that fit; is_f64 exactly for the numbers that are not integers, and for these as_f64 gives the value. take gives the value and leaves null.", "quantifier": "all values", "why_tests_cant": "all numbers, in particular the bounds of the integer types", "anchors": ["crates/hcl-rs/src/value/mod.rs:impl Value", "crates/hcl-primitives/src/number.rs:impl Number"]}
{"id": "C89", "title": "Attributes, blocks and documents convert to values alike", "statement": "Value::from of an attribute or block is Value::from of the document with nothing else in it. A block is its body inside of one object for its identifier and one for each of its labels, in order. If two documents have no name in common, the value of both together has the entries of the one and then those of the other, so a document in which no name appears twice is an object with one entry for each of its attributes and blocks, in order.", "quantifier": "all documents, attributes and blocks, with any nesting, labels and expressions", "why_tests_cant": "all nestings and sequences of structures", "anchors": ["crates/hcl-rs/src/structure/json_spec.rs:IntoJsonSpec", "crates/hcl-rs/src/structure/attribute.rs:From<Attribute> for Value", "crates/hcl-rs/src/structure/mod.rs:From<Structure> for Value"]}
{"id": "C90", "title": "Expressions that evaluate alike can be exchanged", "statement": "If two expressions evaluate to the same value or the same kind of error whatever names and functions are defined, then one can replace the other at any place inside of an expression, a template or the attributes of a body without any effect on what that evaluates to. If they evaluate alike only with the names at hand, this holds for all places outside of loops. In particular an expression can be replaced there by its value written out, or by a variable defined as its value.", "quantifier": "all expressions, templates and bodies, all places in them, all contexts and functions", "why_tests_cant": "all expressions at all places of all expressions", "anchors": ["crates/hcl-rs/src/eval/impls.rs:Evaluate for Expression", "crates/hcl-rs/src/eval/expr.rs", "crates/hcl-rs/src/eval/template.rs:evaluate_template"]}
{"id": "C91", "title": "Loop variables can be renamed", "statement": "The name of a loop variable does not matter: a `for` expression or a `for` directive evaluates to the same value or error if its key variable or its value variable gets another name throughout the loop, as long as the new name is not used in the loop already and inner loops have other variables. The collection keeps its names, since it is outside of the loop. The same holds for the variables that a caller declares in a context. If the new name is in use the result can differ.", "quantifier": "all loops, collections, keys, values, conditions and template bodies, all names and contexts", "why_tests_cant": "all expressions at any depth, and all names", "anchors": ["crates/hcl-rs/src/eval/impls.rs:Evaluate for ForExpr", "crates/hcl-rs/src/eval/expr.rs:Collection", "crates/hcl-rs/src/eval/template.rs:evaluate_for_directive", "crates/hcl-rs/src/eval/mod.rs:Context::declare_var"]}
{"id": "C92", "title": "Expressions and templates built step by step are what the steps ask for", "statement": "Function calls, traversals, `for` expressions, templates and directives can be built with chains of method calls. Arguments, operators and elements come in the order in which they were added. For every other part the last call that sets it counts, and calls that set different parts can come in any order. Unless it has splats, a traversal can also be built on top of one that was built before, and evaluates to the same; with splats it can evaluate to something else.", "quantifier": "all sequences of builder calls, of any length and order, with any arguments", "why_tests_cant": "the sequences of calls are unbounded", "anchors": ["crates/hcl-rs/src/expr/func_call.rs:FuncCallBuilder", "crates/hcl-rs/src/expr/traversal.rs:TraversalBuilder", "crates/hcl-rs/src/expr/for_expr.rs:ForExpr", "crates/hcl-rs/src/template/mod.rs:Template, IfDirective, ForDirective"]}
{"id": "C93", "title": "The message of a parse error tells what was expected", "statement": "When parsing fails, the failed parsers may have noted what they were parsing, what they expected, and why they failed. The message of the error names the first of what was being parsed, lists everything that was expected, in order, with commas and an `or` before the last, and ends with the reason. If nothing was noted as expected it says `unexpected token` instead. A message is never empty, and it is one line if the notes are.", "quantifier": "all sequences of labels and expectations, with or without a cause", "why_tests_cant": "the number of notes is unbounded", "anchors": ["crates/hcl-edit/src/parser/error.rs:format_context_error"]}
{"id": "C94", "title": "The accessors of an expression tell its kind and contents", "statement": "Of the tests for the kinds of an `hcl-edit` expression exactly one succeeds, apart from `is_template`, which succeeds for string templates and heredocs. Each `as_…` accessor gives the contents of the expression if it is of that kind, whatever surrounds it in the document, and nothing otherwise. Conversion to an `hcl-rs` expression and back keeps the kind and the contents, and expressions that compare equal are of the same kind.", "quantifier": "all expressions, with any decor and spans", "why_tests_cant": "all expressions of all kinds", "anchors": ["crates/hcl-edit/src/expr/mod.rs:Expression", "crates/hcl-rs/src/expr/edit.rs"]}
{"id": "C95", "title": "Arrays and argument lists change as vectors do", "statement": "Under any history of `insert`, `push`, `pop`, `remove`, `clear`, `extend` and changes through `get_mut`, an `hcl-edit` array, or the argument list of a function call, holds the elements a vector would hold: elements before the index stay, those after it move by one, `remove` undoes `insert` and `pop` undoes `push`. A history panics exactly if some `insert` is beyond the end or some `remove` is out of bounds. Changes to the elements keep the trailing comma, the trailing text and the expansion of the final argument, and the setters of these keep the elements. An array is written as its elements with commas between them, and an element pushed to an array or argument list that is not empty is written after the last one, with the rest of the text as it was.", "quantifier": "all arrays and argument lists, all finite histories of calls", "why_tests_cant": "all histories of any length", "anchors": ["crates/hcl-edit/src/expr/array.rs:Array", "crates/hcl-edit/src/expr/func_call.rs:FuncArgs"]}
{"id": "C96", "title": "Changes in place keep attributes under their keys", "statement": "A structure of an `hcl-edit` body is either an attribute or a block, and `into_attribute` and `into_block` give it back unchanged if it is the other. What the mutable iterators of a body and the mutable lookups by name give out can be used to change values, whitespace, comments and whole blocks, but at every index there stays an attribute with the same key, or a block. No history of insertions, removals and such changes, mixed in any way, gives a body two attributes with the same key.", "quantifier": "all bodies, all finite histories of calls and changes in place", "why_tests_cant": "all histories of any length", "anchors": ["crates/hcl-edit/src/structure/mod.rs:StructureMut", "crates/hcl-edit/src/structure/attribute.rs:AttributeMut", "crates/hcl-edit/src/structure/body.rs:Body::iter_mut"]}
