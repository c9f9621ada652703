{
 "C01": [
  "proved",
  ""
 ],
 "C02": [
  "proved",
  ""
 ],
 "C03": [
  "proved",
  ""
 ],
 "C04": [
  "proved",
  ""
 ],
 "C05": [
  "partial",
  "The round trip is false of the code (witnesses C05_roundtrip_fails*); proved for text without adjacent sigils directly before a brace."
 ],
 "C06": [
  "partial",
  "False of the code in general (witness C06_no_live_marker_fails); proved under the same condition as C05."
 ],
 "C07": [
  "partial",
  "Exactness is false of the code (C07_add_inexact, C07_sub_panics, C07_mul_overflows); proved for small integers and for same-sign operands whose result fits."
 ],
 "C08": [
  "partial",
  "Negation wraps or panics outside the i64 range (C08_neg_wraps, C08_neg_panics); C08_neg_partial is the exact condition."
 ],
 "C09": [
  "partial",
  "Values outside the i64 range are clamped (C09_clamps); C09_value_partial is the exact condition."
 ],
 "C10": [
  "partial",
  "Equality is not transitive across representations (C10_not_transitive); equivalence, order and hash agreement proved under the stated conditions."
 ],
 "C11": [
  "partial",
  "Division/remainder by zero and overflow panic (C11_zero_divisor, C11_quotient_overflow); exact conditions for no panic in the C11_*_partial theorems."
 ],
 "C12": [
  "proved",
  "Also shows that is_i64 disagrees with its documentation (C12_is_i64_doc_fails)."
 ],
 "C34": [
  "proved",
  ""
 ],
 "C35": [
  "proved",
  ""
 ],
 "C36": [
  "proved",
  "Arithmetic on accepted operands is Number arithmetic, see C07-C11 for its own limits (including panics)."
 ],
 "C37": [
  "proved",
  ""
 ],
 "C38": [
  "proved",
  ""
 ],
 "C39": [
  "proved",
  ""
 ],
 "C40": [
  "proved",
  "User functions are modelled as pure functions from argument lists to results."
 ],
 "C42": [
  "proved",
  ""
 ],
 "C43": [
  "proved",
  "The string form of a non-string value is the formatter's output, a parameter of the evaluator model."
 ],
 "C41": [
  "partial",
  "A one-of type with no alternatives is satisfied by nothing although documented as any type (C41_false); proved for types without an empty one-of."
 ],
 "C44": [
  "partial",
  "False of the code: an object that writes one key text in two ways (C44_false). Proved when equal key texts are equal keys (Uniform). In-place evaluation may also fail where evaluate succeeds (C44_fails_spuriously)."
 ],
 "C45": [
  "partial",
  "C45_every_attribute is unconditional; that error-free attributes hold their value and that every failure is reported inherits the restriction of C44."
 ],
 "C54": [
  "partial",
  "False of the code: for-directive bodies are evaluated without loop variables (C54_false). Proved for templates whose for bodies do not use loop variables."
 ],
 "C21": [
  "proved",
  "Element-wise mutable access (get_mut, iter_mut) can rename keys and is outside the stated property (C21_get_mut_false)."
 ],
 "C22": [
  "proved",
  ""
 ],
 "C33": [
  "partial",
  "False of the code: a marker at the very end of the text is missed (C33_false). Proved for texts whose last two characters are not a marker."
 ],
 "C46": [
  "partial",
  "False of the code when block types/labels clash with attributes or each other (C46_false); proved without such clashes."
 ],
 "C47": [
  "partial",
  "False of the code when an attribute and a block share a name (C47_false); proved without such clashes."
 ],
 "C50": [
  "proved",
  "rayon is modelled by its contract: own slot per item, any order, one kept error."
 ],
 "C30": [
  "partial",
  "Read literally false of the code: compact objects have commas (C30_false). Proved up to that separator, for blank indents and equal prefer_ident_keys."
 ],
 "C31": [
  "proved",
  "The writer is assumed not to fail."
 ],
 "C32": [
  "partial",
  "False of the code: a reused formatter may start the next body with an empty line (C32_false). C32_body_exact says exactly when; expressions, values and templates are history independent."
 ],
 "C16": [
  "partial",
  "Termination and the absence of any panic but one are proved for every input: in a build with overflow checks the literal -9223372036854775808 panics (C16_debug_panics), so the full statement is false there; C16_release is the full statement for builds without overflow checks. The bound on the recursion in the model is not observable: every greater one gives the same results (C16_depth). Stack depth is not modelled."
 ],
 "C17": [
  "partial",
  "The tree is related to the whole input by a grammar without gaps, which also tells where line breaks are whitespace and where they are not. Missing: the grammar needs a rule for operator tails that are read and dropped and for malformed escapes inside strings; C17_operand_dropped and C17_escape_dropped show that the code really ignores such text."
 ],
 "C20": [
  "proved",
  "At every nesting level."
 ],
 "C26": [
  "partial",
  "Line, offset and line text exact; column exact when the character at the error or all characters before it on the line are ASCII. C26_column_wrong shows that the column is a byte count otherwise. C26_display_partial: the caret of a displayed error stands under the character of the error (same condition); the text of the message itself is a parameter."
 ],
 "C53": [
  "proved",
  "Spans lie in the input, nest, and cover the text of tokens; decor spans lie in the input. C53_decor_text: no decor is left as a span, except that of binary operators and traversal operators (C53_operator_decor_spanned)."
 ],
 "C19": [
  "partial",
  "For every chain: without two comparisons of the same precedence that only tighter operators separate, the tree has all operands and operators in order and is the unique tree by precedence and associativity; with such a pair, everything from a comparison on is lost (the full property is false, C19_clash_drops). C19_parsed and the grammar of C17 carry the precedence rules to whole parses."
 ],
 "C13": [
  "partial",
  "False of the code for strings in which, after the first marker, a marker is directly preceded by another $ or % (witnesses C13_roundtrip_fails, C13_not_a_string_fails, which follow from the marker escaping of C05/C06). Proved for all other strings, with any following text."
 ],
 "C14": [
  "partial",
  "False of the code for a malformed escape right in front of the closing quote of a non-empty string (witness C14_accepted_fails). Proved: nothing else with a malformed escape is accepted, the value is what the text stands for, and everything well-formed is accepted."
 ],
 "C15": [
  "proved",
  "ws and sp succeed on every text, skip only trivia, and stop where no trivia starts. A line comment that contains a carriage return not followed by a line feed is not a comment to the parser (C15_lone_cr)."
 ],
 "C52": [
  "partial",
  "Proved for every integer of 64 bits except the smallest in a debug build, where parsing panics (witness C52_smallest_panics)."
 ],
 "C25": [
  "partial",
  "False of the code: the `...` of a call is not compared (C25_expand_fails) and whitespace before closing brackets and in directives is (C25_trailing_fails, C25_directive_fails, C25_parsed_fails). Proved: equality is exactly equality of what is left when decor, spans, number notation and `...` are left out, up to the order of object entries."
 ],
 "C56": [
  "proved",
  "For trees with well-formed numbers and distinct object keys, which is what Number and VecMap maintain."
 ],
 "C27": [
  "partial",
  "Proved for expressions, templates and bodies whose template texts are reprinted verbatim, whose heredocs have no strip mode and whose object keys stay different in hcl-edit. The full claim is false: the strip mode of heredocs, unparseable template texts, object entries with keys hcl-edit takes for equal, and the strip mode of an absent else are lost (witnesses)."
 ],
 "C28": [
  "proved",
  "For every value whose objects have distinct keys, the invariant of the map type."
 ],
 "C24": [
  "partial",
  "Proved for all nodes reachable without passing from a for directive to its collection; the collection is never visited (witness). VisitMut likewise; it also leaves out object keys and attribute keys."
 ],
 "C23": [
  "partial",
  "For templates whose literals are not empty, not adjacent and without carriage returns, and whose lines all begin with whitespace, dedenting removes the common indentation, as much as the least indented line has, and re-indenting restores templates indented with spaces. False in general: a line without indentation in a literal after an interpolation loses characters (C23_content_lost); a line that has only the removed spaces, tabs, carriage returns and literals inside of directives are not restored."
 ],
 "C18": [
  "partial",
  "False of the code as stated (witnesses C18_operator_space_lost, ..., C18_false; three of them print text that does not parse). Proved for every document without carriage returns in which the constructs of the witnesses are spelled as they are printed (canonBody, a computable test)."
 ],
 "C48": [
  "partial",
  "Mode restored, handles distinct and never reused, no panic for honest values: proved for every value. Every handle is taken out again: proved for values whose expressions and structures stand at the documented places (C48_balanced_partial); false elsewhere (C48_leak, C48_leak_structure, C48_leak_key)."
 ],
 "C49": [
  "proved",
  "Trees of LabeledBlock over maps, structs, enum variants and sequences of any depth; one block per leaf, labels outermost first, body as the leaf alone gives. C49_nothing_skipped: adding labels never skips anything."
 ],
 "C57": [
  "partial",
  "Proved for honest values whose expressions and structures stand at the documented places; false elsewhere (C57_history_fails, C57_to_value_fails)."
 ],
 "C58": [
  "proved",
  "Values: with unique keys and well-formed numbers."
 ],
 "C59": [
  "partial",
  "Proved for expressions without templates and objects with entries; false for these (C59_object_fails, C59_template_fails)."
 ],
 "C60": [
  "partial",
  "Proved for all data whose map keys are strings and whose newtype variants are named by identifiers. False otherwise: C60_number_key_fails, C60_variant_name_fails, C60_mixed_keys_fail."
 ],
 "C61": [
  "partial",
  "Proved for the grammar with quoted templates, heredocs, interpolations and directives. Missing: empty heredocs, lines that begin with the delimiter of a heredoc, and heredocs with the introduction <<- whose lines are partly indented or have carriage returns; the parser deviates for all of these. The parsed tree is compared with the spelled one by Spec/Means.lean: equal, except that the text of a template is compared by the elements it spells. False for object items after a value that contains an array, a function call or a for expression if they look like a continuation (C61_items_fails)."
 ],
 "C29": [
  "partial",
  "Proved for every configuration and every value with distinct keys whose strings are not written as templates (C29_partial). That the float printer (ryu) writes a text that denotes the float is a hypothesis. False otherwise: strings that look like templates are written without escapes (C29_templated_fails), with prefer_ident_keys an object cannot start with the key `for` (C29_for_fails), the smallest integer panics in a debug build (C29_min_fails)."
 ],
 "C51": [
  "partial",
  "Proved for every configuration and every expression and body that needs no parentheses or blanks the formatter does not write, with heredocs that start with << and quoted templates whose text is the same in quotes and outside (Spec/Printable.lean). False otherwise: C51_for_fails, C51_items_fails, C51_legacy_index_fails, C51_template_fails, C51_heredoc_fails, C51_markers_fail."
 ],
 "C62": [
  "proved",
  "For trees whose identifiers are identifiers, whose numbers are well formed and whose object keys differ, as the types of the crate ensure. An identifier made with Identifier::unchecked that is none is rejected (C62_unchecked_fails)."
 ],
 "C63": [
  "partial",
  "Proved for object keys that are identifiers or strings. False otherwise: keys that are numbers, booleans or null are rejected (C63_scalar_key_fails), a variable as a key gives template syntax (C63_variable_key_fails). Expressions are not deserialized from values (C63_expression_from_value_fails)."
 ],
 "C64": [
  "partial",
  "Proved under ExprSafe and ValueSafe. False for newtype structs from values (C64_newtype_fails, C64_newtype_array_fails), Some around what is null (C64_some_null_fails), floats that are not finite (C64_infinity_fails), enum variants as keys in expressions (C64_variant_key_fails) and integer keys in values (C64_integer_key_fails)."
 ],
 "C65": [
  "partial",
  "Proved for data described by DocRoot (structs, maps, newtype structs and enum variants of attributes, Block and LabeledBlock), with the option prefer_ident_keys off. False for Block<Vec<T>> with one element or none (C65_one_block_fails, C65_no_block_fails, C65_labeled_one_fails), for a tuple variant in a Block (C65_tuple_block_fails), for a document that is an Option (C65_option_fails) and for strings with the markers of C13. Missing: template expressions inside the data."
 ],
 "C66": [
  "partial",
  "Proved for types without newtype structs, struct variants and enums as map keys. False for those (C66_newtype_fails, C66_struct_variant_fails, C66_enum_key_fails). The converse is false too (C66_converse_fails)."
 ],
 "C67": [
  "proved",
  "Acceptance, the result and rejection are characterised for every user type; the types of syntax trees (Expression, Body, operators) are left to C62."
 ],
 "C68": [
  "proved",
  "Acceptance, the result and rejection are characterised for every user type and every expression with well-formed numbers (Clean, an invariant of Number), whatever its object keys are; deserializing always ends (C68_ends). Documents are read like the object they stand for by every user type except Option, String, char and Identifier, which reject every document (C68_document_option_fails, C68_document_text_fails)."
 ],
 "C55": [
  "partial",
  "Proved for every tree that can be written without adding parentheses, including quoted templates and heredocs with interpolations and directives (C55_body_partial, C55_expr_partial, C55_set_value). False of for expressions built from scratch (C55_for_fails), of operands that need parentheses (C55_parentheses_fails), of variables as object keys (C55_key_fails), of text after a template nested in a template (C55_nested_fails) of escaped text inside directives (C55_directive_fails) and of heredocs inside quoted templates (C55_heredoc_fails). Missing: heredocs whose indentation was removed when they were read."
 ],
 "C69": [
  "partial",
  "Proved for texts without any brackets, quotes, heredocs and block comments, for expressions and for every attribute of a document. The full property is false: behind a tuple, a function call or a for expression, and behind the . of an attribute access, the parser goes on over line breaks (C69_tuple_fails, C69_dot_fails)."
 ],
 "C70": [
  "partial",
  "Proved for the tokens that Spec/Macro.lean describes. The full property is false: a negative number is not accepted as the value of an attribute in body! or as the last value of an object without a comma, a leading comma in an array is accepted, and a raw identifier as a label keeps its r# (C70_negative_fails, C70_leading_comma_fails, C70_raw_label_fails). The compiler's own expression parser is a parameter with the assumptions Spec.Sane."
 ],
 "C71": [
  "proved",
  "Rewritten (Spec/VisitMut.lean) describes the result in terms of the parts of a node and determines it; which nodes are reached is C24."
 ],
 "C72": [
  "proved",
  "The iterators of the standard library over slices and vectors are taken as the list of the items that are left."
 ],
 "C73": [
  "proved",
  "The theorems hold for every amount of fuel that suffices. Errors of in-place evaluation are C78. The texts of errors are not modelled."
 ],
 "C74": [
  "proved",
  "Keys are told apart by their content as in C25. The hypothesis on keys (well-formed numbers, distinct keys in their own objects) is needed for equality to be an equivalence (C10, C56)."
 ],
 "C75": [
  "partial",
  "The full property is false (`C75_keys_fails`, `C75_numbers_fails`). Proved for trees whose keys contain no whitespace or comments that equality looks at, and, for the part on equality, whose numbers are well-formed."
 ],
 "C76": [
  "proved",
  "The environment's template parser is the model of the crate's parser followed by the conversion (`ReadsTemplates`). Functions in scope are total functions of their arguments, so a function that does not return or panics is not covered. A panic of the template parser itself (C16, debug builds) is an error here. The depth is that of the model's recursion; that the stack suffices for it is not modelled."
 ],
 "C77": [
  "partial",
  "False of numbers that are changed in place: the old text is printed (`C77_number_fails`), and of an expression inside of a template that is replaced by one with a quoted template: the text behind it changes (`C77_template_fails`). For any document the text around the place stays otherwise (`C77_expression`, `C77_template_partial`, `C77_structures`, `C77_lines_open` for the end of a document without a final newline, `C77_oneline` for blocks on one line, and those about operations). That the printed text is the source with the part replaced (`C77_source_partial`, `C77_source_template_partial`, `C77_source_structures_partial`) is proved for documents that are reproduced at all (C18). Missing: places in heredocs whose indentation was removed; that the place in a template is the span of the expression."
 ],
 "C78": [
  "partial",
  "Proved for contexts with well-formed values and expressions in which equal key texts of objects are equal keys (`Uniform`, as in C44): otherwise the values in place differ from those of evaluation (C44_false) and \"fails in its scope\" is not the right claim. The environment's template parser is the model of the crate's parser, as in C76."
 ],
 "C79": [
  "partial",
  "False of the code where entries of an object merge in the first stage (C79_false). Proved for contexts with well-formed values where no entries of an object merge, for instance where keys are distinct identifiers and strings, and for templates whose loop variables are not defined in the first stage (C54_false)."
 ],
 "C80": [
  "partial",
  "False of the code where entries of an object merge in the first stage (C80_false). Proved for contexts with well-formed values where no entries of an object merge, for instance where keys are distinct identifiers and strings."
 ],
 "C81": [
  "partial",
  "All parts but --simplify are proved in full. For --simplify, objects whose keys merge and keys that are no names are missing (C44, C63, C79)."
 ],
 "C82": [
  "partial",
  "The full claim is false (C82_changes_fails, C82_minus_fails, C82_valid_fails, C82_template_fails, C51). Templates are compared by their elements."
 ],
 "C83": [
  "partial",
  "Proved for the templates of Spec/TemplateText.lean; each exclusion is a place where the claim is false (the _fails theorems, and C51 for the expressions in the template). Templates in the expressions of a template are compared by their elements."
 ],
 "C84": [
  "partial",
  "Reading is proved in full. Writing is proved for values whose numbers and strings survive being written (C13, C52); false otherwise (C84_write_fails, C84_inject_fails)."
 ],
 "C85": [
  "partial",
  "Proved for errors without text from elsewhere: names are identifiers, keys and expectations have no backtick, values can be read back (C29), the message is not the function's own. C85_types has no condition. False otherwise (C85_key_fails, C85_own_fails, C85_list_fails, C85_arguments_fails)."
 ],
 "C86": [
  "proved",
  ""
 ],
 "C87": [
  "proved",
  ""
 ],
 "C88": [
  "partial",
  "False of is_i64, which is true for negative integers only (C88_i64_fails), against its documentation. Everything else is proved."
 ],
 "C89": [
  "proved",
  ""
 ],
 "C90": [
  "proved",
  "errors are compared by kind, not by the expressions they report as their origin"
 ],
 "C91": [
  "proved",
  "errors are compared by kind, not by the expressions they report as their origin"
 ],
 "C92": [
  "proved",
  "conversions of the arguments of the builder methods (`Into`) are left out"
 ],
 "C93": [
  "proved",
  "for any notes; which notes the parsers leave is not modelled"
 ],
 "C94": [
  "proved",
  "references are not modelled: accessors that give mutable ones find the same part"
 ],
 "C95": [
  "proved",
  "the mutable iterator is modelled as changes at each index; capacities are not modelled"
 ],
 "C96": [
  "proved",
  "`Body::get_mut` is left out: it gives out the whole structure, and C21_get_mut_false shows what follows"
 ]
}