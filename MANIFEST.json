{
 "claims": [
  {
   "property": "C01",
   "status": "proved",
   "theorems": [
    "Verif.Props.C01_isIdent_iff",
    "Verif.Props.C01_tryNew"
   ],
   "note": ""
  },
  {
   "property": "C02",
   "status": "proved",
   "theorems": [
    "Verif.Props.C02_sanitized_valid",
    "Verif.Props.C02_sanitize_valid_id",
    "Verif.Props.C02_sanitize_idempotent",
    "Verif.Props.C02_sanitize_rules"
   ],
   "note": ""
  },
  {
   "property": "C03",
   "status": "proved",
   "theorems": [
    "Verif.Props.C03_unary",
    "Verif.Props.C03_binary",
    "Verif.Props.C03_binary_injective",
    "Verif.Props.C03_unary_injective"
   ],
   "note": ""
  },
  {
   "property": "C04",
   "status": "proved",
   "theorems": [
    "Verif.Props.C04_precedence"
   ],
   "note": ""
  },
  {
   "property": "C05",
   "status": "partial",
   "theorems": [
    "Verif.Props.C05_roundtrip_fails",
    "Verif.Props.C05_roundtrip_fails_unescape",
    "Verif.Props.C05_roundtrip_partial",
    "Verif.Props.C05_roundtrip_one_marker_partial"
   ],
   "note": "The round trip is false of the code (witnesses C05_roundtrip_fails*); proved for text without adjacent sigils directly before a brace."
  },
  {
   "property": "C06",
   "status": "partial",
   "theorems": [
    "Verif.Props.C06_no_live_marker_fails",
    "Verif.Props.C06_literal_changed",
    "Verif.Props.C06_escaped_reads_back_partial"
   ],
   "note": "False of the code in general (witness C06_no_live_marker_fails); proved under the same condition as C05."
  },
  {
   "property": "C07",
   "status": "partial",
   "theorems": [
    "Verif.Props.C07_add_inexact",
    "Verif.Props.C07_sub_panics",
    "Verif.Props.C07_mul_overflows",
    "Verif.Props.C07_small_exact_partial",
    "Verif.Props.C07_same_sign_exact_partial"
   ],
   "note": "Exactness is false of the code (C07_add_inexact, C07_sub_panics, C07_mul_overflows); proved for small integers and for same-sign operands whose result fits."
  },
  {
   "property": "C08",
   "status": "partial",
   "theorems": [
    "Verif.Props.C08_neg_wraps",
    "Verif.Props.C08_neg_panics",
    "Verif.Props.C08_neg_partial"
   ],
   "note": "Negation wraps or panics outside the i64 range (C08_neg_wraps, C08_neg_panics); C08_neg_partial is the exact condition."
  },
  {
   "property": "C09",
   "status": "partial",
   "theorems": [
    "Verif.Props.C09_clamps",
    "Verif.Props.C09_none_iff",
    "Verif.Props.C09_value_partial"
   ],
   "note": "Values outside the i64 range are clamped (C09_clamps); C09_value_partial is the exact condition."
  },
  {
   "property": "C10",
   "status": "partial",
   "theorems": [
    "Verif.Props.C10_not_transitive",
    "Verif.Props.C10_equality_partial",
    "Verif.Props.C10_order_partial",
    "Verif.Props.C10_hash_partial",
    "Verif.Props.C10_hash_float"
   ],
   "note": "Equality is not transitive across representations (C10_not_transitive); equivalence, order and hash agreement proved under the stated conditions."
  },
  {
   "property": "C11",
   "status": "partial",
   "theorems": [
    "Verif.Props.C11_zero_divisor",
    "Verif.Props.C11_quotient_overflow",
    "Verif.Props.C11_add_partial",
    "Verif.Props.C11_sub_partial",
    "Verif.Props.C11_mul_partial",
    "Verif.Props.C11_div_partial",
    "Verif.Props.C11_rem_partial"
   ],
   "note": "Division/remainder by zero and overflow panic (C11_zero_divisor, C11_quotient_overflow); exact conditions for no panic in the C11_*_partial theorems."
  },
  {
   "property": "C12",
   "status": "proved",
   "theorems": [
    "Verif.Props.C12_as_u64",
    "Verif.Props.C12_as_i64",
    "Verif.Props.C12_accessors_complete",
    "Verif.Props.C12_from_as",
    "Verif.Props.C12_is_i64_doc_fails"
   ],
   "note": "Also shows that is_i64 disagrees with its documentation (C12_is_i64_doc_fails)."
  },
  {
   "property": "C13",
   "status": "partial",
   "theorems": [
    "Verif.Props.C13_roundtrip_fails",
    "Verif.Props.C13_not_a_string_fails",
    "Verif.Props.C13_roundtrip_partial",
    "Verif.Props.C13_no_marker_partial"
   ],
   "note": "False of the code for strings in which, after the first marker, a marker is directly preceded by another $ or % (witnesses C13_roundtrip_fails, C13_not_a_string_fails, which follow from the marker escaping of C05/C06). Proved for all other strings, with any following text."
  },
  {
   "property": "C14",
   "status": "partial",
   "theorems": [
    "Verif.Props.C14_accepted_fails",
    "Verif.Props.C14_accepted_partial",
    "Verif.Props.C14_wellformed_accepted"
   ],
   "note": "False of the code for a malformed escape right in front of the closing quote of a non-empty string (witness C14_accepted_fails). Proved: nothing else with a malformed escape is accepted, the value is what the text stands for, and everything well-formed is accepted."
  },
  {
   "property": "C15",
   "status": "proved",
   "theorems": [
    "Verif.Props.C15_ws",
    "Verif.Props.C15_sp",
    "Verif.Props.C15_sp_within_line",
    "Verif.Props.C15_lone_cr"
   ],
   "note": "ws and sp succeed on every text, skip only trivia, and stop where no trivia starts. A line comment that contains a carriage return not followed by a line feed is not a comment to the parser (C15_lone_cr)."
  },
  {
   "property": "C16",
   "status": "partial",
   "theorems": [
    "Verif.Props.C16_parse_body",
    "Verif.Props.C16_parse_expr",
    "Verif.Props.C16_parse_template",
    "Verif.Props.C16_release",
    "Verif.Props.C16_debug_panics",
    "Verif.Props.C16_depth"
   ],
   "note": "Termination and the absence of any panic but one are proved for every input: in a build with overflow checks the literal -9223372036854775808 panics (C16_debug_panics), so the full statement is false there; C16_release is the full statement for builds without overflow checks. The bound on the recursion in the model is not observable: every greater one gives the same results (C16_depth). Stack depth is not modelled."
  },
  {
   "property": "C17",
   "status": "partial",
   "theorems": [
    "Verif.Props.C17_body_partial",
    "Verif.Props.C17_expr_partial",
    "Verif.Props.C17_template_partial",
    "Verif.Props.C17_operand_dropped",
    "Verif.Props.C17_escape_dropped"
   ],
   "note": "The tree is related to the whole input by a grammar without gaps, which also tells where line breaks are whitespace and where they are not. Missing: the grammar needs a rule for operator tails that are read and dropped and for malformed escapes inside strings; C17_operand_dropped and C17_escape_dropped show that the code really ignores such text."
  },
  {
   "property": "C18",
   "status": "partial",
   "theorems": [
    "Verif.Props.C18_body_partial",
    "Verif.Props.C18_expr_partial",
    "Verif.Props.C18_template_partial",
    "Verif.Props.C18_reparse_partial",
    "Verif.Props.C18_plain_string",
    "Verif.Props.C18_operator_space_lost",
    "Verif.Props.C18_traversal_space_lost",
    "Verif.Props.C18_operand_lost",
    "Verif.Props.C18_duplicate_key_lost",
    "Verif.Props.C18_crlf_lost",
    "Verif.Props.C18_escape_lost",
    "Verif.Props.C18_newline_escaped",
    "Verif.Props.C18_heredoc_dash_lost",
    "Verif.Props.C18_nested_template",
    "Verif.Props.C18_nested_heredoc",
    "Verif.Props.C18_grouping_space",
    "Verif.Props.C18_false"
   ],
   "note": "False of the code as stated (witnesses C18_operator_space_lost, ..., C18_false; three of them print text that does not parse). Proved for every document without carriage returns in which the constructs of the witnesses are spelled as they are printed (canonBody, a computable test)."
  },
  {
   "property": "C19",
   "status": "partial",
   "theorems": [
    "Verif.Props.C19_chain_partial",
    "Verif.Props.C19_clash_drops",
    "Verif.Props.C19_parsed"
   ],
   "note": "For every chain: without two comparisons of the same precedence that only tighter operators separate, the tree has all operands and operators in order and is the unique tree by precedence and associativity; with such a pair, everything from a comparison on is lost (the full property is false, C19_clash_drops). C19_parsed and the grammar of C17 carry the precedence rules to whole parses."
  },
  {
   "property": "C20",
   "status": "proved",
   "theorems": [
    "Verif.Props.C20_unique_keys"
   ],
   "note": "At every nesting level."
  },
  {
   "property": "C21",
   "status": "proved",
   "theorems": [
    "Verif.Props.C21_unique_keys",
    "Verif.Props.C21_keeps_unique_keys",
    "Verif.Props.C21_rejection",
    "Verif.Props.C21_get_mut_false"
   ],
   "note": "Element-wise mutable access (get_mut, iter_mut) can rename keys and is outside the stated property (C21_get_mut_false)."
  },
  {
   "property": "C22",
   "status": "proved",
   "theorems": [
    "Verif.Props.C22_get_attribute_iff",
    "Verif.Props.C22_get_attribute_none",
    "Verif.Props.C22_history",
    "Verif.Props.C22_remove_attribute",
    "Verif.Props.C22_remove_attribute_lookup",
    "Verif.Props.C22_get_blocks",
    "Verif.Props.C22_remove_blocks"
   ],
   "note": ""
  },
  {
   "property": "C23",
   "status": "partial",
   "theorems": [
    "Verif.Props.C23_dedent_partial",
    "Verif.Props.C23_unchanged",
    "Verif.Props.C23_hole_first",
    "Verif.Props.C23_reindent_partial",
    "Verif.Props.C23_reindent_text",
    "Verif.Props.C23_content_lost",
    "Verif.Props.C23_blank_line_lost",
    "Verif.Props.C23_tabs_lost",
    "Verif.Props.C23_crlf_lost",
    "Verif.Props.C23_directive_indented"
   ],
   "note": "For templates whose literals are not empty, not adjacent and without carriage returns, and whose lines all begin with whitespace, dedenting removes the common indentation, as much as the least indented line has, and re-indenting restores templates indented with spaces. False in general: a line without indentation in a literal after an interpolation loses characters (C23_content_lost); a line that has only the removed spaces, tabs, carriage returns and literals inside of directives are not restored."
  },
  {
   "property": "C24",
   "status": "partial",
   "theorems": [
    "Verif.Props.C24_visited_partial",
    "Verif.Props.C24_exprs_partial",
    "Verif.Props.C24_only_parts",
    "Verif.Props.C24_order",
    "Verif.Props.C24_mut_partial",
    "Verif.Props.C24_collection_fails"
   ],
   "note": "Proved for all nodes reachable without passing from a for directive to its collection; the collection is never visited (witness). VisitMut likewise; it also leaves out object keys and attribute keys."
  },
  {
   "property": "C25",
   "status": "partial",
   "theorems": [
    "Verif.Props.C25_expr_partial",
    "Verif.Props.C25_template_partial",
    "Verif.Props.C25_body_partial",
    "Verif.Props.C25_decor_ignored",
    "Verif.Props.C25_body_decor_ignored",
    "Verif.Props.C25_expand_fails",
    "Verif.Props.C25_trailing_fails",
    "Verif.Props.C25_parsed_fails",
    "Verif.Props.C25_directive_fails"
   ],
   "note": "False of the code: the `...` of a call is not compared (C25_expand_fails) and whitespace before closing brackets and in directives is (C25_trailing_fails, C25_directive_fails, C25_parsed_fails). Proved: equality is exactly equality of what is left when decor, spans, number notation and `...` are left out, up to the order of object entries."
  },
  {
   "property": "C26",
   "status": "partial",
   "theorems": [
    "Verif.Props.C26_display_partial",
    "Verif.Props.C26_location_partial",
    "Verif.Props.C26_column_wrong"
   ],
   "note": "Line, offset and line text exact; column exact when the character at the error or all characters before it on the line are ASCII. C26_column_wrong shows that the column is a byte count otherwise. C26_display_partial: the caret of a displayed error stands under the character of the error (same condition); the text of the message itself is a parameter."
  },
  {
   "property": "C27",
   "status": "partial",
   "theorems": [
    "Verif.Props.C27_expr_partial",
    "Verif.Props.C27_template_partial",
    "Verif.Props.C27_body_partial",
    "Verif.Props.C27_plain_keys",
    "Verif.Props.C27_strip_mode_lost",
    "Verif.Props.C27_strip_mode_fails",
    "Verif.Props.C27_unparsed_lost",
    "Verif.Props.C27_entry_lost",
    "Verif.Props.C27_else_strip_lost"
   ],
   "note": "Proved for expressions, templates and bodies whose template texts are reprinted verbatim, whose heredocs have no strip mode and whose object keys stay different in hcl-edit. The full claim is false: the strip mode of heredocs, unparseable template texts, object entries with keys hcl-edit takes for equal, and the strip mode of an absent else are lost (witnesses)."
  },
  {
   "property": "C28",
   "status": "proved",
   "theorems": [
    "Verif.Props.C28_roundtrip",
    "Verif.Props.C28_eval"
   ],
   "note": "For every value whose objects have distinct keys, the invariant of the map type."
  },
  {
   "property": "C29",
   "status": "partial",
   "theorems": [
    "Verif.Props.C29_partial",
    "Verif.Props.C29_templated_fails",
    "Verif.Props.C29_for_fails",
    "Verif.Props.C29_min_fails"
   ],
   "note": "Proved for every configuration and every value with distinct keys whose strings are not written as templates (C29_partial). That the float printer (ryu) writes a text that denotes the float is a hypothesis. False otherwise: strings that look like templates are written without escapes (C29_templated_fails), with prefer_ident_keys an object cannot start with the key `for` (C29_for_fails), the smallest integer panics in a debug build (C29_min_fails)."
  },
  {
   "property": "C30",
   "status": "partial",
   "theorems": [
    "Verif.Props.C30_body_partial",
    "Verif.Props.C30_expr_partial",
    "Verif.Props.C30_value_partial",
    "Verif.Props.C30_template_partial",
    "Verif.Props.C30_erased_partial",
    "Verif.Props.C30_false"
   ],
   "note": "Read literally false of the code: compact objects have commas (C30_false). Proved up to that separator, for blank indents and equal prefer_ident_keys."
  },
  {
   "property": "C31",
   "status": "proved",
   "theorems": [
    "Verif.Props.C31_expr",
    "Verif.Props.C31_value",
    "Verif.Props.C31_template",
    "Verif.Props.C31_body",
    "Verif.Props.C31_text"
   ],
   "note": "The writer is assumed not to fail."
  },
  {
   "property": "C32",
   "status": "partial",
   "theorems": [
    "Verif.Props.C32_non_body",
    "Verif.Props.C32_body_exact",
    "Verif.Props.C32_body_partial",
    "Verif.Props.C32_false"
   ],
   "note": "False of the code: a reused formatter may start the next body with an empty line (C32_false). C32_body_exact says exactly when; expressions, values and templates are history independent."
  },
  {
   "property": "C33",
   "status": "partial",
   "theorems": [
    "Verif.Props.C33_is_templated_partial",
    "Verif.Props.C33_false",
    "Verif.Props.C33_reader"
   ],
   "note": "False of the code: a marker at the very end of the text is missed (C33_false). Proved for texts whose last two characters are not a marker."
  },
  {
   "property": "C34",
   "status": "proved",
   "theorems": [
    "Verif.Props.C34_innermost",
    "Verif.Props.C34_undeclared",
    "Verif.Props.C34_declare",
    "Verif.Props.C34_child",
    "Verif.Props.C34_free_names",
    "Verif.Props.C34_no_leak"
   ],
   "note": ""
  },
  {
   "property": "C35",
   "status": "proved",
   "theorems": [
    "Verif.Props.C35_true",
    "Verif.Props.C35_false",
    "Verif.Props.C35_not_bool",
    "Verif.Props.C35_cond_fails"
   ],
   "note": ""
  },
  {
   "property": "C36",
   "status": "proved",
   "theorems": [
    "Verif.Props.C36_strict_left",
    "Verif.Props.C36_strict_right",
    "Verif.Props.C36_strict_unary",
    "Verif.Props.C36_untyped",
    "Verif.Props.C36_equality",
    "Verif.Props.C36_logical",
    "Verif.Props.C36_comparison",
    "Verif.Props.C36_arithmetic",
    "Verif.Props.C36_untyped_unary"
   ],
   "note": "Arithmetic on accepted operands is Number arithmetic, see C07-C11 for its own limits (including panics)."
  },
  {
   "property": "C37",
   "status": "proved",
   "theorems": [
    "Verif.Props.C37_array",
    "Verif.Props.C37_array_error",
    "Verif.Props.C37_not_a_collection",
    "Verif.Props.C37_object",
    "Verif.Props.C37_duplicate_key",
    "Verif.Props.C37_object_error",
    "Verif.Props.C37_grouping"
   ],
   "note": ""
  },
  {
   "property": "C38",
   "status": "proved",
   "theorems": [
    "Verif.Props.C38_full_splat",
    "Verif.Props.C38_full_splat_null",
    "Verif.Props.C38_full_splat_other",
    "Verif.Props.C38_attr_splat",
    "Verif.Props.C38_attr_splat_null",
    "Verif.Props.C38_attr_splat_other"
   ],
   "note": ""
  },
  {
   "property": "C39",
   "status": "proved",
   "theorems": [
    "Verif.Props.C39_compose",
    "Verif.Props.C39_index",
    "Verif.Props.C39_legacy_index",
    "Verif.Props.C39_key",
    "Verif.Props.C39_wrong_type"
   ],
   "note": ""
  },
  {
   "property": "C40",
   "status": "proved",
   "theorems": [
    "Verif.Props.C40_accepted",
    "Verif.Props.C40_rejected",
    "Verif.Props.C40_undeclared",
    "Verif.Props.C40_argument_fails"
   ],
   "note": "User functions are modelled as pure functions from argument lists to results."
  },
  {
   "property": "C41",
   "status": "partial",
   "theorems": [
    "Verif.Props.C41_false",
    "Verif.Props.C41_param_types_partial"
   ],
   "note": "A one-of type with no alternatives is satisfied by nothing although documented as any type (C41_false); proved for types without an empty one-of."
  },
  {
   "property": "C42",
   "status": "proved",
   "theorems": [
    "Verif.Props.C42_strip_markers",
    "Verif.Props.C42_trim_unique",
    "Verif.Props.C42_trim_exists"
   ],
   "note": ""
  },
  {
   "property": "C43",
   "status": "proved",
   "theorems": [
    "Verif.Props.C43_concatenation",
    "Verif.Props.C43_template_expr",
    "Verif.Props.C43_unwrap",
    "Verif.Props.C43_fails"
   ],
   "note": "The string form of a non-string value is the formatter's output, a parameter of the evaluator model."
  },
  {
   "property": "C44",
   "status": "partial",
   "theorems": [
    "Verif.Props.C44_expression_partial",
    "Verif.Props.C44_body_partial",
    "Verif.Props.C44_false",
    "Verif.Props.C44_fails_spuriously"
   ],
   "note": "False of the code: an object that writes one key text in two ways (C44_false). Proved when equal key texts are equal keys (Uniform). In-place evaluation may also fail where evaluate succeeds (C44_fails_spuriously)."
  },
  {
   "property": "C45",
   "status": "partial",
   "theorems": [
    "Verif.Props.C45_every_attribute",
    "Verif.Props.C45_replaced_partial",
    "Verif.Props.C45_reports_partial"
   ],
   "note": "C45_every_attribute is unconditional; that error-free attributes hold their value and that every failure is reported inherits the restriction of C44."
  },
  {
   "property": "C46",
   "status": "partial",
   "theorems": [
    "Verif.Props.C46_blocks_partial",
    "Verif.Props.C46_false"
   ],
   "note": "False of the code when block types/labels clash with attributes or each other (C46_false); proved without such clashes."
  },
  {
   "property": "C47",
   "status": "partial",
   "theorems": [
    "Verif.Props.C47_attributes_partial",
    "Verif.Props.C47_false",
    "Verif.Props.C47_names"
   ],
   "note": "False of the code when an attribute and a block share a name (C47_false); proved without such clashes."
  },
  {
   "property": "C48",
   "status": "partial",
   "theorems": [
    "Verif.Props.C48_mode_restored",
    "Verif.Props.C48_reachable",
    "Verif.Props.C48_handles_fresh",
    "Verif.Props.C48_no_panic",
    "Verif.Props.C48_balanced_partial",
    "Verif.Props.C48_leak",
    "Verif.Props.C48_leak_structure",
    "Verif.Props.C48_leak_key",
    "Verif.Props.C48_reserved_name"
   ],
   "note": "Mode restored, handles distinct and never reused, no panic for honest values: proved for every value. Every handle is taken out again: proved for values whose expressions and structures stand at the documented places (C48_balanced_partial); false elsewhere (C48_leak, C48_leak_structure, C48_leak_key)."
  },
  {
   "property": "C49",
   "status": "proved",
   "theorems": [
    "Verif.Props.C49_labels",
    "Verif.Props.C49_labels_map",
    "Verif.Props.C49_doubly_labeled",
    "Verif.Props.C49_nothing_skipped"
   ],
   "note": "Trees of LabeledBlock over maps, structs, enum variants and sequences of any depth; one block per leaf, labels outermost first, body as the leaf alone gives. C49_nothing_skipped: adding labels never skips anything."
  },
  {
   "property": "C50",
   "status": "proved",
   "theorems": [
    "Verif.Props.C50_all_or_error",
    "Verif.Props.C50_continue_on_error",
    "Verif.Props.C50_schedule_independent"
   ],
   "note": "rayon is modelled by its contract: own slot per item, any order, one kept error."
  },
  {
   "property": "C51",
   "status": "partial",
   "theorems": [
    "Verif.Props.C51_expr_partial",
    "Verif.Props.C51_body_partial",
    "Verif.Props.C51_for_fails",
    "Verif.Props.C51_items_fails",
    "Verif.Props.C51_legacy_index_fails",
    "Verif.Props.C51_template_fails",
    "Verif.Props.C51_heredoc_fails",
    "Verif.Props.C51_markers_fail"
   ],
   "note": "Proved for every configuration and every expression and body that needs no parentheses or blanks the formatter does not write, with heredocs that start with << and quoted templates whose text is the same in quotes and outside (Spec/Printable.lean). False otherwise: C51_for_fails, C51_items_fails, C51_legacy_index_fails, C51_template_fails, C51_heredoc_fails, C51_markers_fail."
  },
  {
   "property": "C52",
   "status": "partial",
   "theorems": [
    "Verif.Props.C52_nonnegative",
    "Verif.Props.C52_negative_partial",
    "Verif.Props.C52_smallest_panics"
   ],
   "note": "Proved for every integer of 64 bits except the smallest in a debug build, where parsing panics (witness C52_smallest_panics)."
  },
  {
   "property": "C53",
   "status": "proved",
   "theorems": [
    "Verif.Props.C53_body_spans",
    "Verif.Props.C53_expr_spans",
    "Verif.Props.C53_template_spans",
    "Verif.Props.C53_decor_in_input",
    "Verif.Props.C53_decor_text",
    "Verif.Props.C53_operator_decor_spanned"
   ],
   "note": "Spans lie in the input, nest, and cover the text of tokens; decor spans lie in the input. C53_decor_text: no decor is left as a span, except that of binary operators and traversal operators (C53_operator_decor_spanned)."
  },
  {
   "property": "C54",
   "status": "partial",
   "theorems": [
    "Verif.Props.C54_template_partial",
    "Verif.Props.C54_false"
   ],
   "note": "False of the code: for-directive bodies are evaluated without loop variables (C54_false). Proved for templates whose for bodies do not use loop variables."
  },
  {
   "property": "C56",
   "status": "proved",
   "theorems": [
    "Verif.Props.C56_edit_equivalence",
    "Verif.Props.C56_body_equivalence",
    "Verif.Props.C56_expr_iff",
    "Verif.Props.C56_expr_equivalence"
   ],
   "note": "For trees with well-formed numbers and distinct object keys, which is what Number and VecMap maintain."
  },
  {
   "property": "C57",
   "status": "partial",
   "theorems": [
    "Verif.Props.C57_history_partial",
    "Verif.Props.C57_nested_partial",
    "Verif.Props.C57_history_fails",
    "Verif.Props.C57_to_value_fails"
   ],
   "note": "Proved for honest values whose expressions and structures stand at the documented places; false elsewhere (C57_history_fails, C57_to_value_fails)."
  },
  {
   "property": "C58",
   "status": "proved",
   "theorems": [
    "Verif.Props.C58_body",
    "Verif.Props.C58_expr",
    "Verif.Props.C58_fields",
    "Verif.Props.C58_bad_field",
    "Verif.Props.C58_value",
    "Verif.Props.C58_value_expr"
   ],
   "note": "Values: with unique keys and well-formed numbers."
  },
  {
   "property": "C59",
   "status": "partial",
   "theorems": [
    "Verif.Props.C59_to_value_partial",
    "Verif.Props.C59_object_fails",
    "Verif.Props.C59_template_fails"
   ],
   "note": "Proved for expressions without templates and objects with entries; false for these (C59_object_fails, C59_template_fails)."
  },
  {
   "property": "C60",
   "status": "partial",
   "theorems": [
    "Verif.Props.C60_agree_partial",
    "Verif.Props.C60_document",
    "Verif.Props.C60_document_map",
    "Verif.Props.C60_object_document",
    "Verif.Props.C60_object_document_bad",
    "Verif.Props.C60_other_document_bad",
    "Verif.Props.C60_variant_document",
    "Verif.Props.C60_number_key_fails",
    "Verif.Props.C60_variant_name_fails",
    "Verif.Props.C60_mixed_keys_fail"
   ],
   "note": "Proved for all data whose map keys are strings and whose newtype variants are named by identifiers. False otherwise: C60_number_key_fails, C60_variant_name_fails, C60_mixed_keys_fail."
  },
  {
   "property": "C61",
   "status": "partial",
   "theorems": [
    "Verif.Props.C61_expr_partial",
    "Verif.Props.C61_template_partial",
    "Verif.Props.C61_body_partial",
    "Verif.Props.C61_expr_unambiguous",
    "Verif.Props.C61_body_unambiguous",
    "Verif.Props.C61_template_unambiguous",
    "Verif.Props.C61_items_fails",
    "Verif.Props.C61_lines_fails",
    "Verif.Props.C61_emptyHeredoc_fails",
    "Verif.Props.C61_heredocLine_fails"
   ],
   "note": "Proved for the grammar with quoted templates, heredocs, interpolations and directives. Missing: empty heredocs, lines that begin with the delimiter of a heredoc, and heredocs with the introduction <<- whose lines are partly indented or have carriage returns; the parser deviates for all of these. The parsed tree is compared with the spelled one by Spec/Means.lean: equal, except that the text of a template is compared by the elements it spells. False for object items after a value that contains an array, a function call or a for expression if they look like a continuation (C61_items_fails)."
  },
  {
   "property": "C62",
   "status": "proved",
   "theorems": [
    "Verif.Props.C62_value",
    "Verif.Props.C62_expression",
    "Verif.Props.C62_body",
    "Verif.Props.C62_document_expression",
    "Verif.Props.C62_determined",
    "Verif.Props.C62_unchecked_fails"
   ],
   "note": "For trees whose identifiers are identifiers, whose numbers are well formed and whose object keys differ, as the types of the crate ensure. An identifier made with Identifier::unchecked that is none is rejected (C62_unchecked_fails)."
  },
  {
   "property": "C63",
   "status": "partial",
   "theorems": [
    "Verif.Props.C63_expression_partial",
    "Verif.Props.C63_document_partial",
    "Verif.Props.C63_scalar_key_fails",
    "Verif.Props.C63_variable_key_fails",
    "Verif.Props.C63_expression_from_value_fails"
   ],
   "note": "Proved for object keys that are identifiers or strings. False otherwise: keys that are numbers, booleans or null are rejected (C63_scalar_key_fails), a variable as a key gives template syntax (C63_variable_key_fails). Expressions are not deserialized from values (C63_expression_from_value_fails)."
  },
  {
   "property": "C64",
   "status": "partial",
   "theorems": [
    "Verif.Props.C64_expression_partial",
    "Verif.Props.C64_value_partial",
    "Verif.Props.C64_newtype_fails",
    "Verif.Props.C64_newtype_array_fails",
    "Verif.Props.C64_some_null_fails",
    "Verif.Props.C64_infinity_fails",
    "Verif.Props.C64_variant_key_fails",
    "Verif.Props.C64_integer_key_fails"
   ],
   "note": "Proved under ExprSafe and ValueSafe. False for newtype structs from values (C64_newtype_fails, C64_newtype_array_fails), Some around what is null (C64_some_null_fails), floats that are not finite (C64_infinity_fails), enum variants as keys in expressions (C64_variant_key_fails) and integer keys in values (C64_integer_key_fails)."
  },
  {
   "property": "C65",
   "status": "partial",
   "theorems": [
    "Verif.Props.C65_partial",
    "Verif.Props.C65_tuple_block_fails",
    "Verif.Props.C65_one_block_fails",
    "Verif.Props.C65_no_block_fails",
    "Verif.Props.C65_option_fails",
    "Verif.Props.C65_labeled_one_fails"
   ],
   "note": "Proved for data described by DocRoot (structs, maps, newtype structs and enum variants of attributes, Block and LabeledBlock), with the option prefer_ident_keys off. False for Block<Vec<T>> with one element or none (C65_one_block_fails, C65_no_block_fails, C65_labeled_one_fails), for a tuple variant in a Block (C65_tuple_block_fails), for a document that is an Option (C65_option_fails) and for strings with the markers of C13. Missing: template expressions inside the data."
  },
  {
   "property": "C66",
   "status": "partial",
   "theorems": [
    "Verif.Props.C66_partial",
    "Verif.Props.C66_newtype_fails",
    "Verif.Props.C66_struct_variant_fails",
    "Verif.Props.C66_enum_key_fails",
    "Verif.Props.C66_converse_fails"
   ],
   "note": "Proved for types without newtype structs, struct variants and enums as map keys. False for those (C66_newtype_fails, C66_struct_variant_fails, C66_enum_key_fails). The converse is false too (C66_converse_fails)."
  },
  {
   "property": "C67",
   "status": "proved",
   "theorems": [
    "Verif.Props.C67_value",
    "Verif.Props.C67_value_rejected"
   ],
   "note": "Acceptance, the result and rejection are characterised for every user type; the types of syntax trees (Expression, Body, operators) are left to C62."
  },
  {
   "property": "C68",
   "status": "proved",
   "theorems": [
    "Verif.Props.C68_expression",
    "Verif.Props.C68_expression_rejected",
    "Verif.Props.C68_unique",
    "Verif.Props.C68_ends",
    "Verif.Props.C68_string",
    "Verif.Props.C68_parts",
    "Verif.Props.C68_quoted",
    "Verif.Props.C68_document",
    "Verif.Props.C68_document_text_fails",
    "Verif.Props.C68_document_option_fails"
   ],
   "note": "Acceptance, the result and rejection are characterised for every user type and every expression with well-formed numbers (Clean, an invariant of Number), whatever its object keys are; deserializing always ends (C68_ends). Documents are read like the object they stand for by every user type except Option, String, char and Identifier, which reject every document (C68_document_option_fails, C68_document_text_fails)."
  },
  {
   "property": "C55",
   "status": "partial",
   "theorems": [
    "Verif.Props.C55_body_partial",
    "Verif.Props.C55_expr_partial",
    "Verif.Props.C55_set_value",
    "Verif.Props.C55_nested_fails",
    "Verif.Props.C55_directive_fails",
    "Verif.Props.C55_heredoc_fails",
    "Verif.Props.C55_for_fails",
    "Verif.Props.C55_parentheses_fails",
    "Verif.Props.C55_key_fails"
   ],
   "note": "Proved for every tree that can be written without adding parentheses, including quoted templates and heredocs with interpolations and directives (C55_body_partial, C55_expr_partial, C55_set_value). False of for expressions built from scratch (C55_for_fails), of operands that need parentheses (C55_parentheses_fails), of variables as object keys (C55_key_fails), of text after a template nested in a template (C55_nested_fails) of escaped text inside directives (C55_directive_fails) and of heredocs inside quoted templates (C55_heredoc_fails). Missing: heredocs whose indentation was removed when they were read."
  },
  {
   "property": "C69",
   "status": "partial",
   "theorems": [
    "Verif.Props.C69_expression_partial",
    "Verif.Props.C69_attribute_partial",
    "Verif.Props.C69_tuple_fails",
    "Verif.Props.C69_dot_fails"
   ],
   "note": "Proved for texts without any brackets, quotes, heredocs and block comments, for expressions and for every attribute of a document. The full property is false: behind a tuple, a function call or a for expression, and behind the . of an attribute access, the parser goes on over line breaks (C69_tuple_fails, C69_dot_fails)."
  },
  {
   "property": "C70",
   "status": "partial",
   "theorems": [
    "Verif.Props.C70_expression_partial",
    "Verif.Props.C70_value_partial",
    "Verif.Props.C70_body_partial",
    "Verif.Props.C70_attribute_partial",
    "Verif.Props.C70_block_partial",
    "Verif.Props.C70_identifiers",
    "Verif.Props.C70_negative_fails",
    "Verif.Props.C70_leading_comma_fails",
    "Verif.Props.C70_raw_label_fails"
   ],
   "note": "Proved for the tokens that Spec/Macro.lean describes. The full property is false: a negative number is not accepted as the value of an attribute in body! or as the last value of an object without a comma, a leading comma in an array is accepted, and a raw identifier as a label keeps its r# (C70_negative_fails, C70_leading_comma_fails, C70_raw_label_fails). The compiler's own expression parser is a parameter with the assumptions Spec.Sane."
  },
  {
   "property": "C71",
   "status": "proved",
   "theorems": [
    "Verif.Props.C71_body",
    "Verif.Props.C71_expression",
    "Verif.Props.C71_unchanged",
    "Verif.Props.C71_default",
    "Verif.Props.C71_unique_keys"
   ],
   "note": "Rewritten (Spec/VisitMut.lean) describes the result in terms of the parts of a node and determines it; which nodes are reached is C24."
  },
  {
   "property": "C72",
   "status": "proved",
   "theorems": [
    "Verif.Props.C72_attributes",
    "Verif.Props.C72_blocks",
    "Verif.Props.C72_taken",
    "Verif.Props.C72_structures",
    "Verif.Props.C72_buildBody",
    "Verif.Props.C72_buildBlock",
    "Verif.Props.C72_has_labels",
    "Verif.Props.C72_has_exact_labels"
   ],
   "note": "The iterators of the standard library over slices and vectors are taken as the list of the items that are left."
  },
  {
   "property": "C73",
   "status": "proved",
   "theorems": [
    "Verif.Props.C73_same",
    "Verif.Props.C73_same_value",
    "Verif.Props.C73_complete",
    "Verif.Props.C73_cause",
    "Verif.Props.C73_template"
   ],
   "note": "The theorems hold for every amount of fuel that suffices. Errors of in-place evaluation are C78. The texts of errors are not modelled."
  },
  {
   "property": "C74",
   "status": "proved",
   "theorems": [
    "Verif.Props.C74_distinct_keys",
    "Verif.Props.C74_history",
    "Verif.Props.C74_returned",
    "Verif.Props.C74_insert",
    "Verif.Props.C74_remove",
    "Verif.Props.C74_change",
    "Verif.Props.C74_iter",
    "Verif.Props.C74_collect"
   ],
   "note": "Keys are told apart by their content as in C25. The hypothesis on keys (well-formed numbers, distinct keys in their own objects) is needed for equality to be an equivalence (C10, C56)."
  },
  {
   "property": "C75",
   "status": "partial",
   "theorems": [
    "Verif.Props.C75_expr_partial",
    "Verif.Props.C75_body_partial",
    "Verif.Props.C75_template_partial",
    "Verif.Props.C75_expr_proper_partial",
    "Verif.Props.C75_body_proper_partial",
    "Verif.Props.C75_equality_partial",
    "Verif.Props.C75_keys_fails",
    "Verif.Props.C75_numbers_fails"
   ],
   "note": "The full property is false (`C75_keys_fails`, `C75_numbers_fails`). Proved for trees whose keys contain no whitespace or comments that equality looks at, and, for the part on equality, whose numbers are well-formed."
  },
  {
   "property": "C76",
   "status": "proved",
   "theorems": [
    "Verif.Props.C76_ends",
    "Verif.Props.C76_template_ends",
    "Verif.Props.C76_outcome",
    "Verif.Props.C76_template_outcome",
    "Verif.Props.C76_nesting",
    "Verif.Props.C76_parser_needed"
   ],
   "note": "The environment's template parser is the model of the crate's parser followed by the conversion (`ReadsTemplates`). Functions in scope are total functions of their arguments, so a function that does not return or panics is not covered. A panic of the template parser itself (C16, debug builds) is an error here. The depth is that of the model's recursion; that the stack suffices for it is not modelled."
  },
  {
   "property": "C77",
   "status": "partial",
   "theorems": [
    "Verif.Props.C77_expression",
    "Verif.Props.C77_template_partial",
    "Verif.Props.C77_template_fails",
    "Verif.Props.C77_structures",
    "Verif.Props.C77_source_partial",
    "Verif.Props.C77_source_template_partial",
    "Verif.Props.C77_source_structures_partial",
    "Verif.Props.C77_lines",
    "Verif.Props.C77_lines_open",
    "Verif.Props.C77_oneline",
    "Verif.Props.C77_insert",
    "Verif.Props.C77_push",
    "Verif.Props.C77_refused",
    "Verif.Props.C77_remove",
    "Verif.Props.C77_remove_attribute",
    "Verif.Props.C77_set_attribute",
    "Verif.Props.C77_number_fails",
    "Verif.Props.C77_number_format",
    "Verif.Props.C77_number_document_fails"
   ],
   "note": "False of numbers that are changed in place: the old text is printed (`C77_number_fails`), and of an expression inside of a template that is replaced by one with a quoted template: the text behind it changes (`C77_template_fails`). For any document the text around the place stays otherwise (`C77_expression`, `C77_template_partial`, `C77_structures`, `C77_lines_open` for the end of a document without a final newline, `C77_oneline` for blocks on one line, and those about operations). That the printed text is the source with the part replaced (`C77_source_partial`, `C77_source_template_partial`, `C77_source_structures_partial`) is proved for documents that are reproduced at all (C18). Missing: places in heredocs whose indentation was removed; that the place in a template is the span of the expression."
  },
  {
   "property": "C78",
   "status": "partial",
   "theorems": [
    "Verif.Props.C78_errors_partial",
    "Verif.Props.C78_errors_body_partial",
    "Verif.Props.C78_errors_template_partial",
    "Verif.Props.C78_ends_partial",
    "Verif.Props.C78_ends_body_partial",
    "Verif.Props.C78_ends_template_partial"
   ],
   "note": "Proved for contexts with well-formed values and expressions in which equal key texts of objects are equal keys (`Uniform`, as in C44): otherwise the values in place differ from those of evaluation (C44_false) and \"fails in its scope\" is not the right claim. The environment's template parser is the model of the crate's parser, as in C76."
  },
  {
   "property": "C79",
   "status": "partial",
   "theorems": [
    "Verif.Props.C79_more_names",
    "Verif.Props.C79_more_names_template",
    "Verif.Props.C79_stages_partial",
    "Verif.Props.C79_stages_plain_partial",
    "Verif.Props.C79_stages_body_partial",
    "Verif.Props.C79_stages_template_partial",
    "Verif.Props.C79_false"
   ],
   "note": "False of the code where entries of an object merge in the first stage (C79_false). Proved for contexts with well-formed values where no entries of an object merge, for instance where keys are distinct identifiers and strings, and for templates whose loop variables are not defined in the first stage (C54_false)."
  },
  {
   "property": "C80",
   "status": "partial",
   "theorems": [
    "Verif.Props.C80_again_partial",
    "Verif.Props.C80_twice_partial",
    "Verif.Props.C80_done",
    "Verif.Props.C80_again_body_partial",
    "Verif.Props.C80_twice_body_partial",
    "Verif.Props.C80_again_template_partial",
    "Verif.Props.C80_twice_template_partial",
    "Verif.Props.C80_false"
   ],
   "note": "False of the code where entries of an object merge in the first stage (C80_false). Proved for contexts with well-formed values where no entries of an object merge, for instance where keys are distinct identifiers and strings."
  },
  {
   "property": "C81",
   "status": "partial",
   "theorems": [
    "Verif.Props.C81_stdin",
    "Verif.Props.C81_single",
    "Verif.Props.C81_all",
    "Verif.Props.C81_succeeds",
    "Verif.Props.C81_continue",
    "Verif.Props.C81_patterns",
    "Verif.Props.C81_simplify_partial",
    "Verif.Props.C81_example",
    "Verif.Props.C81_example_plain",
    "Verif.Props.C81_ambiguous",
    "Verif.Props.C81_not_ignored"
   ],
   "note": "All parts but --simplify are proved in full. For --simplify, objects whose keys merge and keys that are no names are missing (C44, C63, C79)."
  },
  {
   "property": "C82",
   "status": "partial",
   "theorems": [
    "Verif.Props.C82_body_partial",
    "Verif.Props.C82_expr_partial",
    "Verif.Props.C82_idempotent_partial",
    "Verif.Props.C82_example",
    "Verif.Props.C82_changes_fails",
    "Verif.Props.C82_minus_fails",
    "Verif.Props.C82_valid_fails",
    "Verif.Props.C82_template_partial",
    "Verif.Props.C82_template_idempotent_partial",
    "Verif.Props.C82_template_example",
    "Verif.Props.C82_template_fails"
   ],
   "note": "The full claim is false (C82_changes_fails, C82_minus_fails, C82_valid_fails, C82_template_fails, C51). Templates are compared by their elements."
  },
  {
   "property": "C83",
   "status": "partial",
   "theorems": [
    "Verif.Props.C83_display_partial",
    "Verif.Props.C83_injective_partial",
    "Verif.Props.C83_eval_partial",
    "Verif.Props.C83_example",
    "Verif.Props.C83_dollar_fails",
    "Verif.Props.C83_literals_fails",
    "Verif.Props.C83_inject_fails",
    "Verif.Props.C83_empty_fails",
    "Verif.Props.C83_else_fails",
    "Verif.Props.C83_markers_fails"
   ],
   "note": "Proved for the templates of Spec/TemplateText.lean; each exclusion is a place where the claim is false (the _fails theorems, and C51 for the expressions in the template). Templates in the expressions of a template are compared by their elements."
  },
  {
   "property": "C84",
   "status": "partial",
   "theorems": [
    "Verif.Props.C84_reads",
    "Verif.Props.C84_all",
    "Verif.Props.C84_fails",
    "Verif.Props.C84_value",
    "Verif.Props.C84_typed",
    "Verif.Props.C84_field",
    "Verif.Props.C84_data",
    "Verif.Props.C84_write_partial",
    "Verif.Props.C84_roundtrip_partial",
    "Verif.Props.C84_example",
    "Verif.Props.C84_write_fails",
    "Verif.Props.C84_inject_fails",
    "Verif.Props.C84_unused_fails"
   ],
   "note": "Reading is proved in full. Writing is proved for values whose numbers and strings survive being written (C13, C52); false otherwise (C84_write_fails, C84_inject_fails)."
  },
  {
   "property": "C85",
   "status": "partial",
   "theorems": [
    "Verif.Props.C85_message_partial",
    "Verif.Props.C85_expression_partial",
    "Verif.Props.C85_types",
    "Verif.Props.C85_arguments_partial",
    "Verif.Props.C85_number",
    "Verif.Props.C85_list_partial",
    "Verif.Props.C85_lines",
    "Verif.Props.C85_single",
    "Verif.Props.C85_key_fails",
    "Verif.Props.C85_own_fails",
    "Verif.Props.C85_arguments_fails",
    "Verif.Props.C85_list_fails"
   ],
   "note": "Proved for errors without text from elsewhere: names are identifiers, keys and expectations have no backtick, values can be read back (C29), the message is not the function's own. C85_types has no condition. False otherwise (C85_key_fails, C85_own_fails, C85_list_fails, C85_arguments_fails)."
  },
  {
   "property": "C86",
   "status": "proved",
   "theorems": [
    "Verif.Props.C86_called",
    "Verif.Props.C86_rejected",
    "Verif.Props.C86_new"
   ],
   "note": ""
  },
  {
   "property": "C87",
   "status": "proved",
   "theorems": [
    "Verif.Props.C87_serialize",
    "Verif.Props.C87_by_way",
    "Verif.Props.C87_well_formed",
    "Verif.Props.C87_pairs",
    "Verif.Props.C87_numbers"
   ],
   "note": ""
  },
  {
   "property": "C88",
   "status": "partial",
   "theorems": [
    "Verif.Props.C88_contents",
    "Verif.Props.C88_one_kind",
    "Verif.Props.C88_u64",
    "Verif.Props.C88_i64_partial",
    "Verif.Props.C88_i64_fails",
    "Verif.Props.C88_f64",
    "Verif.Props.C88_take"
   ],
   "note": "False of is_i64, which is true for negative integers only (C88_i64_fails), against its documentation. Everything else is proved."
  },
  {
   "property": "C89",
   "status": "proved",
   "theorems": [
    "Verif.Props.C89_shape",
    "Verif.Props.C89_alone",
    "Verif.Props.C89_append",
    "Verif.Props.C89_document"
   ],
   "note": ""
  },
  {
   "property": "C90",
   "status": "proved",
   "theorems": [
    "Verif.Props.C90_exchange",
    "Verif.Props.C90_exchange_here",
    "Verif.Props.C90_literal",
    "Verif.Props.C90_name",
    "Verif.Props.C90_exchange_text",
    "Verif.Props.C90_exchange_text_here",
    "Verif.Props.C90_exchange_template",
    "Verif.Props.C90_exchange_body",
    "Verif.Props.C90_loops_need_more"
   ],
   "note": "errors are compared by kind, not by the expressions they report as their origin"
  },
  {
   "property": "C91",
   "status": "proved",
   "theorems": [
    "Verif.Props.C91_declared",
    "Verif.Props.C91_declared_text",
    "Verif.Props.C91_declared_body",
    "Verif.Props.C91_value_variable",
    "Verif.Props.C91_key_variable",
    "Verif.Props.C91_any_new_name",
    "Verif.Props.C91_directive_value_variable",
    "Verif.Props.C91_directive_key_variable",
    "Verif.Props.C91_new_name",
    "Verif.Props.C91_two_names"
   ],
   "note": "errors are compared by kind, not by the expressions they report as their origin"
  },
  {
   "property": "C92",
   "status": "proved",
   "theorems": [
    "Verif.Props.C92_call",
    "Verif.Props.C92_name",
    "Verif.Props.C92_traversal",
    "Verif.Props.C92_traversal_parts",
    "Verif.Props.C92_traversal_splat",
    "Verif.Props.C92_for",
    "Verif.Props.C92_template",
    "Verif.Props.C92_if",
    "Verif.Props.C92_for_directive"
   ],
   "note": "conversions of the arguments of the builder methods (`Into`) are left out"
  },
  {
   "property": "C93",
   "status": "proved",
   "theorems": [
    "Verif.Props.C93_message",
    "Verif.Props.C93_alternatives",
    "Verif.Props.C93_mentions",
    "Verif.Props.C93_one_line",
    "Verif.Props.C93_nonempty"
   ],
   "note": "for any notes; which notes the parsers leave is not modelled"
  },
  {
   "property": "C94",
   "status": "proved",
   "theorems": [
    "Verif.Props.C94_one_kind",
    "Verif.Props.C94_contents",
    "Verif.Props.C94_converted",
    "Verif.Props.C94_converted_back",
    "Verif.Props.C94_converted_contents",
    "Verif.Props.C94_equal",
    "Verif.Props.C94_null"
   ],
   "note": "references are not modelled: accessors that give mutable ones find the same part"
  },
  {
   "property": "C95",
   "status": "proved",
   "theorems": [
    "Verif.Props.C95_panics",
    "Verif.Props.C95_insert",
    "Verif.Props.C95_remove",
    "Verif.Props.C95_undo",
    "Verif.Props.C95_set",
    "Verif.Props.C95_layout_kept",
    "Verif.Props.C95_last_setter",
    "Verif.Props.C95_elements",
    "Verif.Props.C95_array_text",
    "Verif.Props.C95_settled_text",
    "Verif.Props.C95_push_text"
   ],
   "note": "the mutable iterator is modelled as changes at each index; capacities are not modelled"
  },
  {
   "property": "C96",
   "status": "proved",
   "theorems": [
    "Verif.Props.C96_accessors",
    "Verif.Props.C96_in_place",
    "Verif.Props.C96_one_change",
    "Verif.Props.C96_unique_keys"
   ],
   "note": "`Body::get_mut` is left out: it gives out the whole structure, and C21_get_mut_false shows what follows"
  }
 ]
}