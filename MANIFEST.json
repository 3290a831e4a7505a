{
 "claims": [
  {
   "property": "C01",
   "status": "proved",
   "theorems": [
    "Knuffel.c01_parse_total",
    "Knuffel.c01_parse_total_line"
   ],
   "note": "No text makes the modelled parser panic; termination is by construction (the model is total and its fuel is shown to suffice in nodesRec_fuel/parse_complete)."
  },
  {
   "property": "C02",
   "status": "proved",
   "theorems": [
    "Knuffel.c02_ok_iff_nothing_reported",
    "Knuffel.c02_err_carries_reported",
    "Knuffel.c02_line"
   ],
   "note": ""
  },
  {
   "property": "C03",
   "status": "partial",
   "theorems": [
    "Knuffel.c03_roundtrip_partial",
    "Knuffel.c03_reprint",
    "Knuffel.c03_fails"
   ],
   "note": "False of the code for the built-in types usize and isize (witness proved); proved for every other document, and for every document that comes from parsing."
  },
  {
   "property": "C04",
   "status": "proved",
   "theorems": [
    "Knuffel.c04_layout",
    "Knuffel.c04_any_layout"
   ],
   "note": ""
  },
  {
   "property": "C05",
   "status": "proved",
   "theorems": [
    "Knuffel.c05_slashdash",
    "Knuffel.c05_leave_out"
   ],
   "note": ""
  },
  {
   "property": "C06",
   "status": "proved",
   "theorems": [
    "Knuffel.c06_derivable",
    "Knuffel.c06_accepted",
    "Knuffel.c06_exact",
    "Knuffel.c06_unambiguous",
    "Knuffel.c06_derivable_line"
   ],
   "note": ""
  },
  {
   "property": "C07",
   "status": "proved",
   "theorems": [
    "Knuffel.c07_quoted",
    "Knuffel.c07_quoted_before",
    "Knuffel.c07_node_name",
    "Knuffel.c07_key",
    "Knuffel.c07_exists"
   ],
   "note": ""
  },
  {
   "property": "C08",
   "status": "proved",
   "theorems": [
    "Knuffel.c08_raw",
    "Knuffel.c08_raw_before"
   ],
   "note": ""
  },
  {
   "property": "C09",
   "status": "proved",
   "theorems": [
    "Knuffel.c09_bad_escape",
    "Knuffel.c09_bad_escape_type",
    "Knuffel.c09_short",
    "Knuffel.c09_no_brace",
    "Knuffel.c09_unicode",
    "Knuffel.c09_unclosed"
   ],
   "note": "At any place where a literal, key or name may stand, at any depth."
  },
  {
   "property": "C10",
   "status": "proved",
   "theorems": [
    "Knuffel.c10_decimal",
    "Knuffel.c10_radix"
   ],
   "note": ""
  },
  {
   "property": "C11",
   "status": "proved",
   "theorems": [
    "Knuffel.c11_decimal",
    "Knuffel.c11_only"
   ],
   "note": ""
  },
  {
   "property": "C12",
   "status": "proved",
   "theorems": [
    "Knuffel.c12_properties",
    "Knuffel.c12_unique"
   ],
   "note": ""
  },
  {
   "property": "C13",
   "status": "proved",
   "theorems": [
    "Knuffel.c13_arguments",
    "Knuffel.c13_independent"
   ],
   "note": ""
  },
  {
   "property": "C14",
   "status": "proved",
   "theorems": [
    "Knuffel.c14_children"
   ],
   "note": ""
  },
  {
   "property": "C15",
   "status": "proved",
   "theorems": [
    "Knuffel.c15_bare_ident",
    "Knuffel.c15_node_name",
    "Knuffel.c15_only"
   ],
   "note": ""
  },
  {
   "property": "C16",
   "status": "proved",
   "theorems": [
    "Knuffel.c16_c17_written",
    "Knuffel.c16_literal_not_bare",
    "Knuffel.c16_bare_word"
   ],
   "note": "Accepted half and rejected half. The rejected half excludes words containing a byte order mark, which the code treats as whitespace as well as an identifier character."
  },
  {
   "property": "C17",
   "status": "proved",
   "theorems": [
    "Knuffel.c16_c17_written",
    "Knuffel.c17_name_not_literal",
    "Knuffel.c17_key_not_literal",
    "Knuffel.c17_no_node_name",
    "Knuffel.c17_no_type_name",
    "Knuffel.c17_no_key",
    "Knuffel.c17_no_digit"
   ],
   "note": "Accepted half and rejected half."
  },
  {
   "property": "C18",
   "status": "proved",
   "theorems": [
    "Knuffel.c18_newlines",
    "Knuffel.c18_any_newlines"
   ],
   "note": ""
  },
  {
   "property": "C19",
   "status": "partial",
   "theorems": [
    "Knuffel.c19_leading",
    "Knuffel.c19_comment_skipped",
    "Knuffel.c19_left_to_right",
    "Knuffel.c19_unclosed_partial",
    "Knuffel.c19_overlap_accepted"
   ],
   "note": "Skipping is proved for every comment that closes, reading left to right; rejection of unclosed comments is proved when `/*/` does not occur after the opening; in general it is false of the code (`/*/*/` is accepted), which is proved."
  },
  {
   "property": "C20",
   "status": "proved",
   "theorems": [
    "Knuffel.c20_spans_nest",
    "Knuffel.c20_spans_nest_line"
   ],
   "note": ""
  },
  {
   "property": "C21",
   "status": "proved",
   "theorems": [
    "Knuffel.c21_line_agrees"
   ],
   "note": ""
  },
  {
   "property": "C22",
   "status": "proved",
   "theorems": [
    "Knuffel.c22_lines",
    "Knuffel.c22_tokens",
    "Knuffel.c22_errors",
    "Knuffel.c22_errors_lines",
    "Knuffel.c22_errors_columns_fails"
   ],
   "note": "For the spans of documents in full. For those of diagnostics, bytes and lines in full, columns if the last line has no tab (see C23)."
  },
  {
   "property": "C23",
   "status": "partial",
   "theorems": [
    "Knuffel.c23_eoi_position_fails",
    "Knuffel.c23_eoi_position_partial"
   ],
   "note": "The code violates the claim (tab width, CR LF at the end): negation with a witness, and the claim for texts whose width is the sum of the widths of the characters."
  },
  {
   "property": "C24",
   "status": "proved",
   "theorems": [
    "Knuffel.c24_bom"
   ],
   "note": ""
  },
  {
   "property": "C25",
   "status": "partial",
   "theorems": [
    "Knuffel.c25_key_partial",
    "Knuffel.c25_keyword_prefix",
    "Knuffel.c25_fails"
   ],
   "note": "False of the code for identifiers that begin with a keyword: proved for all such identifiers, and the claim proved for the others."
  },
  {
   "property": "C26",
   "status": "partial",
   "theorems": [
    "Knuffel.c26_quoted_partial",
    "Knuffel.c26_raw_rejected",
    "Knuffel.c26_fails"
   ],
   "note": "False of the code for raw strings (proved for all of them); proved for quoted strings."
  },
  {
   "property": "C27",
   "status": "partial",
   "theorems": [
    "Knuffel.c27_text",
    "Knuffel.c27_recognised_partial",
    "Knuffel.c27_roundtrip_partial",
    "Knuffel.c27_fails"
   ],
   "note": "False of the code for usize and isize (proved); proved for all other names."
  },
  {
   "property": "C28",
   "status": "partial",
   "theorems": [
    "Knuffel.c28_int_partial",
    "Knuffel.c28_float",
    "Knuffel.c28_fails",
    "Knuffel.c28_fails_usize"
   ],
   "note": "False of the code for `(usize)` and `(isize)`, which are not recognised (witnesses proved); proved for every other type and annotation."
  },
  {
   "property": "C29",
   "status": "proved",
   "theorems": [
    "Knuffel.c29_exact",
    "Knuffel.c29_rejected",
    "Knuffel.c29_no_wrap",
    "Knuffel.c29_written",
    "Knuffel.c29_unique"
   ],
   "note": ""
  },
  {
   "property": "C30",
   "status": "proved",
   "theorems": [
    "Knuffel.c30_int",
    "Knuffel.c30_float",
    "Knuffel.c30_bool",
    "Knuffel.c30_text",
    "Knuffel.c30_value",
    "Knuffel.c30_int_value",
    "Knuffel.c30_float_value",
    "Knuffel.c30_bool_value",
    "Knuffel.c30_text_value",
    "Knuffel.c30_argument",
    "Knuffel.c30_arguments",
    "Knuffel.c30_property",
    "Knuffel.c30_flat_property",
    "Knuffel.c30_properties",
    "Knuffel.c30_child",
    "Knuffel.c30_children",
    "Knuffel.c30_vec",
    "Knuffel.c30_unwrap",
    "Knuffel.c30_parse",
    "Knuffel.c30_node"
   ],
   "note": "The literal is an error of its field; the error goes from any field of any derived struct to the node, from child nodes to parents, and from the nodes of the document to the result of parse."
  },
  {
   "property": "C31",
   "status": "partial",
   "theorems": [
    "Knuffel.c31_some_partial",
    "Knuffel.c31_null",
    "Knuffel.c31_none_iff",
    "Knuffel.c31_fails"
   ],
   "note": "False of the code for inner types that override `decode` and leave `raw_decode` out (the AST types): witness proved. Proved for every type with the provided `decode`."
  },
  {
   "property": "C32",
   "status": "proved",
   "theorems": [
    "Knuffel.c32_text",
    "Knuffel.c32_bool",
    "Knuffel.c32_annotation",
    "Knuffel.c32_annotated"
   ],
   "note": ""
  },
  {
   "property": "C33",
   "status": "partial",
   "theorems": [
    "Knuffel.c33_pointer_partial",
    "Knuffel.c33_spanned_partial",
    "Knuffel.c33_same_span_partial",
    "Knuffel.c33_fails"
   ],
   "note": "False of the code for the AST scalar types (witness proved). Proved for every type with the provided `decode`."
  },
  {
   "property": "C34",
   "status": "proved",
   "theorems": [
    "Knuffel.c34_ok_iff",
    "Knuffel.c34_error_iff",
    "Knuffel.c34_ok_iff_line",
    "Knuffel.c34_error_iff_line",
    "Knuffel.c34_total",
    "Knuffel.c34_parse",
    "Knuffel.c34_node"
   ],
   "note": ""
  },
  {
   "property": "C35",
   "status": "proved",
   "theorems": [
    "Knuffel.c35_visits",
    "Knuffel.c35_values",
    "Knuffel.c35_all"
   ],
   "note": ""
  },
  {
   "property": "C36",
   "status": "proved",
   "theorems": [
    "Knuffel.c36_history"
   ],
   "note": ""
  },
  {
   "property": "C37",
   "status": "proved",
   "theorems": [
    "Knuffel.c37_node",
    "Knuffel.c37_same",
    "Knuffel.c37_value",
    "Knuffel.c37_parsed_sorted",
    "Knuffel.c37_parse",
    "Knuffel.c37_parse_line"
   ],
   "note": ""
  },
  {
   "property": "C38",
   "status": "proved",
   "theorems": [
    "Knuffel.c38_assigned",
    "Knuffel.c38_surplus",
    "Knuffel.c38_missing",
    "Knuffel.c38_refused"
   ],
   "note": ""
  },
  {
   "property": "C39",
   "status": "proved",
   "theorems": [
    "Knuffel.c39_named",
    "Knuffel.c39_flatten",
    "Knuffel.c39_rest",
    "Knuffel.c39_unknown",
    "Knuffel.c39_missing",
    "Knuffel.c39_refused"
   ],
   "note": ""
  },
  {
   "property": "C40",
   "status": "proved",
   "theorems": [
    "Knuffel.c40_assigned",
    "Knuffel.c40_root",
    "Knuffel.c40_by_name",
    "Knuffel.c40_plain",
    "Knuffel.c40_duplicate",
    "Knuffel.c40_missing",
    "Knuffel.c40_children_refused",
    "Knuffel.c40_unmatched",
    "Knuffel.c40_refused"
   ],
   "note": ""
  },
  {
   "property": "C41",
   "status": "proved",
   "theorems": [
    "Knuffel.c41_flag",
    "Knuffel.c41_root"
   ],
   "note": ""
  },
  {
   "property": "C42",
   "status": "proved",
   "theorems": [
    "Knuffel.c42_unit",
    "Knuffel.c42_nested",
    "Knuffel.c42_nested_option",
    "Knuffel.c42_tuple",
    "Knuffel.c42_unknown",
    "Knuffel.c42_only"
   ],
   "note": ""
  },
  {
   "property": "C43",
   "status": "proved",
   "theorems": [
    "Knuffel.c43_accepts",
    "Knuffel.c43_rejects",
    "Knuffel.c43_iff"
   ],
   "note": ""
  },
  {
   "property": "C44",
   "status": "proved",
   "theorems": [
    "Knuffel.c44_property",
    "Knuffel.c44_property_variant",
    "Knuffel.c44_child",
    "Knuffel.c44_child_clean",
    "Knuffel.c44_root",
    "Knuffel.c44_child_fails"
   ],
   "note": "Field values agree for every node; the errors agree too unless a `child` of the flattened struct comes twice, when in line the decoding stops and flattened it records an error and goes on (c44_child_fails). The Default of the flattened struct is assumed to be the struct in which nothing is set."
  },
  {
   "property": "C45",
   "status": "proved",
   "theorems": [
    "Knuffel.c45_as_struct",
    "Knuffel.c45_argument",
    "Knuffel.c45_arguments",
    "Knuffel.c45_property",
    "Knuffel.c45_properties",
    "Knuffel.c45_children",
    "Knuffel.c45_children_named",
    "Knuffel.c45_child",
    "Knuffel.c45_field"
   ],
   "note": "The type name of the unwrapped child is not checked by the code; c45_as_struct shows this."
  },
  {
   "property": "C46",
   "status": "proved",
   "theorems": [
    "Knuffel.c46_error_spans",
    "Knuffel.c46_error_spans_line"
   ],
   "note": ""
  },
  {
   "property": "C47",
   "status": "proved",
   "theorems": [
    "Knuffel.c47_message",
    "Knuffel.c47_named",
    "Knuffel.c47_merge",
    "Knuffel.c47_once",
    "Knuffel.c47_once_line",
    "Knuffel.c47_labels",
    "Knuffel.c47_expected_type",
    "Knuffel.c47_no_type"
   ],
   "note": "ExpectedType with no types and no_type=false would print `no type`; its three constructors never make it."
  },
  {
   "property": "C48",
   "status": "proved",
   "theorems": [
    "Knuffel.c48_ignores_span",
    "Knuffel.c48_lawful",
    "Knuffel.c48_borrow",
    "Knuffel.c48_btree",
    "Knuffel.c48_btree_plain",
    "Knuffel.c48_hash",
    "Knuffel.c48_properties",
    "Knuffel.c48_property"
   ],
   "note": "The maps of std are modelled as lists of entries."
  },
  {
   "property": "C49",
   "status": "proved",
   "theorems": [
    "Knuffel.c49_must_fit"
   ],
   "note": ""
  },
  {
   "property": "C50",
   "status": "proved",
   "theorems": [
    "Knuffel.c50_decimals"
   ],
   "note": ""
  },
  {
   "property": "C51",
   "status": "proved",
   "theorems": [
    "Knuffel.c51_specials",
    "Knuffel.c51_fields"
   ],
   "note": ""
  },
  {
   "property": "C52",
   "status": "proved",
   "theorems": [
    "Knuffel.c52_roles",
    "Knuffel.c52_last",
    "Knuffel.c52_all",
    "Knuffel.c52_keeps",
    "Knuffel.c52_accepts"
   ],
   "note": ""
  },
  {
   "property": "C53",
   "status": "proved",
   "theorems": [
    "Knuffel.c53_str",
    "Knuffel.c53_str_refused",
    "Knuffel.c53_bytes",
    "Knuffel.c53_bytes_refused",
    "Knuffel.c53_unique",
    "Knuffel.c53_decode_bytes"
   ],
   "note": "The STANDARD engine of the base64 crate is external; it is assumed to decode exactly the RFC 4648 texts (StandardB64, a hypothesis of the theorems about bytes). The annotation of a null given to an optional bytes field is not looked at by the code."
  },
  {
   "property": "C54",
   "status": "proved",
   "theorems": [
    "Knuffel.c54_true",
    "Knuffel.c54_true_line",
    "Knuffel.c54_missed_at_end_fails",
    "Knuffel.c54_advice_fails"
   ],
   "note": "Two limits of the code are shown by witnesses: expected_at of something unclosed is not always the end of the text, and the advice about identifiers as arguments is also given of a property name whose value is wrong."
  },
  {
   "property": "C55",
   "status": "proved",
   "theorems": [
    "Knuffel.c55_language",
    "Knuffel.c55_unambiguous",
    "Knuffel.c55_field",
    "Knuffel.c55_order",
    "Knuffel.c55_once",
    "Knuffel.c55_written"
   ],
   "note": "syn's parsers of expressions and types are external; they are assumed to take a prefix of the tokens and to stop at a comma or the end (SynLaws)."
  },
  {
   "property": "C56",
   "status": "partial",
   "theorems": [
    "Knuffel.c56_struct",
    "Knuffel.c56_unit",
    "Knuffel.c56_tuple_partial",
    "Knuffel.c56_tuple_fails",
    "Knuffel.c56_enum_partial",
    "Knuffel.c56_enum_picks",
    "Knuffel.c56_enum_unknown",
    "Knuffel.c56_scalar",
    "Knuffel.c56_filled_partial",
    "Knuffel.c56_filled_fails"
   ],
   "note": "A field marked `flatten()` is forgotten by the macro, so that a tuple of two fields may be taken for a newtype (c56_tuple_fails); a tuple field marked `flatten(child, property)` makes it panic (c56_filled_fails). Without these, in full."
  },
  {
   "property": "C57",
   "status": "proved",
   "theorems": [
    "Knuffel.c57_roundtrip",
    "Knuffel.c57_roundtrip_line",
    "Knuffel.c57_parsed",
    "Knuffel.c57_parsed_line",
    "Knuffel.c57_decoded",
    "Knuffel.c57_decoded_line",
    "Knuffel.c57_injective",
    "Knuffel.c57_format",
    "Knuffel.c57_format_line",
    "Knuffel.c57_later",
    "Knuffel.c57_later_line",
    "Knuffel.c57_handmade_fails"
   ],
   "note": "The wire format of minicbor 0.19 and its derive macros is modelled from its documentation (the crate is external). A type name `usize` or `isize` made by hand as a built-in type comes back as a custom one (C27): c57_handmade_fails."
  },
  {
   "property": "C58",
   "status": "partial",
   "theorems": [
    "Knuffel.c58_text",
    "Knuffel.c58_bool",
    "Knuffel.c58_enum",
    "Knuffel.c58_int_partial",
    "Knuffel.c58_float_partial",
    "Knuffel.c58_number_fails",
    "Knuffel.c58_option",
    "Knuffel.c58_pointer",
    "Knuffel.c58_str",
    "Knuffel.c58_bytes_partial",
    "Knuffel.c58_bytes_fails"
   ],
   "note": "Numbers name the wrong expected kind (c58_number_fails); a value of the wrong kind for a `bytes` field may be reported a second time as a conversion error (c58_bytes_fails). The rest in full."
  },
  {
   "property": "C59",
   "status": "proved",
   "theorems": [
    "Knuffel.c59_node",
    "Knuffel.c59_root",
    "Knuffel.c59_unwrap",
    "Knuffel.c59_flatten",
    "Knuffel.c59_enum",
    "Knuffel.c59_trans",
    "Knuffel.c59_parse"
   ],
   "note": ""
  },
  {
   "property": "C60",
   "status": "proved",
   "theorems": [
    "Knuffel.c60_labelled",
    "Knuffel.c60_true",
    "Knuffel.c60_scalar",
    "Knuffel.c60_modes",
    "Knuffel.c60_node",
    "Knuffel.c60_root",
    "Knuffel.c60_unwrap",
    "Knuffel.c60_flatten",
    "Knuffel.c60_enum",
    "Knuffel.c60_declared",
    "Knuffel.c60_vec",
    "Knuffel.c60_parse",
    "Knuffel.c60_parse_line"
   ],
   "note": "A `flatten` inside `unwrap` is excluded in c60_declared; c60_unwrap covers it."
  },
  {
   "property": "C61",
   "status": "proved",
   "theorems": [
    "Knuffel.c61_root",
    "Knuffel.c61_flattened",
    "Knuffel.c61_newtype"
   ],
   "note": ""
  },
  {
   "property": "C62",
   "status": "proved",
   "theorems": [
    "Knuffel.c62_node",
    "Knuffel.c62_children",
    "Knuffel.c62_insert",
    "Knuffel.c62_insertions",
    "Knuffel.c62_shared"
   ],
   "note": ""
  },
  {
   "property": "C63",
   "status": "proved",
   "theorems": [
    "Knuffel.c63_char",
    "Knuffel.c63_found",
    "Knuffel.c63_unclosed",
    "Knuffel.c63_help",
    "Knuffel.c63_code"
   ],
   "note": ""
  },
  {
   "property": "C64",
   "status": "proved",
   "theorems": [
    "Knuffel.c64_prefix",
    "Knuffel.c64_two_newlines",
    "Knuffel.c64_one_newline",
    "Knuffel.c64_continuation"
   ],
   "note": ""
  },
  {
   "property": "C65",
   "status": "proved",
   "theorems": [
    "Knuffel.c65_struct",
    "Knuffel.c65_newtype",
    "Knuffel.c65_enum",
    "Knuffel.c65_scalar_enum",
    "Knuffel.c65_scalars",
    "Knuffel.c65_wrapped_scalars",
    "Knuffel.c65_containers",
    "Knuffel.c65_pointers",
    "Knuffel.c65_ast",
    "Knuffel.c65_spans",
    "Knuffel.c65_line",
    "Knuffel.c65_same_document",
    "Knuffel.c65_layout",
    "Knuffel.c65_bom"
   ],
   "note": ""
  },
  {
   "property": "C66",
   "status": "proved",
   "theorems": [
    "Knuffel.c66_node",
    "Knuffel.c66_extent",
    "Knuffel.c66_block",
    "Knuffel.c66_value",
    "Knuffel.c66_property",
    "Knuffel.c66_name",
    "Knuffel.c66_type_name"
   ],
   "note": ""
  },
  {
   "property": "C67",
   "status": "proved",
   "theorems": [
    "Knuffel.c67_parse_ast",
    "Knuffel.c67_parse",
    "Knuffel.c67_same"
   ],
   "note": ""
  },
  {
   "property": "C68",
   "status": "proved",
   "theorems": [
    "Knuffel.c68_nodes",
    "Knuffel.c68_nodes_newline",
    "Knuffel.c68_argument",
    "Knuffel.c68_property"
   ],
   "note": ""
  },
  {
   "property": "C69",
   "status": "partial",
   "theorems": [
    "Knuffel.c69_counted_is_parser",
    "Knuffel.c69_at_least",
    "Knuffel.c69_quadratic_partial",
    "Knuffel.c69_no_comments_partial",
    "Knuffel.c69_exponential",
    "Knuffel.c69_no_polynomial_bound"
   ],
   "note": "The bound on all texts is false of the code: a block comment that is opened and not closed is read again as ordinary characters, at every level of nesting; c69_exponential and c69_no_polynomial_bound prove this. The quadratic bound is proved for texts in which every /* (also one inside a string) is followed by its end."
  },
  {
   "property": "C70",
   "status": "proved",
   "theorems": [
    "Knuffel.c70_after",
    "Knuffel.c70_three_newlines",
    "Knuffel.c70_two_newlines"
   ],
   "note": ""
  },
  {
   "property": "C71",
   "status": "proved",
   "theorems": [
    "Knuffel.c71_string",
    "Knuffel.c71_comment",
    "Knuffel.c71_braces",
    "Knuffel.c71_value_witness",
    "Knuffel.c71_raw_witness",
    "Knuffel.c71_comment_witness"
   ],
   "note": "Strings with complete characters (the text does not end inside an escape); comments without the overlapping `/*/`. What the code does not report so: the value of a property (c71_value_witness), raw strings (c71_raw_witness), `/*` at the very end (c71_comment_witness)."
  },
  {
   "property": "C72",
   "status": "proved",
   "theorems": [
    "Knuffel.c72_node",
    "Knuffel.c72_accepts",
    "Knuffel.c72_rejects",
    "Knuffel.c72_unique",
    "Knuffel.c72_parse",
    "Knuffel.c72_parse_rejects",
    "Knuffel.c72_parse_vec",
    "Knuffel.c72_parse_vec_rejects",
    "Knuffel.c72_macro",
    "Knuffel.c72_macro_enum"
   ],
   "note": "Declarations whose fields have different names, as have the properties and the children (`Decl.Proper`). `flatten` fields are added by C81; `span` fields are not in this language of declarations (they are in C55). Floats are kept as their text."
  },
  {
   "property": "C73",
   "status": "proved",
   "theorems": [
    "Knuffel.c73_spans",
    "Knuffel.c73_vec",
    "Knuffel.c73_root"
   ],
   "note": "For `Decl.Proper` declarations, as C72. Which texts there are for a value is shown with the printer of C03."
  },
  {
   "property": "C74",
   "status": "proved",
   "theorems": [
    "Knuffel.c74_kind",
    "Knuffel.c74_kind_names",
    "Knuffel.c74_type",
    "Knuffel.c74_type_text",
    "Knuffel.c74_names",
    "Knuffel.c74_name_unique",
    "Knuffel.c74_span",
    "Knuffel.c74_span_text",
    "Knuffel.c74_with_label",
    "Knuffel.c74_delimiter"
   ],
   "note": "What a number field says to be expected is `string` (C58); the word for the literal found is right."
  },
  {
   "property": "C75",
   "status": "proved",
   "theorems": [
    "Knuffel.c75_blame",
    "Knuffel.c75_beginning",
    "Knuffel.c75_tie_fails",
    "Knuffel.c75_raw_fails",
    "Knuffel.c75_number_fails"
   ],
   "note": "For the texts named in the statement (`Straight`); c75_tie_fails, c75_raw_fails and c75_number_fails show that without three of the conditions the code blames a character that is innocent. The condition about \\u is one of the proof (an illegal escape is an error of its own, which is reported and skipped, see C80); no counterexample is known."
  },
  {
   "property": "C76",
   "status": "proved",
   "theorems": [
    "Knuffel.c76_int_type",
    "Knuffel.c76_word_sized",
    "Knuffel.c76_float_type",
    "Knuffel.c76_text_type",
    "Knuffel.c76_enum_type",
    "Knuffel.c76_bytes_type",
    "Knuffel.c76_too_large",
    "Knuffel.c76_too_small",
    "Knuffel.c76_minus",
    "Knuffel.c76_float"
   ],
   "note": "The words of the number errors are those of the standard library, which is modelled (`IntErrorKind.show`), not taken from /repo."
  },
  {
   "property": "C77",
   "status": "proved",
   "theorems": [
    "Knuffel.c77_document",
    "Knuffel.c77_two_newlines",
    "Knuffel.c77_one_newline",
    "Knuffel.c77_errors",
    "Knuffel.c77_errors_three_newlines",
    "Knuffel.c77_errors_two_newlines"
   ],
   "note": ""
  },
  {
   "property": "C78",
   "status": "proved",
   "theorems": [
    "Knuffel.c78_node",
    "Knuffel.c78_parse",
    "Knuffel.c78_swap",
    "Knuffel.c78_rest_fails"
   ],
   "note": "For the declarations of C72 that have no catch-all field for children anywhere (Decl.ByName); that the order matters with such a field is proved with a witness (c78_rest_fails)."
  },
  {
   "property": "C79",
   "status": "proved",
   "theorems": [
    "Knuffel.c79_in_order",
    "Knuffel.c79_in_order_line",
    "Knuffel.c79_before"
   ],
   "note": "For all texts, without a proviso."
  },
  {
   "property": "C80",
   "status": "proved",
   "theorems": [
    "Knuffel.c80_each_fault_once",
    "Knuffel.c80_each_fault_once_line",
    "Knuffel.c80_count",
    "Knuffel.c80_no_fault"
   ],
   "note": "The texts are those of the trees of Spec/Faults.lean (strict block comments, as in C02). A word that begins with a keyword is not among them: the code reads the keyword as an argument (C25)."
  },
  {
   "property": "C81",
   "status": "proved",
   "theorems": [
    "Knuffel.c81_accepts",
    "Knuffel.c81_rejects",
    "Knuffel.c81_parse",
    "Knuffel.c81_parse_rejects"
   ],
   "note": "The types of the flattened fields are structs that may be flattened (`partialCompatible`) with fields of the kinds the derive allows there (`Child.Flat`), as in C44. That everything else is answered with errors is for structs whose field types do not panic (`Struct.Tame`, C82); which errors these are is not compared."
  },
  {
   "property": "C82",
   "status": "proved",
   "theorems": [
    "Knuffel.c82_scalars",
    "Knuffel.c82_functions",
    "Knuffel.c82_ast",
    "Knuffel.c82_wrapped",
    "Knuffel.c82_value_inside",
    "Knuffel.c82_nodes",
    "Knuffel.c82_documents",
    "Knuffel.c82_unshared",
    "Knuffel.c82_shared",
    "Knuffel.c82_struct",
    "Knuffel.c82_enum",
    "Knuffel.c82_derived",
    "Knuffel.c82_derived_struct",
    "Knuffel.c82_declared",
    "Knuffel.c82_parse",
    "Knuffel.c82_parse_text",
    "Knuffel.c82_parse_line",
    "Knuffel.c82_each",
    "Knuffel.c82_each_text"
   ],
   "note": "The implementations that the user writes by hand are assumed to be so (`Impls.Tame`). For declared types that refer to themselves see c83_tame."
  },
  {
   "property": "C83",
   "status": "proved",
   "theorems": [
    "Knuffel.c83_exists",
    "Knuffel.c83_only",
    "Knuffel.c83_depth",
    "Knuffel.c83_levels",
    "Knuffel.c83_accepts",
    "Knuffel.c83_rejects",
    "Knuffel.c83_unique",
    "Knuffel.c83_tame",
    "Knuffel.c83_around",
    "Knuffel.c83_around_rejects",
    "Knuffel.c83_parse",
    "Knuffel.c83_parse_rejects",
    "Knuffel.c83_parse_vec",
    "Knuffel.c83_parse_vec_rejects",
    "Knuffel.c83_unguarded",
    "Knuffel.c83_unguarded_many"
   ],
   "note": "For families of declarations of C72 that refer to each other by name. The condition that no type hands on the whole node to itself is `Grounded`; that it is needed is proved (c83_unguarded, c83_unguarded_many)."
  },
  {
   "property": "C84",
   "status": "proved",
   "theorems": [
    "Knuffel.c84_exact",
    "Knuffel.c84_exact_line",
    "Knuffel.c84_any",
    "Knuffel.c84_any_line",
    "Knuffel.c84_limit",
    "Knuffel.c84_limit_line",
    "Knuffel.c84_unlimited",
    "Knuffel.c84_comment",
    "Knuffel.c84_comment_any",
    "Knuffel.c84_comment_limit"
   ],
   "note": "The calls that are counted are those of the two recursive rules; how many frames of the machine stack one of them takes is not modelled. Exactness is for legal texts with strict block comments, as in C02."
  },
  {
   "property": "C85",
   "status": "proved",
   "theorems": [
    "Knuffel.c85_same",
    "Knuffel.c85_accepted",
    "Knuffel.c85_reorder",
    "Knuffel.c85_swap",
    "Knuffel.c85_decode"
   ],
   "note": ""
  },
  {
   "property": "C86",
   "status": "proved",
   "theorems": [
    "Knuffel.c86_one_tree",
    "Knuffel.c86_accepted",
    "Knuffel.c86_node",
    "Knuffel.c86_entry",
    "Knuffel.c86_comment",
    "Knuffel.c86_tie"
   ],
   "note": ""
  },
  {
   "property": "C87",
   "status": "proved",
   "theorems": [
    "Knuffel.c87_not_larger",
    "Knuffel.c87_not_larger_line",
    "Knuffel.c87_counts",
    "Knuffel.c87_string"
   ],
   "note": ""
  },
  {
   "property": "C88",
   "status": "proved",
   "theorems": [
    "Knuffel.c88_something",
    "Knuffel.c88_once",
    "Knuffel.c88_once_line",
    "Knuffel.c88_count",
    "Knuffel.c88_count_line"
   ],
   "note": "For all texts, without a proviso."
  },
  {
   "property": "C89",
   "status": "proved",
   "theorems": [
    "Knuffel.c89_gives",
    "Knuffel.c89_refused",
    "Knuffel.c89_same",
    "Knuffel.c89_accepted"
   ],
   "note": "For decode::bytes itself, not for derived fields with the mode `bytes` in such a build."
  }
 ]
}