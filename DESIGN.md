# Formal model of knuffel 3.2.0 (Lean 4)

Contents: 1 what is modelled; 2 how the model is written; 3 each property, its
status and how it is proved; 4 where code and properties disagree; 5 what is
not modelled; 6 trusted base; 7 how the theorems were tested.

## 1. What is modelled

All paths are under `lean/Verif/`.  Every definition in `Model/` cites the file
and lines of /repo that it models.

| module | models |
|---|---|
| `Model/Span` | `src/span.rs`, `src/traits.rs`: byte and line spans, the two trackers, token streams |
| `Model/Errors`, `Model/Display`, `Model/Views` | `src/errors.rs`: errors, their merging (with its `todo!`), messages, labels; how kinds, type names and spans are printed |
| `Model/Ast` | `src/ast.rs` |
| `Model/Chars`, `Model/Grammar` | `src/grammar.rs`, function by function |
| `Model/Chumsky` | the combinators of chumsky 0.9.2 that the grammar uses (external crate) |
| `Model/Wrappers`, `Model/ParseDecode` | `src/wrappers.rs` |
| `Model/Decode`, `Model/Context` | `src/decode.rs`, the decoder traits of `src/traits.rs`, the decode errors of `src/errors.rs` |
| `Model/Convert`, `Model/ConvertAst`, `Model/Containers` | `src/convert.rs`, `src/convert_ast.rs`, `src/containers.rs` |
| `Model/Maps` | the comparison traits of `Spanned`, and maps keyed by it |
| `Model/Derive` | `derive/src/definition.rs` (classification of fields), and the code generated by `derive/src/node.rs`, `variants.rs`, `scalar.rs`, as functions of the description of the struct or enum |
| `Model/Attrs` | the front end of the macro: `derive/src/definition.rs` (attributes and their meaning, `Definition::parse`, `Enum::new`), `derive/src/scalar.rs` (`Scalar::parse`), the assertions of `derive/src/node.rs`; from the tokens of the attributes and the shape of the item to what is derived |
| `Model/NoBase64` | `decode::bytes` in a build without the feature `base64`: `src/decode.rs:49-100` with the branch of lines 73-78 |
| `Model/Cbor` | the feature `minicbor`: `src/ast.rs:297-319` and what the derive macros of `minicbor` 0.19 make of the attributes `n(..)`, `index_only`, `transparent` in `src/ast.rs` and `src/span.rs` |
| `Model/Steps` | the combinators and the whole of `src/grammar.rs` again, with the number of looks at the stream (calls of `stream.next()`) that each run takes; the work on values and on sets of expected tokens is not counted |
| `Spec/*` | specifications, independent of the model: concrete syntax, layout, printing, lines and columns, numbers, base 64, truth of diagnostics, ... |
| `Theory/*` | lemmas |
| `Props/*` | the property theorems (`cNN_...`) with examples beside them that meet their hypotheses |
| `Tests/Grammar` | all grammar tests of the repository evaluated on the model (tests, not proofs) |
| `Tests/Derive` | the tests of `derive/tests/*.rs` and examples of the documentation, from the text of the attributes to values and messages (tests, not proofs) |

## 2. How the model is written

Texts are `List Char` (Lean's `Char` is Rust's `char`: a Unicode scalar value).
A parser is a function from the end-of-input span and the remaining tokens to

    { panicked : Bool, errs : emitted errors, out : error or (value, alternative error), rest }

which is chumsky's result plus a sticky flag, set when the real code would
panic (`todo!` in `merge`, repetition without progress).  `&mut` becomes
returning the new value.  Repetitions are structural recursions on fuel which
is the length of the remaining input: every iteration must consume something,
or else the real code panics and so does the model.  The recursive rules
(block comments, nodes) take a depth bound that starts at the length of the
input + 1; that it is never reached is proved.

A decoder is a function of the context (the recorded errors and the extension
map) that gives a value or an error, the new context, or a panic.  Types of
fields are parameters (`Impls`: the implementations of the traits for the type
of the field, all arbitrary functions), so that the theorems hold for every
type of field, in particular for other derived types.

The functions of other crates that are parameters of the model (`Externals`
and the arguments of `parseAstLine`) are arbitrary: the width of a character and of
a string (`unicode-width`), the kebab case of an identifier (`heck`), the
decoding of base 64 (`base64`).  Where a theorem assumes something of them, this is
a hypothesis of the theorem.

## 3. The properties

* **C01** Parsing is total and never panics: *proved*. Invariant over every parser of the grammar (`Calm`, Theory/Calm, Position*, NoPanic*): no error is merged with the one plain message at its position, and every repetition consumes. No text makes the modelled parser panic; termination is by construction (the model is total and its fuel is shown to suffice in nodesRec_fuel/parse_complete).
  Theorems: `c01_parse_total`, `c01_parse_total_line`.
* **C02** Ok and Err are exclusive and an Err always carries a diagnostic: *proved*. Case analysis of the driver, for every result of the combinators.
  Theorems: `c02_ok_iff_nothing_reported`, `c02_err_carries_reported`, `c02_line`.
* **C03** Printing then parsing returns the same document: *partial*. A printer (Spec/Print) whose output is shown to be the text of a concrete syntax tree; then completeness of the parser on concrete syntax (`parse_complete`). False of the code for the built-in types usize and isize (witness proved); proved for every other document, and for every document that comes from parsing.
  Theorems: `c03_roundtrip_partial`, `c03_reprint`, `c03_fails`.
* **C04** White space, comments and line continuations do not change meaning: *proved*. Completeness: `parseAst` of the text of a concrete syntax tree (Spec/Cst, every separator is a choice in the tree) is the meaning of the tree; trees that differ in layout have the same meaning.
  Theorems: `c04_layout`, `c04_any_layout`.
* **C05** Slash-dash removes exactly the next element: *proved*. As C04: removing the elements marked by `/-` does not change the meaning.
  Theorems: `c05_slashdash`, `c05_leave_out`.
* **C06** Everything accepted is derivable from the grammar: *proved*. Soundness: a clean success of every rule gives a concrete syntax tree whose text is what was read and whose meaning is the value. Where the text does not contain `/*/` the tree is strict, so acceptance is exactly derivability (`c06_exact`).
  Theorems: `c06_derivable`, `c06_accepted`, `c06_exact`, `c06_unambiguous`, `c06_derivable_line`.
* **C07** Every string can be written as an escaped string and is read back exactly: *proved*. Every spelling of every string (Spec/Spelling) is read back, in value, name and key position.
  Theorems: `c07_quoted`, `c07_quoted_before`, `c07_node_name`, `c07_key`, `c07_exists`.
* **C08** Raw strings are verbatim: *proved*. Induction on the text of the raw string.
  Theorems: `c08_raw`, `c08_raw_before`.
* **C09** Invalid escapes are never accepted: *proved*. At any place a literal may stand (Spec/Open: legal beginnings), at any depth, the text is rejected. At any place where a literal, key or name may stand, at any depth.
  Theorems: `c09_bad_escape`, `c09_bad_escape_type`, `c09_short`, `c09_no_brace`, `c09_unicode`, `c09_unclosed`.
* **C10** Integer literals keep radix and digits, underscores are ignored: *proved*. As C07.
  Theorems: `c10_decimal`, `c10_radix`.
* **C11** Decimal literals keep their text and are told apart from integers: *proved*. As C07, and conversely.
  Theorems: `c11_decimal`, `c11_only`.
* **C12** Properties: the last value of a key wins, keys are unique and sorted: *proved*. From soundness; the map is specified as last value of each key, sorted.
  Theorems: `c12_properties`, `c12_unique`.
* **C13** Arguments keep their order and are independent of properties: *proved*. From soundness.
  Theorems: `c13_arguments`, `c13_independent`.
* **C14** Children block: present, empty and absent are distinguished: *proved*. From soundness.
  Theorems: `c14_children`.
* **C15** Bare identifiers: exactly the documented character classes, never a keyword: *proved*. Characterisation of the words that are read as bare identifiers.
  Theorems: `c15_bare_ident`, `c15_node_name`, `c15_only`.
* **C16** A bare identifier is never silently taken as an argument value: *proved*. Accepted half from soundness (Spec/Written); rejected half with legal beginnings. Accepted half and rejected half. The rejected half excludes words containing a byte order mark, which the code treats as whitespace as well as an identifier character.
  Theorems: `c16_c17_written`, `c16_literal_not_bare`, `c16_bare_word`.
* **C17** Numbers and keywords are never names: *proved*. As C16. Accepted half and rejected half.
  Theorems: `c16_c17_written`, `c17_name_not_literal`, `c17_key_not_literal`, `c17_no_node_name`, `c17_no_type_name`, `c17_no_key`, `c17_no_digit`.
* **C18** All newline forms are equivalent: *proved*. As C04.
  Theorems: `c18_newlines`, `c18_any_newlines`.
* **C19** Block comments nest; an unclosed comment is an error: *partial*. Comments are part of the layout of C04; `afterComment` counts openings and closings from left to right, and legal comments are proved to end where it says; unclosed ones with legal beginnings. Skipping is proved for every comment that closes, reading left to right; rejection of unclosed comments is proved when `/*/` does not occur after the opening; in general it is false of the code (`/*/*/` is accepted), which is proved.
  Theorems: `c19_leading`, `c19_comment_skipped`, `c19_left_to_right`, `c19_unclosed_partial`, `c19_overlap_accepted`.
* **C20** Spans lie inside the text, on character boundaries, and nest: *proved*. From soundness with the spans of the tree; invariant over lawful token streams.
  Theorems: `c20_spans_nest`, `c20_spans_nest_line`.
* **C21** The two span types agree: *proved*. Binary logical relation between two runs of the parser (Theory/Sim*).
  Theorems: `c21_line_agrees`.
* **C22** Line and column numbers are right: *proved*. Induction over the text for the tracker, compared with Spec/Lines; spans of errors with the relation of C21. For the spans of documents in full. For those of diagnostics, bytes and lines in full, columns if the last line has no tab (see C23).
  Theorems: `c22_lines`, `c22_tokens`, `c22_errors`, `c22_errors_lines`, `c22_errors_columns_fails`.
* **C23** End-of-input position agrees with the position after the last character: *partial*. Direct computation on the model of `LineTracker` and `at_end`. The code violates the claim (tab width, CR LF at the end): negation with a witness, and the claim for texts whose width is the sum of the widths of the characters.
  Theorems: `c23_eoi_position_fails`, `c23_eoi_position_partial`.
* **C24** A leading byte-order mark is ignored: *proved*. Instance of C04's completeness and soundness.
  Theorems: `c24_bom`.
* **C25** Any bare identifier can be used as a property name: *partial*. Legal beginnings. False of the code for identifiers that begin with a keyword: proved for all such identifiers, and the claim proved for the others.
  Theorems: `c25_key_partial`, `c25_keyword_prefix`, `c25_fails`.
* **C26** Any string literal can be used as a node name: *partial*. Legal beginnings. False of the code for raw strings (proved for all of them); proved for quoted strings.
  Theorems: `c26_quoted_partial`, `c26_raw_rejected`, `c26_fails`.
* **C27** Type names round-trip through their text: *partial*. Whole finite table plus all custom names. False of the code for usize and isize (proved); proved for all other names.
  Theorems: `c27_text`, `c27_recognised_partial`, `c27_roundtrip_partial`, `c27_fails`.
* **C28** A number annotated with the Rust type of its field is accepted: *partial*. Case analysis over all types and annotations. False of the code for `(usize)` and `(isize)`, which are not recognised (witnesses proved); proved for every other type and annotation.
  Theorems: `c28_int_partial`, `c28_float`, `c28_fails`, `c28_fails_usize`.
* **C29** Integers are decoded exactly or rejected, never wrapped: *proved*. `from_str_radix` with checked arithmetic computes the number denoted (Spec/Number).
  Theorems: `c29_exact`, `c29_rejected`, `c29_no_wrap`, `c29_written`, `c29_unique`.
* **C30** Values of the wrong kind are never accepted as defaults: *proved*. Case analysis of the scalar decoders; then induction through derived structs, children and documents. The literal is an error of its field; the error goes from any field of any derived struct to the node, from child nodes to parents, and from the nodes of the document to the result of parse.
  Theorems: `c30_int`, `c30_float`, `c30_bool`, `c30_text`, `c30_value`, `c30_int_value`, `c30_float_value`, `c30_bool_value`, `c30_text_value`, `c30_argument`, `c30_arguments`, `c30_property`, `c30_flat_property`, `c30_properties`, `c30_child`, `c30_children`, `c30_vec`, `c30_unwrap`, `c30_parse`, `c30_node`.
* **C31** Optional scalars: null is None and nothing else is: *partial*. Case analysis, for every inner decoder. False of the code for inner types that override `decode` and leave `raw_decode` out (the AST types): witness proved. Proved for every type with the provided `decode`.
  Theorems: `c31_some_partial`, `c31_null`, `c31_none_iff`, `c31_fails`.
* **C32** Strings, booleans and paths are decoded verbatim: *proved*. Case analysis.
  Theorems: `c32_text`, `c32_bool`, `c32_annotation`, `c32_annotated`.
* **C33** Smart pointers and Spanned are transparent for scalars: *partial*. Case analysis, for every inner decoder. False of the code for the AST scalar types (witness proved). Proved for every type with the provided `decode`.
  Theorems: `c33_pointer_partial`, `c33_spanned_partial`, `c33_same_span_partial`, `c33_fails`.
* **C34** parse succeeds exactly when decoding returned Ok and recorded no error: *proved*. Case analysis of `parse`, and totality from C01.
  Theorems: `c34_ok_iff`, `c34_error_iff`, `c34_ok_iff_line`, `c34_error_iff_line`, `c34_total`, `c34_parse`, `c34_node`.
* **C35** A list of nodes is decoded node by node, every failure is reported: *proved*. Induction over the nodes.
  Theorems: `c35_visits`, `c35_values`, `c35_all`.
* **C36** Context is a last-write-wins map keyed by type: *proved*. Induction over the history of writes (Spec/Context).
  Theorems: `c36_history`.
* **C37** Decoding into the AST types is the identity: *proved*. Induction over nodes.
  Theorems: `c37_node`, `c37_same`, `c37_value`, `c37_parsed_sorted`, `c37_parse`, `c37_parse_line`.
* **C38** Positional arguments are assigned by position and all are accounted for: *proved*. Refinement: the generated argument loop against a declarative assignment (Spec/Derive).
  Theorems: `c38_assigned`, `c38_surplus`, `c38_missing`, `c38_refused`.
* **C39** Named properties are assigned by name and unknown ones are rejected: *proved*. Refinement of the generated property loop.
  Theorems: `c39_named`, `c39_flatten`, `c39_rest`, `c39_unknown`, `c39_missing`, `c39_refused`.
* **C40** Children are routed by name, single children at most once: *proved*. Refinement of the generated child loop.
  Theorems: `c40_assigned`, `c40_root`, `c40_by_name`, `c40_plain`, `c40_duplicate`, `c40_missing`, `c40_children_refused`, `c40_unmatched`, `c40_refused`.
* **C41** A flag child is true iff present, and must be empty: *proved*. As C40.
  Theorems: `c41_flag`, `c41_root`.
* **C42** Enums dispatch exactly on the node name: *proved*. Induction over the variants.
  Theorems: `c42_unit`, `c42_nested`, `c42_nested_option`, `c42_tuple`, `c42_unknown`, `c42_only`.
* **C43** Scalar enums accept exactly their variant names: *proved*. Induction over the variants.
  Theorems: `c43_accepts`, `c43_rejects`, `c43_iff`.
* **C44** Flatten is inlining: *proved*. Simulation between the struct with the flattened field and the one with its fields in line (Theory/Flatten*). Field values agree for every node; the errors agree too unless a `child` of the flattened struct comes twice, when in line the decoding stops and flattened it records an error and goes on (c44_child_fails). The Default of the flattened struct is assumed to be the struct in which nothing is set.
  Theorems: `c44_property`, `c44_property_variant`, `c44_child`, `c44_child_clean`, `c44_root`, `c44_child_fails`.
* **C45** Unwrap descends exactly one level: *proved*. Induction over the nesting of `unwrap`. The type name of the unwrapped child is not checked by the code; c45_as_struct shows this.
  Theorems: `c45_as_struct`, `c45_argument`, `c45_arguments`, `c45_property`, `c45_properties`, `c45_children`, `c45_children_named`, `c45_child`, `c45_field`.
* **C46** Parse errors point into the text: *proved*. The relation of C21 with bounds as its spans.
  Theorems: `c46_error_spans`, `c46_error_spans_line`.
* **C47** Diagnostic lists are rendered without losing alternatives: *proved*. Induction over the sets of alternatives; order of `TokenFormat` shown to be linear. ExpectedType with no types and no_type=false would print `no type`; its three constructors never make it.
  Theorems: `c47_message`, `c47_named`, `c47_merge`, `c47_once`, `c47_once_line`, `c47_labels`, `c47_expected_type`, `c47_no_type`.
* **C48** Equality, order and hash of spanned values ignore the span consistently: *proved*. Laws of the comparison, and induction over the maps. The maps of std are modelled as lists of entries.
  Theorems: `c48_ignores_span`, `c48_lawful`, `c48_borrow`, `c48_btree`, `c48_btree_plain`, `c48_hash`, `c48_properties`, `c48_property`.
* **C49** What follows a legal beginning must fit: *proved*. Legal beginnings (Theory/Open).
  Theorems: `c49_must_fit`.
* **C50** Decimals of the document are floats for Rust, unless the exponent has no digits: *proved*. The grammar of `f64::from_str` (Theory/Float) against the one of KDL.
  Theorems: `c50_decimals`.
* **C51** Span, node name and type name fields get those of the node; every field is assigned once: *proved*. Refinement.
  Theorems: `c51_specials`, `c51_fields`.
* **C52** Each field of a derived struct plays exactly the roles its attributes say, in declaration order: *proved*. Induction over the fields.
  Theorems: `c52_roles`, `c52_last`, `c52_all`, `c52_keeps`, `c52_accepts`.
* **C53** Decode modes str and bytes accept exactly strings (and base64), and give what the field's conversion makes of them: *proved*. Case analysis, for every `FromStr`/`TryFrom` of the field; injectivity of RFC 4648 texts. The STANDARD engine of the base64 crate is external; it is assumed to decode exactly the RFC 4648 texts (StandardB64, a hypothesis of the theorems about bytes). The annotation of a null given to an optional bytes field is not looked at by the code.
  Theorems: `c53_str`, `c53_str_refused`, `c53_bytes`, `c53_bytes_refused`, `c53_unique`, `c53_decode_bytes`.
* **C54** Diagnostics are true of the text: *proved*. Unary logical predicate over every parser (Theory/Truth, TruthDoc) with the predicate of Spec/Diag. Two limits of the code are shown by witnesses: expected_at of something unclosed is not always the end of the text, and the advice about identifiers as arguments is also given of a property name whose value is wrong.
  Theorems: `c54_true`, `c54_true_line`, `c54_missed_at_end_fails`, `c54_advice_fails`.
* **C55** The attributes `#[knuffel(..)]` mean what their text says: *proved*. Soundness and completeness of the parser against a relational grammar (Spec/Attrs), by induction on the size of the tokens; permutation invariance of the accumulated settings. syn's parsers of expressions and types are external; they are assumed to take a prefix of the tokens and to stop at a comma or the end (SynLaws).
  Theorems: `c55_language`, `c55_unambiguous`, `c55_field`, `c55_order`, `c55_once`, `c55_written`.
* **C56** What is derived is what is declared: the item's shape and attributes decide: *partial*. Refinement of `Definition::parse` to relations that speak of the declarations only; induction over fields and variants; `c52_all` for the assertion; the decoder of an enum from its declaration by C42. A field marked `flatten()` is forgotten by the macro, so that a tuple of two fields may be taken for a newtype (c56_tuple_fails); a tuple field marked `flatten(child, property)` makes it panic (c56_filled_fails). Without these, in full.
  Theorems: `c56_struct`, `c56_unit`, `c56_tuple_partial`, `c56_tuple_fails`, `c56_enum_partial`, `c56_enum_picks`, `c56_enum_unknown`, `c56_scalar`, `c56_filled_partial`, `c56_filled_fails`.
* **C57** Documents survive CBOR: *proved*. Structural induction over documents for every decoder against its encoder (Theory/Cbor), and for the encoders against the items of RFC 8949 (Theory/CborFormat); what decoders give by induction on the bytes (Theory/CborDecode, which also shows that the bound on the depth in the model is no restriction); documents with longer heads and unknown fields by induction on a relation between documents and bytes (Spec/CborLater). The wire format of minicbor 0.19 and its derive macros is modelled from its documentation (the crate is external). A type name `usize` or `isize` made by hand as a built-in type comes back as a custom one (C27): c57_handmade_fails.
  Theorems: `c57_roundtrip`, `c57_roundtrip_line`, `c57_parsed`, `c57_parsed_line`, `c57_decoded`, `c57_decoded_line`, `c57_injective`, `c57_format`, `c57_format_line`, `c57_later`, `c57_later_line`, `c57_handmade_fails`.
* **C58** What a decode error says about a value is true: *partial*. A logic for the errors of a computation (`Tells`, Theory/Tells), case analysis of the decoders. Numbers name the wrong expected kind (c58_number_fails); a value of the wrong kind for a `bytes` field may be reported a second time as a conversion error (c58_bytes_fails). The rest in full.
  Theorems: `c58_text`, `c58_bool`, `c58_enum`, `c58_int_partial`, `c58_float_partial`, `c58_number_fails`, `c58_option`, `c58_pointer`, `c58_str`, `c58_bytes_partial`, `c58_bytes_fails`.
* **C59** Derived decoders complain only with cause: *proved*. The same logic; invariants of the loops over properties and children that relate the variables of the generated code to the parts read so far; induction over the parts.
  Theorems: `c59_node`, `c59_root`, `c59_unwrap`, `c59_flatten`, `c59_enum`, `c59_trans`, `c59_parse`.
* **C60** Labels of decode errors point at parts of what was decoded: *proved*. From C58 and C59 case by case: each complaint is at a part of the node; then C20/C22 for what is parsed. "Points at" is stated with an arbitrary predicate on spans, so that it says more than that the label lies in the text. A `flatten` inside `unwrap` is excluded in c60_declared; c60_unwrap covers it.
  Theorems: `c60_labelled`, `c60_true`, `c60_scalar`, `c60_modes`, `c60_node`, `c60_root`, `c60_unwrap`, `c60_flatten`, `c60_enum`, `c60_declared`, `c60_vec`, `c60_parse`, `c60_parse_line`.
* **C61** Which decoders a declaration gets: *proved*. Spec/Declare says field by field what is a document, a partial struct, a sensible field; induction over the fields through `c52_roles` and `c52_accepts` (which fields the macro accepts, exactly).
  Theorems: `c61_root`, `c61_flattened`, `c61_newtype`.
* **C62** Smart pointers are transparent for nodes, documents and flattened structs: *proved*. Equations between the decoders of the pointer and of `T`, induction over the insertions. The model counts the other owners of a pointer.
  Theorems: `c62_node`, `c62_children`, `c62_insert`, `c62_insertions`, `c62_shared`.
* **C63** Messages of parse errors quote the text: *proved*. From C54 (what is found and what is unclosed is really in the text); `ShownAs` says how a character is shown, and the digits of an escape are proved to be the number of the character.
  Theorems: `c63_char`, `c63_found`, `c63_unclosed`, `c63_help`, `c63_code`.
* **C64** Texts put one after the other: *proved*. The sequence of nodes is read item by item; completeness of each item makes the first ones deterministic, the rest is related to the text alone by a shift of positions. A tree legal at the end of a text is extended by newlines to one legal before anything (legality depends on the first character of what follows only).
  Theorems: `c64_prefix`, `c64_two_newlines`, `c64_one_newline`, `c64_continuation`.
* **C65** Decoding does not look at spans: *proved*. A relation between computations at two span types (`Agrees`, Spec/Natural) that is kept by sequencing, failing and recording errors; then rule by rule through the decoders, with the variables of the generated code mapped along; induction over fields, properties, children and nodes. Then C21, C24, C04, C05 for what is parsed.
  Theorems: `c65_struct`, `c65_newtype`, `c65_enum`, `c65_scalar_enum`, `c65_scalars`, `c65_wrapped_scalars`, `c65_containers`, `c65_pointers`, `c65_ast`, `c65_spans`, `c65_line`, `c65_same_document`, `c65_layout`, `c65_bom`.
* **C66** A span covers exactly the text of its part: *proved*. Soundness gives a concrete syntax tree; every node at any depth is the meaning of a subtree standing at its place. Legality of a subtree depends only on the first character of what follows, and nothing following is always as good (`Cut`), so the subtree alone is a legal text and completeness gives its meaning; spans are compared by a shift.
  Theorems: `c66_node`, `c66_extent`, `c66_block`, `c66_value`, `c66_property`, `c66_name`, `c66_type_name`.
* **C67** The regions underlined in a report are regions of the text: *proved*. Parse errors: each place of a diagnostic that is true of the text (C54) is a place of characters. Decode errors: C60. The two span types: C65.
  Theorems: `c67_parse_ast`, `c67_parse`, `c67_same`.
* **C68** Editing a text in place: *proved*. Soundness gives a concrete syntax tree and the place of the node in it; in the tree the node is replaced by the tree of the inserted text (made closed by the newlines, C64). What stands before the seam stays legal because the new text is not empty and does not begin with a line feed (`Instead`); what stands after it does not depend on what is before. Completeness gives the new document, compared by the relation `Replaced`. For values, the same with the entry of the node; the property map is updated by `setProp` because the value in the map is that of the last property of the name.
  Theorems: `c68_nodes`, `c68_nodes_newline`, `c68_argument`, `c68_property`.
* **C69** The work of parsing is bounded: *partial*. `Model/Steps` is the grammar again with, for every combinator, the number of looks at the stream; `c69_counted_is_parser` proves that it is the same parser. Bounds: four classes of parsers (constant, linear in what is taken, linear only on failure, linear) closed under the combinators; nested comments are linear if they are closed, because then the first alternative never fails; the parser of nodes decreases a potential 3000 times the square of what remains, the failing attempt at a children block being paid by the fact that the node then cannot end (`cost_optChildren`). Lower bounds: every character taken was looked at (`Look`); on unclosed comments the loop at depth n runs the loop at depth n-1 twice (`repCost_opens`). The bound on all texts is false of the code: a block comment that is opened and not closed is read again as ordinary characters, at every level of nesting; c69_exponential and c69_no_polynomial_bound prove this. The quadratic bound is proved for texts in which every /* (also one inside a string) is followed by its end.
  Theorems: `c69_counted_is_parser`, `c69_at_least`, `c69_quadratic_partial`, `c69_no_comments_partial`, `c69_exponential`, `c69_no_polynomial_bound`.
* **C70** Errors after complete nodes: *proved*. The loop over the nodes carries the furthest alternative error. For complete nodes this error is never further than the end of the node (the position logic of C01), so it is behind whatever is tried after the line feed, and the loop goes on exactly as when started there (`sepGo_body`). The same run at another place of the text by the shift relation of C64; the opening token of something unclosed is found from its end and C54.
  Theorems: `c70_after`, `c70_three_newlines`, `c70_two_newlines`.
* **C71** What is left open is reported as left open: *proved*. A parser that fails exactly at the end of the text with the diagnostic (`Hits`), all other alternatives failing before the end (`Far`): the merge of errors by position keeps the one diagnostic through every combinator, and a walk from the innermost unfinished part outwards does the same for nodes and blocks (`hitN_walk`). At the innermost part, that what the loop over characters fails with at the end is an end-of-text error (`EndOk`, `EndErr`), which the error mapping turns into the diagnostic; for braces, that all rules fail so at the end (`Void`). Strings with complete characters (the text does not end inside an escape); comments without the overlapping `/*/`. What the code does not report so: the value of a property (c71_value_witness), raw strings (c71_raw_witness), `/*` at the very end (c71_comment_witness).
  Theorems: `c71_string`, `c71_comment`, `c71_braces`, `c71_value_witness`, `c71_raw_witness`, `c71_comment_witness`.
* **C72** A declared type reads exactly the nodes that are ways of writing its values: *proved*. A calculus of computations that settle (`Settles x R`: x gives v and leaves the context alone exactly if R v; otherwise there is an error, and no panic): closed under sequencing, conditionals, loops over arguments, properties and children field by field, and the loops that go on after an error. Then a mutual induction over declarations. The relation `Reads` of Spec/Schema.lean is by recursion on declarations and mentions no decoder. Declarations whose fields have different names, as have the properties and the children (`Decl.Proper`). `flatten` fields are added by C81; `span` fields are not in this language of declarations (they are in C55). Floats are kept as their text.
  Theorems: `c72_node`, `c72_accepts`, `c72_rejects`, `c72_unique`, `c72_parse`, `c72_parse_rejects`, `c72_parse_vec`, `c72_parse_vec_rejects`, `c72_macro`, `c72_macro_enum`.
* **C73** What comes out of parse is exactly the values of the declared type: *proved*. `Spec/SchemaValues.lean` gives the values of a type by recursion on the declaration, without nodes (`Decl.Has`). Three mutual inductions over declarations: `Reads` does not see spans; what is read from a printable node is a value; for each value there is a printable node (arguments in order, properties merged and sorted, children field by field, always with a block). With C72, C03 (each printable document is read back) and `parsed_printable` (each parsed document is printable) this gives the equivalence for texts. For `Decl.Proper` declarations, as C72. Which texts there are for a value is shown with the printer of C03.
  Theorems: `c73_spans`, `c73_vec`, `c73_root`.
* **C74** Messages about values and names say in words what is there: *proved*. From C58 (what is reported is true of the value) and the `Display` model; names by induction: the escapes of different characters are different and none is the beginning of another (`shownIn_inj`); spans by injectivity of decimal notation, which contains no dot (`c74_span`), and by induction on the number, against a separate definition of decimal notation (`c74_span_text`). What a number field says to be expected is `string` (C58); the word for the literal found is right.
  Theorems: `c74_kind`, `c74_kind_names`, `c74_type`, `c74_type_text`, `c74_names`, `c74_name_unique`, `c74_span`, `c74_span_text`, `c74_with_label`, `c74_delimiter`.
* **C75** The character complained about is where things went wrong: *proved*. Two runs on texts with a common beginning are compared (`Theory/Blame*`): either the first run has an error, kept or fatal, after the common part, or has taken exactly the common part or more, or both runs do the same. The relation is closed under the combinators except where an alternative is dropped (`choice` after a success, `or_not`, the checks); there the alternatives are compared character by character (`literal_touch`, `bareIdent_touch`). A fatal error inside the common part then means that the second run fails. `Theory/Place` proves that an error about a character has the position of that character and, if every `\u` begins a legal escape, that no such error is emitted without being fatal. For the texts named in the statement (`Straight`); c75_tie_fails, c75_raw_fails and c75_number_fails show that without three of the conditions the code blames a character that is innocent. The condition about \u is one of the proof (an illegal escape is an error of its own, which is reported and skipped, see C80); no counterexample is known.
  Theorems: `c75_blame`, `c75_beginning`, `c75_tie_fails`, `c75_raw_fails`, `c75_number_fails`.
* **C76** Messages about numbers and annotations say which type and which side: *proved*. By induction on the digits the loop of `from_str_radix` on digits only fails by overflow, on the side of the sign (`loop_error`); together with C29 (which numbers are accepted) and the uniqueness of the number denoted this decides the kind of error. Annotations by unfolding and C27 (a type name is printed as the text it was made from). The words of the number errors are those of the standard library, which is modelled (`IntErrorKind.show`), not taken from /repo.
  Theorems: `c76_int_type`, `c76_word_sized`, `c76_float_type`, `c76_text_type`, `c76_enum_type`, `c76_bytes_type`, `c76_too_large`, `c76_too_small`, `c76_minus`, `c76_float`.
* **C77** Lines before a text move its positions down and nothing else: *proved*. The generic simulation of two runs of the parser (Theory/Sim), here with the relation `further down` between the tokens of `w` alone and the tokens of `w` in place (`laterRel`); the tracker after a complete line (`trackAll_endsLine`), the end of input (`lineEoi_later`), and the results behind C64 and C70 about complete nodes at the beginning, which hold for any span type. The start of an opening token, which the code computes by subtraction, is settled by C54.
  Theorems: `c77_document`, `c77_two_newlines`, `c77_one_newline`, `c77_errors`, `c77_errors_three_newlines`, `c77_errors_two_newlines`.
* **C78** Children with different names may come in any order: *proved*. Specification in `Spec/Shuffle.lean`: `Shuffled n n'` (equal heads; for every name the children of that name are pairwise `Shuffled`, in order), `ShuffledNodes` for lists, `Decl.ByName` (no catch-all `children` field). By induction over the declaration, `Decl.Reads` is the same for shuffled nodes (`decl_shuffled`): it looks at the children only through the list of those with one name, and asks that no others are left. C72 says that the decoders agree with `Decl.Reads`, C73 that spans play no part (the nodes are compared without spans). `c78_swap` uses C64 for texts one after the other. `c78_rest_fails`: with a catch-all field the order matters. For the declarations of C72 that have no catch-all field for children anywhere (Decl.ByName); that the order matters with such a field is proved with a witness (c78_rest_fails).
  Theorems: `c78_node`, `c78_parse`, `c78_swap`, `c78_rest_fails`.
* **C79** Diagnostics come in the order of the text and do not overlap: *proved*. Specification in `Spec/Ordered.lean`: `PErr.place` and `InOrder` (pairwise). An error is *flat* if it begins where the reading had to stop; flat errors that win a merge begin after everything that was read. The others point back: at the opening of something unclosed, or at a word that cannot stand there. `Rd B F` (`Theory/Ordered`) says of a parser: on success the recorded errors lie in order in what was read, and an alternative error is flat or begins in the rest, which then looks like `B`; a failure that is not flat means that the text looked like `F`. It is closed under the combinators as long as what follows fails on `B` (a `/*` that is not closed stops the white space, the entries and the end of the node). For the list of nodes, which keeps what a failing node recorded, `NP` adds that these errors are before the alternative error, which then becomes the fatal one. For all texts, without a proviso.
  Theorems: `c79_in_order`, `c79_in_order_line`, `c79_before`.
* **C80** Each fault that can be skipped is reported once, and nothing else: *proved*. Specification in `Spec/Faults.lean`: concrete syntax trees with words among the entries and wrong escapes among the characters of strings, their text, their legality and the list of their faults with places. `Em R p eoi s a t fs` (`Theory/FaultComb`): `p` succeeds, and the errors it records match the faults `fs` one by one; closed under the combinators (where alternatives compete, the others fail). Strings in `Theory/FaultLex` (where the escape stops and where the skipping resumes), entries in `Theory/FaultEntries`, nodes by mutual induction over the trees in `Theory/FaultDoc`. The texts are those of the trees of Spec/Faults.lean (strict block comments, as in C02). A word that begins with a keyword is not among them: the code reads the keyword as an argument (C25).
  Theorems: `c80_each_fault_once`, `c80_each_fault_once_line`, `c80_count`, `c80_no_fault`.
* **C81** A declared type with flattened parts reads what the type written out reads: *proved*. `WrittenOut` (Spec/SchemaFlatten.lean) takes away one flattened field after the other; by induction over it, each step being C44 (a run without a complaint of the one is a run without a complaint of the other), and C72 at the end; C34 says that `Ok` is a run without a complaint. The types of the flattened fields are structs that may be flattened (`partialCompatible`) with fields of the kinds the derive allows there (`Child.Flat`), as in C44. That everything else is answered with errors is for structs whose field types do not panic (`Struct.Tame`, C82); which errors these are is not compared.
  Theorems: `c81_accepts`, `c81_rejects`, `c81_parse`, `c81_parse_rejects`.
* **C82** Decoding does not panic, leaves the user's part of the context alone, and does not depend on what was reported before: *proved*. Specification in `Spec/Tame.lean`: `Tame x` compares the run of `x` in a context with errors `es` to the run in a context without errors: no panic, the same extensions, the same outcome, and `es` in front of the new errors. Closed under the combinators of the decoding monad (`Theory/Tame`), so it holds for each function of the generated code; by induction over the attributes (`unwrap` inside `unwrap`) and over the fields and variants for what `Struct::new`, `Enum::new` and `Definition::parse` make of a declaration (`Theory/TameDerive`), and by mutual induction for the declarations of C72 (`Theory/TameSchema`). `c82_each` by induction over the list. The implementations that the user writes by hand are assumed to be so (`Impls.Tame`). For declared types that refer to themselves see c83_tame.
  Theorems: `c82_scalars`, `c82_functions`, `c82_ast`, `c82_wrapped`, `c82_value_inside`, `c82_nodes`, `c82_documents`, `c82_unshared`, `c82_shared`, `c82_struct`, `c82_enum`, `c82_derived`, `c82_derived_struct`, `c82_declared`, `c82_parse`, `c82_parse_text`, `c82_parse_line`, `c82_each`, `c82_each_text`.
* **C83** Types that refer to themselves and to each other: one implementation, which ends and reads what the unfoldings read: *proved*. Specification in `Spec/Recursive.lean`: types have names, `ds : Str → Decl` gives the declarations, and in a declaration an enum with one variant that holds the empty enum (`Decl.ref`) stands for the type of that name; `fillDecl r` puts types there, `unfolding ds k` does it `k` times, and `ReadsRec` is to be read by one of the unfoldings. `Decl.body self` is the generated function with the functions for the names as a parameter, and `DecodedBy` are the fixed-point equations. `Grounded ds R`: there are ranks up to `R`, and a type that hands on the whole node does so to types of lower rank. That the body with unfoldings for the names is the decoder of the next unfolding, that it looks at the names only for nodes below or for names of lower rank, and that readings are kept by unfolding more, are mutual inductions over declarations (`Theory/Recursive`); the rest follows by induction over the number of unfoldings, which bounds levels of the node times ranks, with C72 for each unfolding. For families of declarations of C72 that refer to each other by name. The condition that no type hands on the whole node to itself is `Grounded`; that it is needed is proved (c83_unguarded, c83_unguarded_many).
  Theorems: `c83_exists`, `c83_only`, `c83_depth`, `c83_levels`, `c83_accepts`, `c83_rejects`, `c83_unique`, `c83_tame`, `c83_around`, `c83_around_rejects`, `c83_parse`, `c83_parse_rejects`, `c83_parse_vec`, `c83_parse_vec_rejects`, `c83_unguarded`, `c83_unguarded_many`.
* **C84** The recursion of the parser is exactly as deep as the braces are nested: *proved*. Specification in `Spec/Depth.lean`: `documentTo k`, `mlCommentTo k` are the parsers whose recursion may go `k` calls deep (beyond that the run is a panic), and the depth of concrete syntax trees and comments. `Ag w r r'` (`Theory/Depth`): the results are the same, or, if `w` allows it, the first is a panic; closed under the combinators, given that the parsers agree at the places where they are called. With `w` true this gives `c84_limit`; with `w` false and the places behind a brace (or inside a comment) `c84_any`, by induction over the number of braces. For legal trees the places are followed along the tree with the lemmas behind C06: enough room gives the same result (`nodes_enough`), and if there is no panic there was enough room (`nodes_needs`), by induction over the limit. The calls that are counted are those of the two recursive rules; how many frames of the machine stack one of them takes is not modelled. Exactness is for legal texts with strict block comments, as in C02.
  Theorems: `c84_exact`, `c84_exact_line`, `c84_any`, `c84_any_line`, `c84_limit`, `c84_limit_line`, `c84_unlimited`, `c84_comment`, `c84_comment_any`, `c84_comment_limit`.
* **C85** Texts that say the same, and entries in another order: *proved*. `Spec/Alike.lean` says when two concrete trees say the same (`Alike`: what is written, by value, with the last value of
each property) and what another order of the entries is (`Reorders`: a permutation that keeps the arguments and the properties
of each name in order). `c85_same`: of two legal trees the texts are accepted, with the same document up to spans if and only if the trees are
alike; `c85_accepted` for any two accepted texts; `c85_reorder`: the entries of an accepted text in another order (in any layout that is legal everywhere)
are accepted with the same document; `c85_swap`: neighbours may be exchanged; `c85_decode`: texts that say the same are decoded alike (C65). Proved from the soundness and
completeness of the grammar (C06) and C12 by induction on the trees. The new layout must be a safe one because, for instance, a bare carriage return or a comment to the end of the line may not stand before everything.
  Theorems: `c85_same`, `c85_accepted`, `c85_reorder`, `c85_swap`, `c85_decode`.
* **C86** A text can be read in one way only: *proved*. `c86_one_tree`: two trees of `Spec/Cst.lean` that are legal and have the same text are equal - not only their meanings
(C06) but every white space, comment, escape and digit in them.  By induction on the trees, part by part: each part is determined
by the text it begins, with whatever follows (`Theory/Unique*.lean`); where the parser is known to read a part exactly (names, strings,
numbers) the uniqueness of its result is used.  `c86_accepted` joins it with `c06_exact`; `c86_node`, `c86_entry`, `c86_comment`
are the statements for a beginning of a text; `c86_tie` shows a text with two trees if `/*/` may end a comment.
  Theorems: `c86_one_tree`, `c86_accepted`, `c86_node`, `c86_entry`, `c86_comment`, `c86_tie`.
* **C87** A document is not larger than its text: *proved*. `Spec/Size.lean` defines the least number of bytes a document can be written with. By C06 the text is that of a concrete tree
and the document its meaning; by induction on the tree (`Theory/Size.lean`) the least of the meaning is at most the bytes of the text: an escape is
never shorter than the character it stands for, underscores and overwritten properties only cost, a node that is not the last is ended by
a character. What Rust allocates for a document (vectors, boxes, spans) is a constant for each part counted and is not modelled.
  Theorems: `c87_not_larger`, `c87_not_larger_line`, `c87_counts`, `c87_string`.
* **C88** No place is reported twice: *proved*. Specification as for C79 (`PErr.place`). The invariant behind C79 (`Steps` in `Theory/Ordered.lean`) says of the errors recorded so far that each
points at something not empty: an escape is skipped only up to a character that is there, so what it complains about is a character before it or
this one; a word is not empty. The last error, the fatal one, may be at the end of the text. With C46 (the places lie in the text) this bounds their number. For all texts, without a proviso.
  Theorems: `c88_something`, `c88_once`, `c88_once_line`, `c88_count`, `c88_count_line`.
* **C89** Without the feature base64 only annotated values are lost: *proved*. `Model/NoBase64` is `decode::bytes` with the branch for builds without the feature; by cases on the annotation and the literal, and compared with `decodeBytes` (the build with the feature, C53). For decode::bytes itself, not for derived fields with the mode `bytes` in such a build.
  Theorems: `c89_gives`, `c89_refused`, `c89_same`, `c89_accepted`.

## 4. Where code and properties disagree

Each is shown by a theorem with a concrete witness, named in brackets, or else
said to be an observation.

1. `BuiltinType::from_str` does not know `usize` and `isize`: `(usize)1` is an
   integer with a custom type and is refused for a field of type `usize`
   (c27_fails, c03_fails, c28_fails, c28_fails_usize).
2. A property name that begins with `true`, `false` or `null` is refused:
   `n nullable=1` (c25_fails, c25_keyword_prefix).
3. A raw string cannot be a node name or type name: the `r` is read as a bare
   identifier (c26_fails, c26_raw_rejected).
4. `/*/*/` is accepted as a closed comment (c19_overlap_accepted).
5. `1e` is accepted as a decimal, which `f64::from_str` refuses (C50).
6. Columns: the tracker counts a tab as 8, the width of a string counts it as 0,
   so that columns at the end of the input, and those of diagnostics in a last line with a
   tab, are wrong (c23_eoi_position_fails, c22_errors_columns_fails).
7. `Option`, `Box`, `Spanned`, ... of the AST types panic when they are decoded as scalars
   (c31_fails, c33_fails).
8. A flattened `child` that comes twice is an error that is recorded, in line it
   is one that stops the decoding (c44_child_fails).
9. The place where something unclosed should have been closed is not always the
   end of the input (c54_missed_at_end_fails).
10. The advice that identifiers cannot be arguments is also given of a property name
    whose value is wrong (c54_advice_fails).
11. The wrong kind of a value for a number field is reported as "expected
    string", even if a string was found (c58_number_fails); a value of the wrong kind for a `bytes` field may be
    reported twice, the second time as bytes that cannot be converted (c58_bytes_fails).
12. Observations: the unsigned integers refuse `-0`; the type annotation of
    `unwrap` children, of tuple and unit variants and of flags is not looked at, nor that
    of a `null` for an optional `bytes` field; the first of several equal property names
    keeps its span in the map while the last value wins; a flag with an empty
    block `{}` is accepted; an unclosed raw string as plain argument is
    reported as a bare identifier; `{ child }` needs a terminator
    before the brace; the byte order mark is white space and identifier character both.
13. Observations on the macro: `flatten(child, property)` and `flatten()` produce code that does
    not compile; so do optional `children(name=..)` in a partial struct, newtypes around anything but an
    `Option`, `unwrap(span)` and the like, `span`, `node_name` and `type_name` in enum variants; variants
    with named fields stop at a `todo!()`.
14. C69: parsing takes exponential time on block comments that are opened and not closed.
    `ml_comment` (src/grammar.rs:127-135) tries a nested comment first and, when it fails,
    reads the same characters as the text of the outer comment; nothing is remembered, so each level
    doubles the work: `/* ` written n + 1 times takes at least 2^n looks at the input
    (`c69_exponential`), and no polynomial bounds the work (`c69_no_polynomial_bound`).  A text of
    150 characters is enough to keep the parser busy for ever.
15. C71: a string left open as the value of a property is reported together with the wrong message
    that the name of the property cannot be an argument (c71_value_witness); a raw string left open in
    the place of an entry is not reported as such (c71_raw_witness); nor is `/*` as the last characters
    of a text (c71_comment_witness; the check `span.length() > 2`).
16. C75: inside braces a raw string that is not closed is reported at its opening quote, and a number with
    a sign that is used as a property name at its first digit, as if `r` and `+` had been meant
    (c75_raw_fails, c75_number_fails); what was reported where, outside of braces, is lost when the
    `choice` goes on to the bare identifier.

## 5. What is not modelled

* Memory, and the size of the machine stack.  (How deep the calls of the parser go is C84, how many steps they
  take C69; deep nesting may overflow the real stack.)
* The internals of `std`, `unicode-width`, `base64`, `heck`, `miette`; of `minicbor` only the
  format is modelled.  Of `std`,
  `from_str_radix` and the syntax accepted by `f64::from_str` are modelled; the
  value of a float is not (it is kept as its text).
* `syn` and `quote`: how the text of a program becomes an item with attributes, the parsers of expressions and
  types inside attributes (parameters of the model, see `SynLaws`), generics, and the text of the generated
  code (what this code does is modelled).
* The rendering of diagnostics by `miette` (messages, labels and places are modelled).
* The lists of what was expected in the diagnostics of the parser are modelled, and agree with the tests of the
  repository, but no property speaks of them: C54 is about what was found, where, and what is unclosed.  A program
  that only changes these lists may satisfy all theorems (attempt vcv09 of the log).
* CBOR input with arrays, maps or texts of indefinite length (`minicbor` reads it, its encoder never writes it).

## 6. Trusted base

* Lean's kernel, and the axioms `propext`, `Classical.choice`, `Quot.sound`.  No theorem
  depends on any other; there is no `sorry`, no `native_decide`, no `bv_decide` and no
  axiom in the project.  Of the 467 theorems claimed in MANIFEST.json, 407 depend on `propext`, `Classical.choice`, `Quot.sound`; 29 depend on `propext`; 20 depend on `propext`, `Quot.sound`; 11 depend on no axiom.
* The transcription of the Rust code into `Model/*.lean`.  For `derive/src`, `src/decode.rs`, `src/convert.rs`
  and `src/containers.rs` it was checked against the tests of `derive/tests` (`Tests/Derive.lean`).
* The behaviour of the combinators of chumsky 0.9.2 as written in
  `Model/Chumsky.lean`.  The source of the crate is not available in the sandbox; the
  transcription was checked against all grammar tests of the repository,
  including the expected messages and spans (`Tests/Grammar.lean`).
* For C57 the wire format of `minicbor` 0.19 and its derive macros, as documented by the crate and
  written in `Model/Cbor.lean`.
* For C53 the assumption `StandardB64`, a hypothesis of the theorems about `bytes`.

## 7. How the theorems were tested

`seeded/LOG.jsonl`: one line for each wrong program: the definition of the model that was
edited, the edit, the claim that is false of the edited program, the theorems that then
fail to check, and what was tightened when none did.

How to read its fields. `first_to_fail` is what was observed: the declarations whose own
proofs the build rejected, each replaced by a stub in the scratch copy so that the build
went on. `theorems_failed` is computed from it: the theorems of the manifest that are
among those, or whose proofs rest on one of them. A theorem of the second kind has lost
its proof; it was not shown one by one to be false of the edited program. The computation
uses the dependencies of the present development, and so an old attempt also lists
theorems that were added after it. A proof may also fail because of the form of a
definition only. An attempt in which no theorem of the claim itself failed was examined
by hand, and has a note or a later attempt with the same edit.
