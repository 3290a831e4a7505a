{"id": "C01", "title": "Parsing is total and never panics", "statement": "For every UTF-8 text, parse_ast (with Span or LineSpan) terminates and returns either Ok(document) or Err(error); it never panics. In particular the `todo!` in the merging of parse errors and the no-progress panic of the repetition combinators are unreachable.", "quantifier": "every input text (any length, any nesting depth), both span types", "why_tests_cant": "The set of texts is infinite and the panic needs two specific error kinds to meet at the same input offset; a test suite can only sample texts.", "anchors": ["src/wrappers.rs: parse_ast", "src/grammar.rs: document, nodes, prop_or_arg_inner", "src/errors.rs: ParseError::merge"]}
{"id": "C02", "title": "Ok and Err are exclusive and an Err always carries a diagnostic", "statement": "parse_ast returns Ok exactly when no syntax error was recorded; whenever it returns Err the error value carries at least one individual diagnostic.", "quantifier": "every input text", "why_tests_cant": "Error recovery keeps producing values after an error; only a proof covers every way recovery and backtracking can combine.", "anchors": ["src/wrappers.rs: parse_ast", "src/grammar.rs: esc_char (recover_with), prop_or_arg_inner (validate)"]}
{"id": "C03", "title": "Printing then parsing returns the same document", "statement": "For every document value (node names, optional type names, arguments, properties, children), writing it out in KDL syntax and calling parse_ast gives Ok of that same document, up to spans.", "quantifier": "every document value: arbitrary names, strings over all of Unicode, numbers, any nesting depth and any number of nodes/entries", "why_tests_cant": "Documents form an infinite recursive type; round trips on sample documents miss characters, nestings and separators that were not tried.", "anchors": ["src/grammar.rs: document, nodes, prop_or_arg, value, literal, string, ident", "src/ast.rs: Document, Node, Value, Literal"]}
{"id": "C04", "title": "White space, comments and line continuations do not change meaning", "statement": "Between the entries of a node, and between nodes, any non-empty sequence of white space, block comments and escaped line breaks (between nodes also newlines and line comments) may be used; the parsed document does not depend on which one is used.", "quantifier": "every document and every choice of separators at every position", "why_tests_cant": "Each separator is itself an arbitrary long sequence including arbitrarily nested comments.", "anchors": ["src/grammar.rs: ws, ml_comment, comment, esc_line, node_space, line_space, node_terminator"]}
{"id": "C05", "title": "Slash-dash removes exactly the next element", "statement": "Putting /- before an argument, a property, a children block or a node gives the same document as leaving that element out; no neighbouring element is affected.", "quantifier": "every document, every position and every commented-out element", "why_tests_cant": "Commented elements are arbitrary (nested) KDL fragments.", "anchors": ["src/grammar.rs: prop_or_arg, nodes (begin_comment('-'))"]}
{"id": "C06", "title": "Everything accepted is derivable from the grammar", "statement": "If parse_ast returns Ok(doc), then the text is derivable in the declarative KDL grammar implemented by the crate and doc is the meaning of that derivation: no character of the input is dropped or invented.", "quantifier": "every accepted text", "why_tests_cant": "Negative space: tests can show that some bad texts are rejected, not that every accepted text is legal.", "anchors": ["src/grammar.rs: document"]}
{"id": "C07", "title": "Every string can be written as an escaped string and is read back exactly", "statement": "For every string s and every way to escape its characters (literally, with a short escape, or with \\u{...} in 1-6 hex digits), the quoted text is read as exactly s.", "quantifier": "every string over Unicode scalar values, every choice of escape for each character, every following text", "why_tests_cant": "1.1 million code points times all escape spellings times all positions.", "anchors": ["src/grammar.rs: escaped_string, esc_char"]}
{"id": "C08", "title": "Raw strings are verbatim", "statement": "For every n and every string s that does not contain a double quote followed by n hashes, r, n hashes, quote, s, quote, n hashes is read as exactly s (no escape processing).", "quantifier": "every n, every such string", "why_tests_cant": "Unbounded number of hashes and arbitrary content.", "anchors": ["src/grammar.rs: raw_string"]}
{"id": "C09", "title": "Invalid escapes are never accepted", "statement": "A quoted string containing a backslash followed by a character that is not a legal escape, or a \\u{...} escape that does not denote a Unicode scalar value (surrogates, > 10FFFF), or is malformed, never leads to Ok: parse_ast of a text containing it as a value returns Err, and never a silently substituted character.", "quantifier": "every string body with an invalid escape at any position", "why_tests_cant": "The code does substitute NUL internally during recovery; only a proof over all texts shows that it never escapes through Ok.", "anchors": ["src/grammar.rs: esc_char, escaped_string"]}
{"id": "C10", "title": "Integer literals keep radix and digits, underscores are ignored", "statement": "For every integer literal syntax (optional sign; decimal, 0b, 0o or 0x; digits with underscores anywhere after the first digit) the parsed value records the radix, the sign and exactly the digits without underscores.", "quantifier": "every sign, radix and digit string", "why_tests_cant": "Digit strings are unbounded.", "anchors": ["src/grammar.rs: number, radix_number, decimal_number, digits"]}
{"id": "C11", "title": "Decimal literals keep their text and are told apart from integers", "statement": "A number literal with a fraction or an exponent is read as a decimal whose text is the source text without underscores; a literal with neither is read as an integer.", "quantifier": "every decimal number literal", "why_tests_cant": "Unbounded digit strings.", "anchors": ["src/grammar.rs: decimal_number"]}
{"id": "C12", "title": "Properties: the last value of a key wins, keys are unique and sorted", "statement": "After parsing a node, its property map contains each key written on the node exactly once, in string order, with the value of the last (not slash-dashed) occurrence.", "quantifier": "every sequence of properties on a node", "why_tests_cant": "Arbitrary many duplicate keys in arbitrary order interleaved with arguments.", "anchors": ["src/grammar.rs: nodes (properties.insert)", "src/ast.rs: Node::properties"]}
{"id": "C13", "title": "Arguments keep their order and are independent of properties", "statement": "The argument list of a parsed node is the list of arguments in source order, whatever properties are interleaved with them; and the property map does not depend on the arguments.", "quantifier": "every sequence of entries on a node", "why_tests_cant": "Arbitrary interleavings.", "anchors": ["src/grammar.rs: nodes (arguments.push)"]}
{"id": "C14", "title": "Children block: present, empty and absent are distinguished", "statement": "A node written with braces has Some(children) in source order (Some of an empty list for empty braces), a node without braces or with a slash-dashed block has None.", "quantifier": "every node", "why_tests_cant": "Arbitrary nested content.", "anchors": ["src/grammar.rs: nodes (opt_children)", "src/ast.rs: Node::children"]}
{"id": "C15", "title": "Bare identifiers: exactly the documented character classes, never a keyword", "statement": "A sequence of characters is read as a complete bare identifier if and only if it starts with an allowed first character (not a digit, not sign+digit), continues with identifier characters, and is not true, false or null; the identifier read is exactly that text.", "quantifier": "every character sequence", "why_tests_cant": "All Unicode characters at all positions.", "anchors": ["src/grammar.rs: bare_ident, id_char, id_sans_dig, id_sans_sign_dig"]}
{"id": "C16", "title": "A bare identifier is never silently taken as an argument value", "statement": "If parse_ast returns Ok, every argument of every node was written as a string, number or keyword literal (optionally typed); a bare word in value position always leads to Err.", "quantifier": "every text", "why_tests_cant": "The grammar produces a fallback value for bare words; the proof has to show that the recorded error always survives.", "anchors": ["src/grammar.rs: prop_or_arg_inner (validate)"]}
{"id": "C17", "title": "Numbers and keywords are never names", "statement": "No accepted document has a node name, type name or unquoted property name that was written as a number or as true/false/null; such texts give Err.", "quantifier": "every text", "why_tests_cant": "Infinite set of number spellings; interaction with sign-prefixed identifiers.", "anchors": ["src/grammar.rs: ident, bare_ident, prop_or_arg_inner"]}
{"id": "C18", "title": "All newline forms are equivalent", "statement": "LF, CR, CR LF, form feed, NEL, LS and PS terminate a node and end a line comment in the same way; CR LF counts as one newline.", "quantifier": "every document and every choice of newline at every line end", "why_tests_cant": "Combinations over all line ends.", "anchors": ["src/grammar.rs: newline, node_terminator, comment"]}
{"id": "C19", "title": "Block comments nest; an unclosed comment is an error", "statement": "A block comment is skipped up to its matching close, whatever it contains (including nested comments); a text in which a block comment is opened between nodes and never closed is rejected.", "quantifier": "every comment content and nesting depth", "why_tests_cant": "Unbounded nesting.", "anchors": ["src/grammar.rs: ml_comment"]}
{"id": "C20", "title": "Spans lie inside the text, on character boundaries, and nest", "statement": "In every document returned by parse_ast::<Span>, each span (node, node name, type name, property name, value, children block) satisfies start <= end <= text length, begins and ends at character boundaries, and spans of parts lie inside the span of the node they belong to.", "quantifier": "every accepted text and every span in the resulting document", "why_tests_cant": "All texts with multi-byte characters at all positions.", "anchors": ["src/span.rs: Span, OffsetTracker", "src/grammar.rs: spanned, nodes"]}
{"id": "C21", "title": "The two span types agree", "statement": "parse_ast::<LineSpan> succeeds exactly when parse_ast::<Span> does, and replacing each line/column span by its byte offsets turns the first document (or the list of errors) into the second.", "quantifier": "every text", "why_tests_cant": "Needs equality of two parser instantiations on all inputs.", "anchors": ["src/span.rs: Span, LineSpan, DecodeSpan<LineSpan> for Span", "src/wrappers.rs: parse_ast"]}
{"id": "C22", "title": "Line and column numbers are right", "statement": "The line of a position reported with LineSpan is the number of newlines (CR LF counted once) before it, and its column is the sum of the widths of the characters since the last newline.", "quantifier": "every text and every character in it", "why_tests_cant": "All texts; CR LF state machine.", "anchors": ["src/span.rs: LineTracker::next_span"]}
{"id": "C23", "title": "End-of-input position agrees with the position after the last character", "statement": "With LineSpan, the end-of-input position used in diagnostics equals the end position of the last character of the text.", "quantifier": "every text", "why_tests_cant": "Two separate loops compute the same quantity and have to agree on all texts.", "anchors": ["src/span.rs: LineSpan::stream, LineTracker::next_span"]}
{"id": "C24", "title": "A leading byte-order mark is ignored", "statement": "Prefixing a text with U+FEFF does not change whether it parses nor the resulting document (up to spans).", "quantifier": "every text", "why_tests_cant": "All texts; U+FEFF is both white space and an identifier character here.", "anchors": ["src/grammar.rs: ws_char, id_char, line_space"]}
{"id": "C25", "title": "Any bare identifier can be used as a property name", "statement": "For every legal bare identifier k and value v, the node text `n k=v` parses to a node with the single property k = v.", "quantifier": "every bare identifier", "why_tests_cant": "Infinite set of identifiers; the failing ones are those starting with a keyword.", "anchors": ["src/grammar.rs: prop_or_arg_inner, keyword, literal"]}
{"id": "C26", "title": "Any string literal can be used as a node name", "statement": "For every string literal (escaped or raw), a text consisting of that literal as a node name parses to one node with that name.", "quantifier": "every string and both spellings", "why_tests_cant": "Order of alternatives matters for infinitely many raw strings.", "anchors": ["src/grammar.rs: ident, string, bare_ident"]}
{"id": "C27", "title": "Type names round-trip through their text", "statement": "Converting a type name to text and back gives an equal type name; the built-in types are recognised exactly by their documented names.", "quantifier": "every type name (all builtin types and all custom strings)", "why_tests_cant": "All strings; a missing table row is only visible when quantifying over the table.", "anchors": ["src/ast.rs: BuiltinType::as_str, BuiltinType::from_str, TypeName::from_str, TypeName::as_str"]}
{"id": "C28", "title": "A number annotated with the Rust type of its field is accepted", "statement": "For each integer and float Rust type T, a value with type annotation (T), or without annotation, passes the type check of T; every other annotation is reported as an error.", "quantifier": "every numeric field type and every type annotation", "why_tests_cant": "All annotations; matrix of types times names.", "anchors": ["src/convert.rs: impl_integer!, impl_float!", "src/ast.rs: BuiltinType::from_str"]}
{"id": "C29", "title": "Integers are decoded exactly or rejected, never wrapped", "statement": "Decoding an integer literal of any radix into an integer type yields exactly its mathematical value when it is in range of the type (and, for unsigned types, carries no minus sign), and otherwise reports a conversion error; so an accepted document never contains a wrapped or truncated integer.", "quantifier": "every literal (unbounded digits, four radixes), every one of the 10/12 integer types", "why_tests_cant": "Unbounded digit strings; boundary values of every type.", "anchors": ["src/convert.rs: impl_integer!", "src/ast.rs: Integer, Radix"]}
{"id": "C30", "title": "Values of the wrong kind are never accepted as defaults", "statement": "When a scalar of the wrong kind (or a malformed one) is given for an integer, float, bool or string field, an error is recorded (although a placeholder 0 may be used internally), so the overall parse returns Err.", "quantifier": "every literal and every builtin scalar type", "why_tests_cant": "All literals times all types times all placements.", "anchors": ["src/convert.rs", "src/wrappers.rs: parse_with_context"]}
{"id": "C31", "title": "Optional scalars: null is None and nothing else is", "statement": "Decoding into Option<T> gives None exactly for the null literal, and otherwise behaves as T wrapped in Some, with the same errors.", "quantifier": "every value and every scalar type T", "why_tests_cant": "All values times all T.", "anchors": ["src/containers.rs: Option<T>"]}
{"id": "C32", "title": "Strings, booleans and paths are decoded verbatim", "statement": "Decoding a string literal into String, Box/Arc<str> or a path type gives exactly the literal text, a boolean literal gives exactly that boolean; any type annotation is reported as an error.", "quantifier": "every literal and annotation", "why_tests_cant": "All strings.", "anchors": ["src/convert.rs: String, PathBuf, Arc<Path>, Arc<str>, bool"]}
{"id": "C33", "title": "Smart pointers and Spanned are transparent for scalars", "statement": "Decoding a scalar into Box<T>, Rc<T>, Arc<T> or Spanned<T> gives the value decoded as T (with its span in the last case), and the same errors.", "quantifier": "every value and scalar type T", "why_tests_cant": "All nestings of wrappers and all values; the raw AST Value is the exception to look for.", "anchors": ["src/containers.rs", "src/convert_ast.rs: Value::raw_decode"]}
{"id": "C34", "title": "parse succeeds exactly when decoding returned Ok and recorded no error", "statement": "parse / parse_with_context returns Ok(value) iff parsing succeeded, the decoder returned Ok(value) and no error was recorded in the context; otherwise Err carries all recorded errors in order, followed by the returned one.", "quantifier": "every decoder, text and context", "why_tests_cant": "Ranges over all decoders (user written ones too).", "anchors": ["src/wrappers.rs: parse_with_context, parse", "src/decode.rs: Context"]}
{"id": "C35", "title": "A list of nodes is decoded node by node, every failure is reported", "statement": "Decoding the document into Vec<T> calls T's decoder on each node in order; the result has one element per successful node in order; each failing node contributes its own error; no node is skipped.", "quantifier": "every list of nodes and decoder", "why_tests_cant": "Unbounded lists and mixtures of failures.", "anchors": ["src/containers.rs: DecodeChildren for Vec<T>"]}
{"id": "C36", "title": "Context is a last-write-wins map keyed by type", "statement": "Context::get::<T> returns the last value set for T, is not affected by set for other types, and by emitted errors; errors come out in emission order.", "quantifier": "every history of set/get/emit operations", "why_tests_cant": "All operation histories.", "anchors": ["src/decode.rs: Context"]}
{"id": "C37", "title": "Decoding into the AST types is the identity", "statement": "Decoding a document or node into the crate's own AST types (Node, SpannedNode, Value, Literal) reproduces the parsed AST without recording any error.", "quantifier": "every document/node", "why_tests_cant": "All recursive AST values.", "anchors": ["src/convert_ast.rs"]}
{"id": "C38", "title": "Positional arguments are assigned by position and all are accounted for", "statement": "For a derived struct, the i-th argument of the node goes to the i-th argument field, further arguments go, in order, to the `arguments` field; if there is no such field, a surplus argument is an error; a missing argument is an error unless the field is optional or has a default.", "quantifier": "every derived struct shape and every node", "why_tests_cant": "All struct shapes times all nodes.", "anchors": ["derive/src/node.rs: decode_args"]}
{"id": "C39", "title": "Named properties are assigned by name and unknown ones are rejected", "statement": "For a derived struct, a property goes to the field with that name; other properties go to the `properties` field or a flatten field that accepts them, else are an error; a missing property is an error unless optional or defaulted.", "quantifier": "every derived struct shape and every node", "why_tests_cant": "All struct shapes times all property maps.", "anchors": ["derive/src/node.rs: decode_props"]}
{"id": "C40", "title": "Children are routed by name, single children at most once", "statement": "For a derived struct, a child node goes to the field of that name; `children(name)` fields collect all nodes of that name in order, an unnamed `children` field collects all remaining nodes in order; a second node for a single-child field is an error; an unmatched node is an error; a missing required child is an error.", "quantifier": "every derived struct shape and every list of child nodes", "why_tests_cant": "All struct shapes times all node lists.", "anchors": ["derive/src/node.rs: decode_children"]}
{"id": "C41", "title": "A flag child is true iff present, and must be empty", "statement": "A bool child field is true iff a node of that name is present; a flag node with arguments, properties or children is an error.", "quantifier": "every list of child nodes", "why_tests_cant": "All nodes.", "anchors": ["derive/src/node.rs: decode_children (Flag)", "src/decode.rs: check_flag_node"]}
{"id": "C42", "title": "Enums dispatch exactly on the node name", "statement": "A derived enum decodes a node as the variant whose name equals the node name and reports an error for every other name.", "quantifier": "every derived enum and every node", "why_tests_cant": "All names.", "anchors": ["derive/src/variants.rs"]}
{"id": "C43", "title": "Scalar enums accept exactly their variant names", "statement": "A derived scalar enum decodes a string literal equal to a variant name to that variant; other strings and other kinds of literals are errors and type annotations are rejected.", "quantifier": "every scalar enum and every value", "why_tests_cant": "All literals.", "anchors": ["derive/src/scalar.rs"]}
{"id": "C44", "title": "Flatten is inlining", "statement": "Decoding a struct with a flatten(child/property) field gives the same field values as decoding the struct in which the flattened fields were written in line.", "quantifier": "every pair of struct shapes and every node", "why_tests_cant": "All struct shapes times all nodes.", "anchors": ["derive/src/node.rs: insert_child, insert_property, decode_children"]}
{"id": "C45", "title": "Unwrap descends exactly one level", "statement": "A child field with unwrap(argument/property/child/arguments/...) gets the value decoded from inside the single child node with exactly that content; other content in the unwrapped node is an error.", "quantifier": "every unwrap field and every child node", "why_tests_cant": "All nodes.", "anchors": ["derive/src/node.rs: unwrap_fn, decode_node"]}
{"id": "C46", "title": "Parse errors point into the text", "statement": "Every span in every diagnostic returned by parse_ast lies inside the source text (start <= end <= length).", "quantifier": "every rejected text and every label of every diagnostic", "why_tests_cant": "All rejected texts; before_start/at_start do byte arithmetic.", "anchors": ["src/grammar.rs: map_err_with_span", "src/span.rs: before_start, at_start, at_end"]}
{"id": "C47", "title": "Diagnostic lists are rendered without losing alternatives", "statement": "The message of an `unexpected token` diagnostic names what was found and every expected alternative exactly once; ExpectedType displays every allowed type and mentions `no type` iff it is allowed.", "quantifier": "every set of alternatives", "why_tests_cant": "Sets of any size.", "anchors": ["src/errors.rs: FormatUnexpected, ExpectedType::fmt"]}
{"id": "C48", "title": "Equality, order and hash of spanned values ignore the span consistently", "statement": "Spanned values compare, order and hash exactly as their values, so lookups in maps keyed by spanned strings behave as lookups by the string.", "quantifier": "every pair of spanned values and every map", "why_tests_cant": "All values and all spans.", "anchors": ["src/span.rs: PartialEq/Ord/Hash/Borrow for Spanned"]}
{"id": "C49", "title": "What follows a legal beginning must fit", "statement": "If a text starts with a legal beginning that stops where a node, an entry, a property value or a typed value is expected, and the next characters can be none of layout, slash-dash, block or terminator, then the text is rejected unless those characters begin with something legal for that place (a node head, an argument or property, a value, a literal) followed by a delimiter.", "quantifier": "every legal beginning (any number of preceding nodes, any depth of open blocks, any number of preceding entries) and every continuation", "why_tests_cant": "All beginnings and all continuations; says that no other parse exists.", "anchors": ["src/grammar.rs: nodes, node_item, arg_or_prop, literal, type_name"]}
{"id": "C50", "title": "Decimals of the document are floats for Rust, unless the exponent has no digits", "statement": "The text kept for a decimal number of a parsed document is accepted by f32/f64 parsing exactly if it ends with a digit; the only decimals rejected are those whose exponent has no digits (such as `1e`), which the grammar accepts.", "quantifier": "every decimal literal", "why_tests_cant": "All digit strings, fractions and exponents.", "anchors": ["src/grammar.rs: number", "src/convert.rs: impl_float!"]}
{"id": "C51", "title": "Span, node name and type name fields get those of the node; every field is assigned once", "statement": "For a derived struct, the `span`, `node_name` and `type_name` fields get the span, name and type name of the node (converted by the type of the field); a type name that no field takes is reported; fields without attribute get their Default; the decoded struct has exactly its declared fields, each once.", "quantifier": "every derived struct shape and every node", "why_tests_cant": "All struct shapes times all nodes.", "anchors": ["derive/src/node.rs: decode_specials, assign_extra, emit_struct"]}
{"id": "C52", "title": "Each field of a derived struct plays exactly the roles its attributes say, in declaration order", "statement": "Struct::new sorts the fields by their attributes: the argument fields are the arguments in declaration order, the property fields the properties, the child/children fields the children, and so on, with no field lost or moved; a second `arguments`, `properties`, catch-all `children`, or an `argument` after `arguments` (and the other ordering conflicts) is refused; all declared fields are listed once.", "quantifier": "every list of field declarations", "why_tests_cant": "Unboundedly many field lists with every combination of attributes.", "anchors": ["derive/src/definition.rs: StructBuilder::add_field, StructBuilder::build, Struct::new"]}
{"id": "C53", "title": "Decode modes str and bytes accept exactly strings (and base64), and give what the field's conversion makes of them", "statement": "A field with decode mode `str` accepts exactly a string without type annotation that the type's FromStr accepts (also null if the field is optional) and gets the result of FromStr; a field with mode `bytes` gets what TryFrom<Vec<u8>> makes of the UTF-8 bytes of a string without annotation, or of the bytes whose base64 text (RFC 4648, padded) a string annotated (base64) is; everything else is an error.", "quantifier": "every value, every conversion, optional or not", "why_tests_cant": "All strings, annotations, literal kinds and conversion functions.", "anchors": ["derive/src/node.rs: decode_value", "src/decode.rs: bytes"]}
{"id": "C54", "title": "Diagnostics are true of the text", "statement": "If a text does not parse, every diagnostic tells the truth about it: what is said to be found (a character, a keyword, a number, the end of input) is what is at the span; what is said to be unclosed (string, raw string, comment, braces) has its opening token exactly at `opened_at`, is really not closed in the rest of the text, and `expected_at` is after the opening token; a bad character code is the braced hexadecimal code of no character; a number said to be a property name is a number before an equals sign; an identifier said to be an argument is a bare identifier.", "quantifier": "every text that does not parse and every diagnostic of it, for byte and line spans", "why_tests_cant": "Errors of alternatives are merged at every failing branch of a recursive grammar; a wrong span or a wrong claim may come from any combination of branches over unboundedly many texts.", "anchors": ["src/grammar.rs: ml_comment, raw_string, escaped_string, esc_char, type_name, prop_or_arg, node_name, nodes", "src/errors.rs: ParseError, merge", "src/span.rs: SpanContext"]}
{"id": "C55", "title": "The attributes `#[knuffel(..)]` mean what their text says", "statement": "The parser of the attributes accepts exactly the documented language (argument, arguments, property, property(name=\"..\"), properties, child, children, children(name=\"..\"), flatten(..), unwrap(..), str, bytes, default, default=expr, skip, span, node_name, type_name, span_type=.., separated by commas with an optional trailing one) and reads each text in one way only; several attributes of one field act as one, in any order; giving a mode, decode mode, unwrap or default twice is refused; and every combination of settings can be written and is read back.", "quantifier": "every sequence of tokens, every list of attributes, unwraps nested to any depth", "why_tests_cant": "Token sequences and nesting of unwrap(..) are unbounded; order and splitting of attributes give unboundedly many texts of one meaning.", "anchors": ["derive/src/definition.rs: Attr, Attr::_parse, parse_attr_list, FieldAttrs::update, FieldAttrs::new, Attrs"]}
{"id": "C56", "title": "What is derived is what is declared: the item's shape and attributes decide", "statement": "A struct with named fields, a unit struct, a tuple struct, a newtype (exactly one unnamed field without a mode) and an enum are told apart by their declarations alone; container attributes are span_type only, the last one counting; the variants of an enum are those not marked skip, in order, each under the kebab case of its name and of the kind its fields say (unit, nested, tuple; named fields refused); the decoder of an enum takes the first variant not skipped that has the name of the node and else names them in the order of the declaration; DecodeScalar takes exactly the enums of unit variants; the assertion that all fields of a tuple are filled in never fires unless a flatten names none or both of child and property.", "quantifier": "every item, every list of fields, variants and attributes", "why_tests_cant": "Unboundedly many declarations; the macro is tested on a few dozen.", "anchors": ["derive/src/definition.rs: Definition::parse, Enum::new, Variant::new, Struct::new, is_option, is_bool, TraitProps::pick_from, VariantAttrs::update", "derive/src/node.rs: emit_struct", "derive/src/scalar.rs: Enum::new, Scalar::parse"]}
{"id": "C57", "title": "Documents survive CBOR", "statement": "With the feature `minicbor`, encoding a document that was parsed from a text (or decoded, or made by hand with type names that text can express) and decoding the bytes gives the same document back, with its spans of either kind, its type names, the order of its arguments, nodes and properties, and the difference between no children and an empty block; the bytes after it are left alone. The bytes are CBOR (RFC 8949) of a fixed layout by field numbers with shortest heads; longer heads and further fields at the end of any record, whatever they are, are accepted and change nothing; different documents have different encodings; and whatever decodes has sorted, unique properties and type names that text can express.", "quantifier": "every document of any size and depth whose encoding and numbers fit in 64 bits; every sequence of bytes for decoding", "why_tests_cant": "Documents nest without bound, and head sizes change at 24, 2^8, 2^16 and 2^32; optional fields at the end are left out.", "anchors": ["src/ast.rs: attributes n(..) of Node, Document, Radix, Integer, Decimal, Value, Literal; Encode and Decode for TypeName", "src/span.rs: attributes n(..) of Spanned, Span, LinePos, LineSpan"]}
{"id": "C58", "title": "What a decode error says about a value is true", "statement": "Whatever a scalar decoder (the integer and float types, bool, the text types, derived scalar enums, Option, Box, Rc, Arc and Spanned of those, and the decode modes str and bytes) reports about a value: a kind error stands at the literal, names the kind found, which is not one that the type takes, and names the kind expected; a type name error stands at the annotation, which is not one that the type takes, and names those that it takes; a conversion error stands at the literal, which is of the right kind; and nothing else is reported.", "quantifier": "every value, every context, every type of the list, every FromStr or TryFrom of a field", "why_tests_cant": "Unboundedly many literals and annotations, arbitrary conversions of the field types.", "anchors": ["src/convert.rs: impl_integer, impl_float, DecodeScalar for String, PathBuf, Arc<Path>, Arc<str>, bool", "src/decode.rs: bytes, From<&Literal> for Kind", "src/errors.rs: DecodeError::scalar_kind, conversion", "derive/src/node.rs: decode_value", "derive/src/scalar.rs: emit_scalar", "src/containers.rs: DecodeScalar for Option, Box, Rc, Arc, Spanned"]}
{"id": "C59", "title": "Derived decoders complain only with cause", "statement": "Every error that a derived decoder reports, recorded or returned, has a cause in the node: it comes from the decoder of a field for the part that belongs to that field, or a name could not be converted, or there is a type name and no field for it or the other way round, or an obligatory argument, property or child is really not there, or an argument, property or child really belongs to no field, or a child really comes a second time, or a flag really has content, or there is no variant of that name; and it stands at the part concerned.", "quantifier": "every struct and enum description with arbitrary field decoders, every node of any size, every context; documents through parse", "why_tests_cant": "Struct shapes and nodes are unbounded, and a spurious extra error does not show in tests that look only for the expected ones.", "anchors": ["derive/src/node.rs: decode_specials, decode_args, decode_props, decode_children, insert_property, insert_child, unwrap_fn", "derive/src/variants.rs: decode", "src/decode.rs: check_flag_node", "src/wrappers.rs: parse_with_context"]}
{"id": "C60", "title": "Labels of decode errors point at parts of what was decoded", "statement": "Every label of every error that a scalar decoder, a derived decoder (struct, document, flattened struct, unwrapped child, enum) or Vec reports stands at the span of the decoded node or of one of its parts at any depth, provided the decoders of the fields do so. Consequently every label of every decode error that parse returns covers at least one character of the text and begins and ends at character boundaries, and with line spans has the lines and columns of these places.", "quantifier": "every predicate on spans, every struct and enum description, every node of any size and depth; every text, with both span types", "why_tests_cant": "Struct shapes and nodes are unbounded; a label outside the text makes the rendering of the diagnostics fail only for particular texts.", "anchors": ["src/errors.rs: labels of DecodeError", "src/decode.rs: check_flag_node", "src/containers.rs: Vec<T>", "derive/src/node.rs: decode_specials, decode_args, decode_props, decode_children, insert_property, insert_child, unwrap_fn", "derive/src/variants.rs: decode", "src/wrappers.rs: parse_with_context"]}
{"id": "C61", "title": "Which decoders a declaration gets", "statement": "A derived struct can be decoded as a document (DecodeChildren) exactly if each of its fields is made from child nodes or from nothing but the default, and can be flattened into another one (DecodePartial) exactly if each of its fields can start out empty and be filled in later. A newtype around an Option is None, with nothing decoded, for a node that has neither arguments nor properties nor a children block, and Some of what is decoded otherwise.", "quantifier": "every list of fields of any length with any attributes, every node, every context", "why_tests_cant": "The field lists are unbounded, and the decision is made in the macro from sums over all fields; tests cover a few shapes.", "anchors": ["derive/src/node.rs: emit_struct (:60-115), emit_new_type", "derive/src/definition.rs: Struct::new, StructBuilder::add_field"]}
{"id": "C62", "title": "Smart pointers are transparent for nodes, documents and flattened structs", "statement": "Decoding Box<T>, Arc<T> or Rc<T> from a node or from a list of nodes gives a pointer to what decoding T gives, with the same errors and the same effect on the context. Inserting any sequence of properties and children into a pointer of a flattened struct has exactly the answers, errors and results of inserting them into the T, without panicking, because the pointer stays the only one. The limit: a pointer Arc or Rc that was cloned in between cannot be inserted into and panics.", "quantifier": "every T with arbitrary decoders, every node, every sequence of insertions of any length, every context", "why_tests_cant": "The decoders of T and the sequences of insertions are unbounded; the panic needs a clone between two insertions.", "anchors": ["src/containers.rs: Decode, DecodeChildren, DecodePartial for Box<T>, Arc<T>, Rc<T>"]}
{"id": "C63", "title": "Messages of parse errors quote the text", "statement": "A message on an unexpected token begins by showing what is at its label: a character in backquotes, as it is if it is visible and as an escape that determines it otherwise, \"end of input\" at the end, a keyword, or \"number\" and \"keyword\" where there is one. A message on something unclosed quotes the opening token, which stands at its first label, and its second label quotes the token that closes it, with the same number of # for raw strings. A message on a number used as a property name or an identifier used as an argument stands at one and comes with the advice to enclose it in quotes, which no other message has; a message on an escape of no character has its label at the code.", "quantifier": "every text of any length, every error reported for it", "why_tests_cant": "The texts are unbounded, and the escapes depend on the character (more than a million).", "anchors": ["src/errors.rs: Display for TokenFormat, FormatUnexpected, ParseError", "src/grammar.rs: parse errors"]}
{"id": "C64", "title": "Texts put one after the other", "statement": "If a text a parses then a, two newlines (one if a contains no backslash) and any text w parse if and only if w parses, and the document is the nodes of a followed by the nodes of w with their spans moved. More exactly, after any complete legal nodes the rest of the text is parsed as if it were alone.", "quantifier": "every parsing text a without the overlapping characters /*/, every text w", "why_tests_cant": "Both texts are unbounded, and what a ends with (comments, line continuations, carriage returns, commented-out nodes) interacts with what follows.", "anchors": ["src/grammar.rs: nodes, node_terminator, line_space, document", "src/wrappers.rs: parse_ast"]}
{"id": "C65", "title": "Decoding does not look at spans", "statement": "Replacing every span in a document by another one (also of another type) before decoding gives the same as decoding and then replacing the spans in the value and in the errors. So two texts that parse to the same document up to spans (other white space, comments, newlines, commented-out elements) decode to the same value or fail with the same errors up to spans, parse with line spans and with byte spans gives the same up to taking byte offsets, and a byte order mark only moves the spans.", "quantifier": "every document, every replacement of spans, every context, every declaration of structs and enums whose field types decode without looking at spans, every type of the library", "why_tests_cant": "Documents, declarations and replacements are unbounded; the claim relates two runs.", "anchors": ["derive/src/node.rs", "derive/src/variants.rs", "derive/src/scalar.rs", "src/convert.rs", "src/convert_ast.rs", "src/containers.rs", "src/wrappers.rs: parse_with_context"]}
{"id": "C66", "title": "A span covers exactly the text of its part", "statement": "In every parsed document, at any depth: the characters that the span of a node covers, parsed by themselves, give this node and nothing else, with the same spans moved to the beginning; the span begins at the type annotation if there is one, otherwise at the name, and ends after the semicolon or newline that ends the node, or at the end of the text; what stands between the braces of a children block, parsed by itself, gives the child nodes; the spans of values, property names, node names and type annotations cover exactly how these are written.", "quantifier": "every parsed text (for nodes and blocks: without the overlapping characters /*/), every node at every depth, every part of it", "why_tests_cant": "Texts and depths are unbounded; spans are easily off by one where white space, comments, terminators or multi-byte characters meet.", "anchors": ["src/grammar.rs: map_with_span, spanned, node, nodes", "derive/derive_decode.md: Spans", "src/span.rs"]}
{"id": "C67", "title": "The regions underlined in a report are regions of the text", "statement": "For every label of every error of parse, whether of the parser or of the decoder, the offset and length handed to the reporter are those of some characters of the text (the subtraction of offsets never saturates, and neither end falls inside a character). With line spans and with byte spans the same regions are underlined with the same labels.", "quantifier": "every text, every decoder that points at what it decodes (C60), every error", "why_tests_cant": "Texts, decoders and errors are unbounded.", "anchors": ["src/span.rs: Into<ErrorSpan> for Span and LineSpan", "src/errors.rs: #[label]", "src/wrappers.rs: parse_with_context"]}
{"id": "C68", "title": "Editing a text in place", "statement": "In a text that parses, if the text of a node (at any depth, as given by its span) is replaced by any text that parses by itself, is not empty and does not begin with a line feed, followed by newlines, the new text parses and its document is the old one with the nodes of the inserted text in the place of that node and all else as it was; so nodes can be replaced, deleted and inserted without looking at the surroundings. If the text of an argument or of the value of a property is replaced by the text of another value, the new text parses and its document is the old one with this value replaced.", "quantifier": "every parsed text and every inserted text without the overlapping characters /*/, every node at every depth, every argument and property of it", "why_tests_cant": "Texts, depths and inserted texts are unbounded; what may stand next to what depends on terminators, comments, line continuations and CR LF at the seams.", "anchors": ["src/grammar.rs: nodes, node, node_terminator, prop_or_arg", "src/ast.rs: Node", "src/span.rs: Span"]}
{"id": "C69", "title": "The work of parsing is bounded", "statement": "Reading a text looks at the input at most a constant times the square of the length of the text, whether the text is accepted or not, and an accepted text is looked at at least once per character.", "quantifier": "every text", "why_tests_cant": "A bound on the work for all texts of all lengths, including ill-formed ones with any nesting; a test measures single inputs and cannot exclude inputs on which backtracking explodes.", "anchors": ["src/grammar.rs: document, nodes, ml_comment, ws, node_space, prop_or_arg", "src/wrappers.rs: parse_ast"]}
{"id": "C70", "title": "Errors after complete nodes", "statement": "If a text begins with complete nodes and a line feed, the errors reported for it are exactly the errors reported for what follows alone, moved by the number of bytes before it: correct text before an error neither hides, adds nor changes a diagnostic. In particular, after any text without /*/ that parses and an empty line (two of them if it contains a backslash).", "quantifier": "every sequence of complete legal nodes, every text after it", "why_tests_cant": "Prefixes and continuations are unbounded; the diagnostics are merged from all alternatives that the parser tried, also those tried inside the nodes before, so that any of these could leak into the report.", "anchors": ["src/grammar.rs: nodes, document", "src/errors.rs: merge", "src/wrappers.rs: parse_ast"]}
{"id": "C71", "title": "What is left open is reported as left open", "statement": "If a text ends inside a quoted string or a block comment that stands where a node or an entry is expected, at any depth, or inside a children block after complete nodes and a line feed, then it is rejected with exactly one diagnostic: it says that the string, the comment or the (innermost) braces are not closed, it points at the opening quote, at the `/*` or at the `{`, and it says that the closing token was expected at the end of the text. (Not so for the value of a property, for raw strings and for a comment with nothing after its `/*`: witnesses.)", "quantifier": "every legal beginning of a text, every contents of the string, comment or block", "why_tests_cant": "Beginnings, depths and contents are unbounded; the diagnostic is merged from those of all alternatives tried anywhere in the text, and any of them at the end of the text could replace or join it.", "anchors": ["src/grammar.rs: ml_comment, escaped_string, nodes (map_err_with_span)", "src/errors.rs: merge, is_eoi", "src/wrappers.rs: parse_ast"]}
{"id": "C72", "title": "A declared type reads exactly the nodes that are ways of writing its values", "statement": "For structs and enums declared with the derives, nested to any depth (arguments, `arguments`, properties, `properties`, `child`, optional and defaulted children, flags, `children(name=..)`, `children`, `unwrap`, unit, newtype, `Option` and tuple variants; integers, floats, booleans, texts, scalar enums, `str` and `bytes` fields; `node_name`, `type_name` and fields without attributes), there is a plain relation `node n is a way of writing value v`, read off the declaration without order, state or errors. The generated decoder returns v without complaint exactly if n is a way of writing v; for every other node it returns at least one error, and it never panics. A node is a way of writing at most one value. The same for `parse` of a text into a struct with children only and into a Vec. And the decoders are those that the macro makes of the declarations.", "quantifier": "every declaration (every nesting of types), every node, every text, every value", "why_tests_cant": "Declarations, nesting depth and nodes are unbounded; the decoder reads in a fixed order with mutable state and continues after some errors, so that any combination of surplus, missing, repeated or misspelt parts could be let through or refused.", "anchors": ["derive/src/node.rs", "derive/src/variants.rs", "derive/src/definition.rs: Struct::new, Enum::new, add_field", "src/convert.rs", "src/containers.rs: Vec, Option", "src/decode.rs: node", "src/wrappers.rs: parse"]}
{"id": "C73", "title": "What comes out of parse is exactly the values of the declared type", "statement": "For the declarations of C72, which values a type has can be said from the declaration alone: integers in the range of the field's type, floats with a decimal notation, one of the variants of a scalar enum, what `FromStr` makes of some text, bytes that are some text or some base64; the first arguments given and the others at their defaults, further arguments only if all are given; a properties map sorted by key, without the names of other property fields; lists of children whose names belong to no other field; `None` of an optional variant only in a node with nothing after its name. A value comes out of `parse` of some text, into a Vec or a struct with children, exactly if it is such a value. In particular for each such value there is a text that is read as it. And which value is read does not depend on spans.", "quantifier": "every declaration (every nesting of types), every value, every text", "why_tests_cant": "The values of a type and the texts are unbounded sets; that no text gives a value outside of the type, and that no value is out of reach of all texts, are both statements over all texts.", "anchors": ["derive/src/node.rs", "derive/src/variants.rs", "src/convert.rs", "src/containers.rs: Vec, Option", "src/grammar.rs: document", "src/wrappers.rs: parse"]}
{"id": "C74", "title": "Messages about values and names say in words what is there", "statement": "The message about a literal of the wrong kind says `expected K scalar, found K'` where K' is integer, decimal, string, boolean or null according to what the literal is, and its label, at the literal, says `unexpected K'`. The message about a type annotation lists the allowed types and ends with the annotation as written. Names of properties and nodes in messages are shown in backquotes by an escape from which the name can be recovered. A span is printed as `start..end` in decimal, from which it can be recovered. with_label changes nothing but the label.", "quantifier": "every value and every scalar decoder of C58, every name over Unicode, every span, every parse error", "why_tests_cant": "Names range over all Unicode strings and the claim that the shown form determines the name is about pairs of names; a swapped word or an ambiguous escape shows only for the particular kind or character.", "anchors": ["src/decode.rs:197-231", "src/errors.rs:37-149", "src/errors.rs:349-388", "src/errors.rs:528-540", "src/ast.rs:278-295", "src/span.rs:385-398"]}
{"id": "C75", "title": "The character complained about is where things went wrong", "statement": "If a text is rejected and the last diagnostic is about an unexpected character, then that character stands in the text at the place of the diagnostic, and every text that agrees with this one up to and including that character is rejected too: nothing that could follow the character would have made the text legal. So of the beginning of an accepted text, the last diagnostic is never about an unexpected character. This is for texts without `/*/` in which every `\\u` is followed by the code of a character in braces, raw strings (where a word may begin) are closed and no number with a sign (where a word may begin) stands before an equals sign; for overlapping comments, unclosed raw strings and signed numbers as property names it is false of the code.", "quantifier": "every rejected text of the kind described, every continuation", "why_tests_cant": "The claim is about all continuations of a text, an infinite set, and about all texts; a wrongly placed diagnostic shows only when somebody finds the continuation that is legal.", "anchors": ["src/grammar.rs", "src/errors.rs:349-388", "chumsky 0.9: Located::max, or, or_not, repeated, separated_by, take_until, recovery"]}
{"id": "C76", "title": "Messages about numbers and annotations say which type and which side", "statement": "A number above the range of the type of the field is reported, at the number, as `number too large to fit in target type`; one below the range of a type with negative numbers as `number too small to fit in target type`; any number with a minus sign for an unsigned type as `invalid digit found in string`; a decimal text that is not a float as `invalid float literal`. An annotation that does not fit is reported at the annotation: for number types the message is `T or no type for T, found A` where T is the type of the field and A the annotation as written (for bytes `base64 or no type for bytes, found A`), for texts, booleans and derived scalar enums `no type for T, found A`. In each case there is exactly one error. For `usize` and `isize` the annotation that the message calls allowed is itself reported.", "quantifier": "every number type, pointer size, radix, text of digits with or without sign, annotation and context", "why_tests_cant": "Each type has infinitely many numbers outside its range, in four radixes, and infinitely many annotations that do not fit; a test shows the words for a few of them and cannot show that an intermediate overflow is never reported as the wrong kind.", "anchors": ["src/convert.rs:28-64", "src/convert.rs:79-130", "src/convert.rs:144-260", "src/decode.rs:45-105", "src/errors.rs:44-60", "src/errors.rs:496-530", "derive/src/scalar.rs:125-137"]}
{"id": "C77", "title": "Lines before a text move its positions down and nothing else", "statement": "With line spans: if a text that parses is followed by two newlines (one if it contains no backslash, hence no line continuation, and does not end with a carriage return) and then any text w that parses, the document is the nodes of the first, at their places, and then the nodes of w with every position further down by the bytes and by the newlines before w, in the same column. If w is rejected, then after the first text and three newlines (two without a backslash) the diagnostics are those of w alone, again with every position, including the one at the end of input and those of opening tokens, further down by these bytes and newlines and in the same columns.", "quantifier": "every text that parses without the overlapping characters /*/, every text w, every width of characters", "why_tests_cant": "Both texts are arbitrary and of any length; a test compares the positions in a few files, while an error in the carried state of the line tracker or in the recomputation of the end of input shows only for particular combinations of newlines.", "anchors": ["src/span.rs:171-201", "src/span.rs:205-268", "src/traits.rs:130-138", "src/grammar.rs:575-595"]}
{"id": "C78", "title": "Children with different names may come in any order", "statement": "If no type in a declaration has a field for all other children, then the order among child nodes with different names does not matter, at any depth: two nodes that have the same name, annotation, arguments and properties, and for each name the same children with this name in the same order (up to such changes inside of them), are decoded to the same value or rejected both, wherever they stand. The same holds for the nodes of two texts given to parse; and two texts that parse and have no node name in common may be put one after the other in either order. With a field for all other children the order does matter.", "quantifier": "every declaration of the language of C72 in which every child has a field with its name, every two nodes (of any depth) or texts related in this way", "why_tests_cant": "The nodes can be rearranged in unboundedly many ways at every level; a test tries a few orders for one type, while state kept between the children (a duplicate check, a field set too early) shows only for particular orders and types.", "anchors": ["derive/src/node.rs:609-656", "derive/src/node.rs:752-952", "derive/src/variants.rs:58-159", "src/wrappers.rs:35-58"]}
{"id": "C79", "title": "Diagnostics come in the order of the text and do not overlap", "statement": "The diagnostics of a text that is rejected are listed in the order of the text: of any two of them the one listed first points at a part that ends before the part of the other begins, or where it begins. Of something unclosed the part is from where it was opened to where its end was expected; so nothing else is reported from inside of a string, comment or block that is reported as unclosed. With line spans the byte offsets are ordered in the same way.", "quantifier": "every text, every width of characters", "why_tests_cant": "Errors are recorded at three kinds of places, kept or dropped by the repetitions and alternatives around them, and merged by how far each attempt got; whether an error survives that points back before one already recorded depends on unboundedly many combinations of nesting, commented-out parts and unfinished tokens.", "anchors": ["src/grammar.rs:127-153", "src/grammar.rs:155-184", "src/grammar.rs:194-260", "src/grammar.rs:424-496", "src/grammar.rs:511-595", "src/errors.rs:359-378"]}
{"id": "C80", "title": "Each fault that can be skipped is reported once, and nothing else", "statement": "A text that follows the grammar except for bare identifiers where arguments should stand and wrong \\u escapes in quoted strings (of names, type annotations, properties and values, at any depth, also in parts that are commented out by a slash-dash) is rejected with exactly one diagnostic for each of these faults, in the order of the text: for an identifier the one that says identifiers cannot be arguments, at the identifier; for an escape with a number that is no character the one about the code, at the braces; for another escape one about the first character that cannot stand there. If there are no such faults, the text is accepted. With line spans the same holds with lines and columns.", "quantifier": "every text that is the text of a legal tree of Spec/Faults.lean, every width of characters", "why_tests_cant": "Going on after a fault must neither lose the fault, nor report it again in another alternative, nor cause errors later in the text; whether it does depends on the surrounding alternatives, repetitions and comments, which can be combined and nested without bound.", "anchors": ["src/grammar.rs:194-260", "src/grammar.rs:424-496", "src/grammar.rs:511-595"]}
{"id": "C81", "title": "A declared type with flattened parts reads what the type written out reads", "statement": "A struct with any number of fields marked flatten(property) or flatten(child), also flattened parts inside of flattened parts, accepts a node exactly if the node is a way of writing a value (in the sense of C72) of the struct in which the fields of the flattened parts stand in their places; and the value is that value with the fields of each part put together again. The same for whole documents: a text is accepted exactly if it is a document whose nodes are a way of writing a value of the type written out.", "quantifier": "every declaration of C72 whose fields have different names, every way of moving fields of it into flattened parts, every node, every text", "why_tests_cant": "Flattened fields are offered properties and children one after another through the partial-decoding trait; that no combination of parts, order of fields and content of the node makes a difference to the type written out is a statement about all declarations and all nodes.", "anchors": ["derive/src/node.rs: insert_child, insert_property, decode_children", "derive/src/node.rs", "derive/src/variants.rs", "derive/src/definition.rs: Struct::new, Enum::new, add_field", "src/convert.rs", "src/containers.rs: Vec, Option", "src/decode.rs: node", "src/wrappers.rs: parse"]}
{"id": "C82", "title": "Decoding does not panic, leaves the user's part of the context alone, and does not depend on what was reported before", "statement": "For the scalar types of the library, for nodes of the syntax tree, for lists of nodes, for scalars and nodes inside Option, Box, Rc, Arc and Spanned, and for whatever the derives make of a struct or an enum whose field types are so: decoding ends with a value or an error and does not panic; what the user has set in the context is the same afterwards; the errors recorded before are kept in front, and neither the result nor the new errors depend on them. Hence parse and parse_with_context with such a type always give a value or errors, whatever the text; and each of a list of nodes is decoded as if it were the only one: the list is accepted exactly if each node by itself is, and otherwise the errors are those of each node decoded alone, one after the other. The two ways to panic that the code has are shown: a Value inside Option, a pointer or Spanned, and a flattened field in an Rc or Arc that is shared.", "quantifier": "every context, every value, every node, every text, every item whose field types have this property (to any depth of nesting)", "why_tests_cant": "That no input makes generated code panic, and that no combination of earlier errors and extensions changes what a decoder does, quantifies over all declarations, all inputs and all contexts; tests use a fresh context and a few declarations.", "anchors": ["src/decode.rs: Context", "src/traits.rs", "src/convert.rs", "src/convert_ast.rs:54-75", "src/containers.rs", "derive/src/node.rs", "derive/src/variants.rs", "derive/src/scalar.rs", "derive/src/definition.rs", "src/wrappers.rs: parse, parse_with_context"]}
{"id": "C83", "title": "Types that refer to themselves and to each other: one implementation, which ends and reads what the unfoldings read", "statement": "The derived decoders of types that refer to themselves and to each other (in a Box, Vec or Option) are functions that call each other. If no type hands on the whole node to itself, be it through other types (the types are otherwise used for children only), exactly one function for each type satisfies the equations that the generated code is. On a node with fewer than k levels of nodes below it, these functions do what the types unfolded k times do (times the number of types that one node may be handed through), error for error, so they end. They give a value for a node exactly if the node is a way of writing that value for one of the finite unfoldings of the type, answer all other nodes with at least one error, and do not panic; the same for documents that are lists of such nodes or structs with fields of such types. Without the condition this fails: for enum Me { A(Box<Me>) } no function that satisfies the equation gives a value for a node a, and several functions satisfy it (the code does not end).", "quantifier": "every family of declarations of the kinds of C72 with names of types of the family in any number of places, every node of any depth, every text", "why_tests_cant": "Recursion is over trees of unbounded depth and over all declarations; a test decodes one type on one tree of a fixed depth. That there is no other function with the same equation is not observable at all.", "anchors": ["derive/src/node.rs:137-153", "derive/src/variants.rs:41-158", "derive/src/definition.rs:277-345, 372-605", "src/containers.rs:10-18 (Box)"]}
{"id": "C84", "title": "The recursion of the parser is exactly as deep as the braces are nested", "statement": "The parsers of nodes and of block comments call themselves. On a legal text with d blocks inside one another (commented-out ones included) exactly d + 1 calls of the parser of nodes are inside one another: with room for d + 1 calls the result is that of parse_ast, with room for d calls it is exceeded. On any text, legal or not, more calls inside one another than one more than the number of { do not occur, so a limit of that size never changes a result or an error. Any limit either is exceeded or makes no difference. No limit suffices for all texts: for every k there is a legal text of 4 k characters that needs more than k calls. At a legal block comment with d comments inside one another in it, exactly d + 2 calls of the parser of block comments are inside one another; at any place at most one more than there are /* in the rest of the text.", "quantifier": "every text, every legal concrete syntax tree, every limit k, every block comment and whatever follows it", "why_tests_cant": "Depth of recursion is not bounded: a test runs one depth on one machine and sees at most a stack overflow. That a limit never changes the result of a text that does not exceed it is a statement about all texts, also about those with errors, where the parser goes back and tries again.", "anchors": ["src/grammar.rs:127-153 (ml_comment)", "src/grammar.rs:511-589 (nodes)", "src/wrappers.rs:13-24"]}
{"id": "C85", "title": "Texts that say the same, and entries in another order", "statement": "Two legal texts are parsed to the same document up to spans exactly if they say the same: node by node (leaving out what is commented out) the same type annotation, the same name, the same arguments in the same order, the same last value for each property, both with or both without braces, and in them nodes that say the same. In particular the entries of nodes, at any depth, may be brought into another order as long as the arguments keep theirs and so do the properties of one name: the text is still accepted, gives the same document up to spans, and is decoded to the same value or the same errors. Two neighbouring entries may be exchanged unless both are arguments or both are properties of the same name.", "quantifier": "every two accepted texts; every rearrangement of the entries at any depth", "why_tests_cant": "Tests compare a few pairs of texts; that nothing but the listed differences can make two documents differ, and that all of them do, is a claim about all pairs of texts.", "anchors": ["src/grammar.rs:424-506", "src/grammar.rs:511-589", "src/ast.rs:30-57", "src/span.rs:355-373"]}
{"id": "C86", "title": "A text can be read in one way only", "statement": "The grammar of grammar.rs is unambiguous: a text has at most one concrete syntax tree, a tree that says for every character which white space, comment, newline, escape, digit or bracket it is and where each name, value, entry and node begins and ends. A text in which '/*/' does not occur is accepted exactly if it has such a tree, it has one only, and the document is what that tree means. Where a legal node at the beginning of a text ends is settled as well, whatever follows; likewise for an entry and for a block comment. (If '/*/' is admitted as the end of a comment there are texts with two trees of different meaning.)", "quantifier": "every two concrete trees, every text, every continuation of a node, entry or comment", "why_tests_cant": "An ambiguity shows only in the texts that have two readings; no set of tests can show that there is no such text.", "anchors": ["src/grammar.rs:42-153", "src/grammar.rs:155-260", "src/grammar.rs:262-381", "src/grammar.rs:383-422", "src/grammar.rs:424-509", "src/grammar.rs:511-589"]}
{"id": "C87", "title": "A document is not larger than its text", "statement": "What parse_ast builds is never larger than what it was given (no text blows up): add up the UTF-8 bytes of all node names, property names, type names, strings and digits of a document, at any depth, and the least that must be written around them (quotes of strings, parentheses of annotations, the mark of the radix, a space before each entry, '=', braces, an end for each node): the sum is at most the bytes of the text plus one (the last node needs no end). So twice the number of nodes plus the number of arguments and properties is at most the bytes of the text plus one, and no string is longer than the text.", "quantifier": "every accepted text, with both span types", "why_tests_cant": "An amplifying input is by nature one that nobody thought of; a bound on the size of the result for every input can only be proved.", "anchors": ["src/grammar.rs:155-260", "src/grammar.rs:333-369", "src/grammar.rs:424-509", "src/grammar.rs:511-589", "src/ast.rs:30-57"]}
{"id": "C88", "title": "No place is reported twice", "statement": "Of the diagnostics of a text that is rejected, each begins later in the text than those listed before it, so no two are about the same place, and every one but the last points at one character at least. Hence a text gives at most as many diagnostics as it has bytes, and one more; recovering from errors cannot produce an endless or repeated report. With line spans likewise.", "quantifier": "every text, every width of characters", "why_tests_cant": "A repeated report needs a recovery that makes no progress or an error that is recorded by one attempt and again by another; that no text leads to one is a claim about all ways the alternatives and repetitions can fail.", "anchors": ["src/grammar.rs:194-260", "src/grammar.rs:424-496", "src/grammar.rs:511-595", "src/errors.rs:359-378"]}
{"id": "C89", "title": "Without the feature base64 only annotated values are lost", "statement": "In a build without the feature `base64`, decode::bytes gives bytes without an error exactly for a string without annotation, and they are its UTF-8 bytes. A value annotated `(base64)`, whatever it is, records exactly one error, at the value, saying that base64 support is not compiled in, and never yields bytes. For every other value the result and the errors are those of a build with the feature; so what is accepted without it is accepted with it, with the same bytes.", "quantifier": "every value, every context, every base64 engine", "why_tests_cant": "The two builds are never in one test run, so no test of the repository can compare them; and the claim is about all values.", "anchors": ["src/decode.rs:49-100", "src/decode.rs:73-78", "src/errors.rs:428-435"]}
