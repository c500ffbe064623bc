{"id": "C01", "title": "Static text is encoded safely", "statement": "Text passed as a static string (as content or as an attribute value) is stored in encoded form: the stored text contains none of the characters < > \" and every & in it is the start of one of the four entities &amp; &lt; &gt; &quot;. The same holds of a Text converted into encoded text.", "quantifier": "for every string passed to Data::from_unencoded_static_str / Value::from_unencoded_static_str / IntoStream or IntoValue of a &'static str, and every Text converted by EncodedText: From<Text>", "why_tests_cant": "The set of strings is infinite; tests only sample a few with one or two special characters.", "anchors": ["src/text/encoded.rs: encode_str_optional, encode_char, EncodedText::from_unencoded_static_str", "src/text/data.rs: Data::from_unencoded_static_str", "src/text/value.rs: Value::from_unencoded_static_str", "src/text/encoded.rs: impl From<text::Text> for EncodedText"]}
{"id": "C02", "title": "Encoding loses nothing", "statement": "Replacing the four entities by their characters in the encoded form of a static string gives back exactly the original string, so two different strings never render the same. The same holds of the conversion of a Text into encoded text.", "quantifier": "for every string, and every Text however it is stored", "why_tests_cant": "Injectivity is a statement about all pairs of strings.", "anchors": ["src/text/encoded.rs: encode_str_optional, encode_char", "src/text/encoded.rs: impl From<text::Text> for EncodedText"]}
{"id": "C03", "title": "Dynamic text is encoded", "statement": "Data::from_unencoded_str and Value::from_unencoded_str, documented as 'Construct by encoding the provided value', give the same encoded text as the static-string constructors, so markup in a runtime string can not become markup of the page.", "quantifier": "for every runtime string", "why_tests_cant": "Whether any string gets through unescaped is a for-all question; the existing tests use only strings without special characters.", "anchors": ["src/text/encoded.rs: EncodedText::from_unencoded_str", "src/text/data.rs: Data::from_unencoded_str", "src/text/value.rs: Value::from_unencoded_str"]}
{"id": "C04", "title": "Identifier validation is exact", "statement": "A string is accepted as an identifier exactly when it is non-empty, pure ASCII, has no whitespace and none of = \" / > < & , ; . When it is rejected the error is the first applicable of: Empty, NotAscii, Whitespace with the first whitespace character, Forbidden with the first forbidden character.", "quantifier": "for every string passed to Identifier::from_static_str or Identifier::from_str", "why_tests_cant": "Both directions quantify over all strings, including all Unicode whitespace.", "anchors": ["src/text/identifier.rs: validate, Identifier::from_static_str, FromStr for Identifier"]}
{"id": "C05", "title": "Identifier comparison is ASCII case-insensitive equality", "statement": "On identifiers the comparison used for tags, attribute names and classes is an equivalence relation, and two identifiers are equal exactly when they agree after lowering A-Z letter by letter. On arbitrary strings it is symmetric and transitive, and reflexive exactly on ASCII strings.", "quantifier": "for all identifiers, all pairs and triples of strings", "why_tests_cant": "Reflexivity, symmetry and transitivity over all strings.", "anchors": ["src/text/identifier.rs: identifier_eq, PartialEq for Identifier"]}
{"id": "C06", "title": "Numbers render as plain decimal numerals", "statement": "Integers used as content or attribute value render as a plain decimal numeral: digits without leading zeros, with a minus sign exactly for negative numbers. It reads back as the same integer and contains no character with a markup meaning.", "quantifier": "for every integer of every supported width", "why_tests_cant": "2^64 values per type.", "anchors": ["src/content.rs: impl_octal", "src/text/value.rs: impl_value_octal"]}
{"id": "C07", "title": "Equality of texts is equality of what they render", "statement": "Two Data (or Value) objects compare equal exactly when they render the same text.", "quantifier": "for all pairs of Data/Value objects however constructed", "why_tests_cant": "Quantifies over all pairs of construction paths.", "anchors": ["src/text/deferred.rs: Deferred derive(PartialEq)", "src/text/encoded.rs: EncodedText derive(PartialEq)"]}
{"id": "C08", "title": "set_attribute makes the value unique and keeps the rest", "statement": "After setting an attribute the element has exactly one attribute with that name (compared case-insensitively), it is last, it has exactly the given value, and all other attributes are as before in the same order. Setting twice keeps only the second.", "quantifier": "for every attribute list (duplicates included), every name and value", "why_tests_cant": "Attribute lists are unbounded and may contain duplicates differing in case.", "anchors": ["src/event.rs: Attributes::set_attribute", "src/transform.rs: set_attribute, set_attribute_with_value, set_empty_attribute"]}
{"id": "C09", "title": "remove_attribute removes all and only that name", "statement": "After removing an attribute no attribute with that name in any letter case is left, all other attributes are as before in the same order, and removing twice is the same as removing once.", "quantifier": "for every attribute list and name", "why_tests_cant": "Unbounded lists with duplicates.", "anchors": ["src/event.rs: Attributes::remove_attribute"]}
{"id": "C10", "title": "replace-if-exists acts only on existing attributes", "statement": "The replace-if-exists call leaves the attributes exactly as they are when the name is absent and otherwise acts like set_attribute.", "quantifier": "for every attribute list, name and value", "why_tests_cant": "The presence test is done by comparing list lengths; correctness for all lists needs proof.", "anchors": ["src/event.rs: Attributes::replace_attribute"]}
{"id": "C11", "title": "add_attribute appends and add_to_attribute extends the first occurrence", "statement": "add_attribute appends one attribute and changes nothing else. add_to_attribute rewrites only the first attribute of that name to old value, separator, new value (or just the new value if it had none), leaves every other attribute untouched, and appends a new attribute when the name is absent.", "quantifier": "for every attribute list, name, value and separator", "why_tests_cant": "Positions, duplicates and empty values combine without bound.", "anchors": ["src/event.rs: Attributes::add_attribute, Attributes::add_to_attribute", "src/text/encoded.rs: EncodedText::join"]}
{"id": "C12", "title": "add_class makes the class present and keeps existing classes", "statement": "After add_class(c) the element has class c as seen by class selectors, and an element has any other class afterwards exactly when it had it before. Exactly: the class is put at the end of the first class attribute, after one space (or is its value, if it has none); without class attributes a new one at the end holds it; nothing else changes.", "quantifier": "for every attribute list and every valid class name", "why_tests_cant": "Depends on whitespace splitting of arbitrary existing values.", "anchors": ["src/transform.rs: add_class", "src/modifier/attribute.rs: AddToAttribute", "src/event.rs: Attributes::add_to_attribute, Attributes::has_class"]}
{"id": "C13", "title": "remove_class makes the class absent and keeps the others", "statement": "After remove_class(c) the element has no class c in any letter case, has any other class exactly when it had it before, no attribute other than class attributes changes, and if c was absent nothing changes at all. Exactly: attributes keep their order; a class attribute that carried c keeps its name and its other classes, in order, separated by single spaces; it goes if no class is left.", "quantifier": "for every attribute list (several class attributes included) and every class name", "why_tests_cant": "Value strings are arbitrary, including all Unicode whitespace as separators.", "anchors": ["src/event.rs: Attributes::remove_class, Attribute::remove_class, Attribute::has_class"]}
{"id": "C14", "title": "set_id and remove_id agree with id selection", "statement": "After set_id(x) the element is matched by the id selector x and by no id selector that differs from x ignoring case; after remove_id it is matched by no id selector. Exactly: set_id removes the id attributes and puts one with the new id at the end; remove_id removes them; nothing else changes.", "quantifier": "for every attribute list and every identifier", "why_tests_cant": "For-all over lists with several id attributes in any case.", "anchors": ["src/transform.rs: set_id, remove_id", "src/event.rs: Attributes::has_id", "src/select.rs: Id"]}
{"id": "C15", "title": "Parsing never panics and always terminates", "statement": "Template::from_str returns either a template or an error for every input text: no string slice is ever taken off a character boundary or out of range, no internal expectation fails, and no loop runs forever.", "quantifier": "for every string (any Unicode) and all parse options", "why_tests_cant": "Panics hide in inputs nobody thought of; fuzzing can only sample.", "anchors": ["src/input.rs: Input (all methods)", "src/parse.rs: Iter::next, parse and helpers", "src/template.rs: Template::from_str"]}
{"id": "C16", "title": "Accepted templates are well nested", "statement": "Every template accepted by Template::from_str is well nested: each closing tag matches the latest unclosed opening tag (ignoring case), and no opening tag is left unclosed.", "quantifier": "for every string and all parse options", "why_tests_cant": "All inputs of all depths.", "anchors": ["src/parse.rs: Iter::next", "src/template.rs: Template::from_str"]}
{"id": "C17", "title": "The nesting limit is exact", "statement": "With a nesting limit d, an accepted template never nests deeper than d, and the limit changes nothing else: if the same text without the limit is accepted and nests at most d deep then it is accepted with the limit with the same result. A StackLimitExceeded error carries the configured limit and occurs only when an opening tag would be nested deeper than d.", "quantifier": "for every string and every limit", "why_tests_cant": "Both directions over all documents.", "anchors": ["src/parse.rs: Iter::next, Options::max_stack_depth"]}
{"id": "C18", "title": "The input length limit is exact", "statement": "With an input length limit n, Template::from_str reports LengthLimitExceeded exactly when the text has more than n bytes in UTF-8, and otherwise behaves as without the limit.", "quantifier": "for every string and every limit", "why_tests_cant": "For all strings including multi-byte text.", "anchors": ["src/template.rs: Template::from_str", "src/parse.rs: Options::max_input_len"]}
{"id": "C19", "title": "Rendering a canonical event list and parsing it gives it back", "statement": "For event lists as the parser could produce them (well nested, parser-producible names, no two adjacent data events, raw text only inside raw-text elements, attribute values without leading whitespace and quotes) and without start tags that read as a comment or doctype when written without inner white space, parsing the rendered text succeeds and yields exactly that event list.", "quantifier": "for every canonical event list", "why_tests_cant": "Infinite family of documents; interaction of raw text, comments, data boundaries.", "anchors": ["src/event.rs: Display for Event, TagDisplay, Attributes, Attribute", "src/parse.rs: all", "src/template.rs: Display for Template"]}
{"id": "C20", "title": "Parse, render, parse is stable", "statement": "If a text is accepted, then rendering the template and parsing the result is accepted too and gives the same template.", "quantifier": "for every string accepted by Template::from_str", "why_tests_cant": "For-all over accepted texts; counterexamples are exotic.", "anchors": ["src/parse.rs: try_parse_comment, try_parse_doctype, try_parse_tag_open", "src/event.rs: Display for Event"]}
{"id": "C21", "title": "Parse error locations are true positions", "statement": "Every location in a parse error is the position of some prefix of the input: its byte offset is the UTF-8 length of that prefix, its line is 1 plus the number of newlines in it and its column is 1 plus the number of characters after the last newline in it.", "quantifier": "for every rejected string and every location in its error", "why_tests_cant": "Location arithmetic is composed from arbitrarily many steps over arbitrary text.", "anchors": ["src/location.rs: Location::with_consumed", "src/input.rs: Input::advanced", "src/parse.rs: Error"]}
{"id": "C22", "title": "Errors are reported at the tag they are about", "statement": "For unexpected, mismatched and missing closing tags and for exceeded nesting, the text at the reported byte offset really starts with a '<' that begins the named tag.", "quantifier": "for every rejected string with one of these errors", "why_tests_cant": "All inputs.", "anchors": ["src/parse.rs: Iter::next"]}
{"id": "C23", "title": "The mismatch message names the right tags", "statement": "The message for a mismatched closing tag, 'Closing tag X at P does not match opening tag Y at Q', has X, P the name and position of the closing tag and Y, Q those of the opening tag.", "quantifier": "for every MismatchedClosingTag error", "why_tests_cant": "For every pair of tags and positions.", "anchors": ["src/parse.rs: Display for Error"]}
{"id": "C24", "title": "Raw text elements are taken verbatim", "statement": "Directly after an opening script, style, title or textarea tag (any letter case) an accepted template has exactly one raw text event followed by the closing tag, and no raw text event occurs anywhere else. The raw text is a verbatim piece of the input.", "quantifier": "for every accepted string", "why_tests_cant": "Contents of raw elements are arbitrary.", "anchors": ["src/parse.rs: mode_for_tag, parse_raw_data", "src/input.rs: take_until_end_char"]}
{"id": "C25", "title": "Void elements never have content or closing tags", "statement": "In an accepted template the tags area, base, br, col, embed, hr, img, input, keygen, link, menuitem, meta, param, source, track, wbr occur only as void tags, void tags have only these names, and no closing tag has one of these names.", "quantifier": "for every accepted string", "why_tests_cant": "All inputs and letter cases.", "anchors": ["src/parse.rs: is_void_tag, try_parse_tag_open"]}
{"id": "C26", "title": "Parsing covers the whole input", "statement": "The input is the concatenation of consecutive pieces, one per event, in order; data, raw text and comment events carry their piece verbatim (comments without the <!-- and --> marks). No part of the input is skipped or used twice.", "quantifier": "for every accepted string", "why_tests_cant": "All inputs.", "anchors": ["src/parse.rs: Iter::next, parse", "src/input.rs"]}
{"id": "C27", "title": "Only the html doctype is accepted", "statement": "Every doctype event of an accepted template has content equal to html ignoring case; a text starting with a doctype directive naming anything else is rejected as UnsupportedDoctype.", "quantifier": "for every string", "why_tests_cant": "All inputs.", "anchors": ["src/parse.rs: try_parse_doctype"]}
{"id": "C28", "title": "Attribute values are kept verbatim", "statement": "The value of a parsed attribute is exactly the text between its double quotes.", "quantifier": "for every attribute of every accepted string", "why_tests_cant": "All attribute values; the loss only shows for particular values.", "anchors": ["src/parse.rs: try_parse_attribute"]}
{"id": "C29", "title": "Unclosed elements are all reported", "statement": "When the input ends with unclosed elements the MissingClosingTags error names the innermost unclosed element as inner and all others from the outermost inwards, each with its position.", "quantifier": "for every string ending with unclosed elements", "why_tests_cant": "Unbounded nesting.", "anchors": ["src/parse.rs: Iter::next"]}
{"id": "C30", "title": "Only documented parse failures occur", "statement": "UnexpectedInput is never reported: every position of an input can be attributed to a more specific construct or error.", "quantifier": "for every string", "why_tests_cant": "Unreachability over all inputs.", "anchors": ["src/parse.rs: parse_data_mode"]}
{"id": "C31", "title": "Loading from a file equals loading from its text", "statement": "Template::from_file on a file whose bytes are the UTF-8 encoding of a text gives the same template or error as Template::from_str on the text, however the reads are split into chunks.", "quantifier": "for every text, options and sequence of read sizes", "why_tests_cant": "Chunk boundaries times texts; the failing alignment needs a file larger than the read buffer.", "anchors": ["src/template.rs: Template::from_file"]}
{"id": "C32", "title": "Loading from a file never accepts damaged text", "statement": "If Template::from_file succeeds, the bytes of the file are the valid UTF-8 encoding of a text for which Template::from_str gives the same template, and they obey the length limit.", "quantifier": "for every byte sequence, options and sequence of read sizes", "why_tests_cant": "All byte sequences and chunkings.", "anchors": ["src/template.rs: Template::from_file"]}
{"id": "C33", "title": "Static selectors mean what they say", "statement": "A selector text made of an optional tag, an optional #id and any number of .class parts matches an element exactly when the element has that tag, that id and all those classes, each compared ignoring case; the empty selector text is rejected.", "quantifier": "for all valid identifiers without # and . as parts, and all elements", "why_tests_cant": "Product of selector texts and elements.", "anchors": ["src/select.rs: IntoSelector for &'static str, Static"]}
{"id": "C34", "title": "Selector texts are accepted exactly when well formed", "statement": "A static selector text is rejected exactly when its tag part, its id part or one of its class parts is not a valid identifier, and the error names the first bad part in the order tag, id, class by class with its index. Texts with parts out of order such as .a#b are rejected.", "quantifier": "for every selector text", "why_tests_cant": "All strings.", "anchors": ["src/select.rs: IntoSelector for &'static str, StaticError"]}
{"id": "C35", "title": "Selectors only ever match element starts", "statement": "The provided selectors (tag, id, class, classes, static) never match an event that does not start an element.", "quantifier": "for every provided selector and every event", "why_tests_cant": "All selector values times all events.", "anchors": ["src/select.rs: Selector impls"]}
{"id": "C36", "title": "A class list selector is the conjunction of its classes", "statement": "The Classes selector matches exactly the elements with every listed class, independent of order and repetition of the list; construction fails on the first invalid name with its index and on the empty list.", "quantifier": "for every list of class names and every element", "why_tests_cant": "Unbounded lists.", "anchors": ["src/select.rs: Classes"]}
{"id": "C37", "title": "Streaming transforms compute the tree transform", "statement": "For a well nested template, the result of any composition of Api calls equals the result of the obvious tree-rewriting meaning of these calls (elements replaced, wrapped, repeated or edited in place), although the implementation pulls events lazily through shared streams.", "quantifier": "for every well nested template and every transform expression built from the Api methods with well nested contents, at any nesting depth of builders", "why_tests_cant": "Infinite expressions times infinite templates; laziness and shared mutable streams make small tests unrepresentative.", "anchors": ["src/transform.rs: Api", "src/modifier/mod.rs", "src/modifier/select/mod.rs", "src/modifier/select/select_contents.rs", "src/modifier/select/element.rs", "src/modifier/prepend.rs", "src/modifier/append.rs", "src/modifier/remove.rs", "src/modifier/replace.rs", "src/modifier/repeat.rs", "src/modifier/apply.rs", "src/modifier/attribute.rs", "src/template.rs: Template::transform"]}
{"id": "C38", "title": "Transforms preserve well-nestedness", "statement": "If the template and every inserted content are well nested then a successful transform result is well nested.", "quantifier": "for every template and transform expression", "why_tests_cant": "All compositions.", "anchors": ["src/transform.rs: Api", "src/modifier/mod.rs", "src/modifier/select/mod.rs", "src/modifier/select/select_contents.rs", "src/modifier/select/element.rs", "src/modifier/prepend.rs", "src/modifier/append.rs", "src/modifier/remove.rs", "src/modifier/replace.rs", "src/modifier/repeat.rs", "src/modifier/apply.rs", "src/modifier/attribute.rs"]}
{"id": "C39", "title": "No internal assertion error on well nested input", "statement": "With well nested template and contents and selectors that only match element starts, a transform never reports an assertion (malformed stream) error.", "quantifier": "for every template and transform expression", "why_tests_cant": "Unreachability over all compositions.", "anchors": ["src/event.rs: AssertionError, MalformedReason", "src/modifier/mod.rs", "src/modifier/select/mod.rs", "src/modifier/select/select_contents.rs", "src/modifier/select/element.rs", "src/modifier/prepend.rs", "src/modifier/append.rs", "src/modifier/remove.rs", "src/modifier/replace.rs", "src/modifier/repeat.rs", "src/modifier/apply.rs", "src/modifier/attribute.rs"]}
{"id": "C40", "title": "Transforms always terminate", "statement": "Every transform of every template ends after finitely many steps with a template or an error, even if inserted streams or custom selectors are malformed.", "quantifier": "for every finite template, every transform expression with finite iterators, arbitrary finite content streams, arbitrary selectors", "why_tests_cant": "Termination over all inputs can not be tested.", "anchors": ["src/modifier/mod.rs", "src/modifier/select/mod.rs", "src/modifier/select/select_contents.rs", "src/modifier/select/element.rs", "src/modifier/prepend.rs", "src/modifier/append.rs", "src/modifier/remove.rs", "src/modifier/replace.rs", "src/modifier/repeat.rs", "src/modifier/apply.rs", "src/modifier/attribute.rs", "src/template.rs: Template::from_stream"]}
{"id": "C41", "title": "The empty transform is the identity", "statement": "A transform with no calls gives back the template unchanged; so does any selection whose builder makes no calls, and any selection whose selector matches nothing in the template.", "quantifier": "for every well nested template and every selector", "why_tests_cant": "All templates.", "anchors": ["src/template.rs: Template::transform", "src/modifier/select/mod.rs: Select, SelectOnce"]}
{"id": "C42", "title": "select rewrites exactly the outermost matches", "statement": "select applies its builder to every matching element that is not inside another matching element, exactly once each and in document order; everything outside these elements is unchanged, and the builder's output is not searched again.", "quantifier": "for every template, selector and builder", "why_tests_cant": "All nestings of matches.", "anchors": ["src/modifier/select/mod.rs: Select", "src/modifier/select/element.rs: SingleElement"]}
{"id": "C43", "title": "select_direct only looks at the top level", "statement": "select_direct applies its builder exactly to the matching elements at the top level of its stream; elements below are never touched.", "quantifier": "for every template, selector and builder", "why_tests_cant": "All nestings.", "anchors": ["src/modifier/select/select_direct.rs", "src/modifier/mod.rs: Level"]}
{"id": "C44", "title": "select_once rewrites only the first match", "statement": "select_once applies its builder to the first matching element in document order and to nothing else; everything before and after is unchanged.", "quantifier": "for every template, selector and builder", "why_tests_cant": "All nestings.", "anchors": ["src/modifier/select/mod.rs: SelectOnce"]}
{"id": "C45", "title": "subselect never touches the element itself", "statement": "The subselect calls search only the contents of the element: the element's own tag and attributes stay as they are even if it matches the selector.", "quantifier": "for every element, selector and builder", "why_tests_cant": "All elements and selectors.", "anchors": ["src/modifier/select/subselect_any.rs", "src/modifier/select/subselect_direct.rs"]}
{"id": "C46", "title": "Prepend, append, replace and remove are exact", "statement": "On any event sequence, prepend gives content then stream, append gives stream then content, replace gives exactly the content and remove gives nothing.", "quantifier": "for every template (well nested or not) and every content", "why_tests_cant": "All sequences.", "anchors": ["src/modifier/prepend.rs", "src/modifier/append.rs", "src/modifier/replace.rs", "src/modifier/remove.rs"]}
{"id": "C47", "title": "Content calls act inside the element only", "statement": "prepend_contents, append_contents, replace_contents and remove_contents keep the element's opening tag with its attributes and its closing tag and change only what is between them; a self-closed element becomes an open and close pair around the new content; a void element is left unchanged.", "quantifier": "for every element and content", "why_tests_cant": "All elements.", "anchors": ["src/modifier/select/select_contents.rs", "src/modifier/prepend.rs", "src/modifier/append.rs", "src/modifier/remove.rs", "src/modifier/replace.rs", "src/modifier/repeat.rs"]}
{"id": "C48", "title": "repeat gives one transformed copy per item in order", "statement": "repeat yields, for each item in order, the builder's transform of a complete copy of the stream; no items give nothing. repeat_contents does this to the contents while keeping the enclosing tags once.", "quantifier": "for every stream, every finite item list, every builder", "why_tests_cant": "All lengths.", "anchors": ["src/modifier/repeat.rs"]}
{"id": "C49", "title": "repeat_or_else falls back exactly on empty input", "statement": "The or_else forms run the fallback builder on the stream exactly when there are no items and otherwise behave as repeat.", "quantifier": "for every stream, item list and builders", "why_tests_cant": "All combinations.", "anchors": ["src/modifier/repeat.rs: RepeatOrElse, RepeatContentOrElse"]}
{"id": "C50", "title": "Attribute calls touch only the start tag", "statement": "Attribute and class calls change only the attributes of the element's own start tag; its name, kind, contents and closing tag stay as they are.", "quantifier": "for every element and attribute call", "why_tests_cant": "All elements.", "anchors": ["src/modifier/attribute.rs: attribute_step"]}
{"id": "C51", "title": "The first error in document order is reported", "statement": "A transform with failing parts (invalid selector, invalid identifier, failed inserted content) reports an error exactly when a failing part is reached, and it reports the one that comes first in document order of the output.", "quantifier": "for every template and transform expression", "why_tests_cant": "Laziness decides which error surfaces first; all compositions.", "anchors": ["src/modifier/mod.rs: State::step, Fallible", "src/content.rs: IntoStream for Result"]}
{"id": "C52", "title": "Conditional application picks the right builder", "statement": "apply_if, apply_if_else, apply_with_option and apply_with_result run exactly the builder chosen by the condition (with its value) and leave the stream unchanged when no builder applies.", "quantifier": "for every stream, condition and builders", "why_tests_cant": "All combinations.", "anchors": ["src/transform.rs: apply_if, apply_if_else, apply_with_option, apply_with_result", "src/modifier/apply.rs: ApplyEither"]}
{"id": "C53", "title": "apply_as_template sees the exact sub-template", "statement": "apply_as_template calls its function exactly once with exactly the events of the stream as a template, and the result is exactly the template it returns; it is not called when the stream fails.", "quantifier": "for every stream and every function", "why_tests_cant": "All streams.", "anchors": ["src/modifier/apply.rs: TemplateApply"]}
{"id": "C54", "title": "Results contain no internal placeholder events", "statement": "Templates, whether parsed or produced by transforms, never contain the internal no-operation event.", "quantifier": "for every string and every transform expression", "why_tests_cant": "All compositions.", "anchors": ["src/event.rs: next_event_skip_noop", "src/template.rs: Template::from_stream"]}
{"id": "C55", "title": "with_element builds one empty element", "statement": "Template::with_element gives a void tag for void names and a self-closed tag otherwise; with_transformed_element applies its transform to exactly that element.", "quantifier": "for every identifier and transform", "why_tests_cant": "All identifiers.", "anchors": ["src/template.rs: with_element, with_transformed_element"]}
{"id": "C56", "title": "Inserted static text stays text after re-parsing", "statement": "Inserting a static string as the contents of an element of a parsed template and parsing the rendered page again gives a page with the same elements where that text is data, never new tags, comments or raw text.", "quantifier": "for every parsed template and every non-empty static string", "why_tests_cant": "All strings and templates.", "anchors": ["src/content.rs: IntoStream for &'static str", "src/event.rs: Display", "src/parse.rs"]}
{"id": "C57", "title": "Tag, id and class selectors mean what they say", "statement": "Tag::from_str, Id::from_str and Class::from_str accept exactly the valid identifiers, report the identifier error otherwise, and the selector matches exactly the element starts with that tag name, an id attribute of that value or that class, ignoring case.", "quantifier": "for every string and every event", "why_tests_cant": "Tests sample a few names and elements; matching depends on all attribute lists and letter cases.", "anchors": ["src/select.rs:160-180", "src/select.rs:278-298", "src/select.rs:385-405"]}
{"id": "C58", "title": "Accepted texts are exactly the well nested documents of the grammar", "statement": "Template::from_str accepts a text if and only if the text obeys the length limit and can be written as a sequence of pieces (text, comment, doctype, start tags, closing tags, raw text) of the template grammar whose tags nest well and within the nesting limit; the template holds exactly the events of those pieces.", "quantifier": "all texts, all options, all templates", "why_tests_cant": "An equivalence between the accepted language and a grammar speaks about infinitely many accepted and rejected texts; tests sample both sides.", "anchors": ["src/parse.rs:391-696", "src/template.rs:216-232"]}
{"id": "C59", "title": "Rejected texts are rejected for the defect they have", "statement": "Template::from_str reports a parse error if and only if the text starts with a readable well nested part that is followed by a defect of exactly the kind of the error (unclosed comment, unclosed or unsupported doctype, missing or invalid identifier, bad attribute value, unfinished tag, too deep, unexpected, mismatched or missing closing tag), with the locations and names of that defect.", "quantifier": "all texts, all options, all parse errors", "why_tests_cant": "Every error with its exact location for every text: the number of combinations of constructs, white space and positions is unbounded.", "anchors": ["src/parse.rs:80-203", "src/parse.rs:391-696"]}
{"id": "C60", "title": "Loading from a file always returns", "statement": "Template::from_file returns a template or an error for every outcome of opening and reading the file; it never panics (also not in its expect call) and never loops. A file that cannot be opened gives the open error and a failing first read the read error.", "quantifier": "for every outcome of opening, every sequence of read results and all options", "why_tests_cant": "All byte sequences, chunkings and failure points.", "anchors": ["src/template.rs:149-213"]}
{"id": "C61", "title": "Later calls see exactly the result of earlier calls", "statement": "A chain of calls is the composition of its calls: the part of a chain after any point gives, on the events that come out of the part before it, the same outcome as the whole chain gives on the source. So transforming a template in two steps is the same as transforming it once with both chains.", "quantifier": "for every stream, well nested or not, every two chains of Api calls with any contents; streams of well nested events stay well nested", "why_tests_cant": "All pairs of chains; the implementation interleaves both parts event by event through lazily pulled streams.", "anchors": ["src/transform.rs:247-262", "src/modifier/mod.rs", "src/modifier/select/mod.rs"]}
{"id": "C62", "title": "No call hides an error of the stream before it", "statement": "If a chain of calls fails then every longer chain starting with it fails as well, also if the later calls remove, replace or skip the failing part. A transform with two chains succeeds exactly if the two transforms in turn do.", "quantifier": "for every stream, well nested or not, and every two chains of Api calls with any contents; for calls on an element: for every well nested element", "why_tests_cant": "All positions of errors and all later calls, including those that throw events away.", "anchors": ["src/modifier/remove.rs", "src/modifier/replace.rs", "src/modifier/repeat.rs"]}
{"id": "C63", "title": "Unfinished tags are reported where they start", "statement": "The location in the error for an opening or closing tag that is never finished is the location where the tag was started, as the documentation of the error says.", "quantifier": "for all texts and options, and every error ExpectedOpeningTagClose or ExpectedClosingTagClose", "why_tests_cant": "A test looks at single texts; the claim is about the location for every text with an unfinished tag.", "anchors": ["src/parse.rs:101-114", "src/parse.rs:533-660"]}
{"id": "C64", "title": "Messages of parse errors tell their kinds apart", "statement": "Two parse errors of different kinds never have the same message.", "quantifier": "for all pairs of texts and options whose parsing fails", "why_tests_cant": "Compares all pairs of errors with arbitrary names and locations in them.", "anchors": ["src/parse.rs:219-295"]}
{"id": "C65", "title": "Messages of parse errors show the location", "statement": "The message of every parse error contains every location of the error, each after the word 'at', except those of the outer ones of several unclosed elements. When an error has one location, it can be told from the message. A location is shown as its line, its column and its byte offset in decimal, and different positions are never shown alike.", "quantifier": "for all parse errors and all locations", "why_tests_cant": "Needs that decimal numbers in the message can be read back uniquely, for all numbers and all names around them.", "anchors": ["src/parse.rs:219-295", "src/location.rs"]}
{"id": "C66", "title": "Causes lead to the defect", "statement": "From every error of a transform, following the cause of the error leads in at most four steps to the error that says what is wrong (a malformed event sequence, a parse error, an exceeded limit, an invalid identifier, an empty list of classes, an unrestricted selector, or an error of the standard library), and this one has no cause.", "quantifier": "for all stream errors", "why_tests_cant": "Covers all nestings of errors with arbitrary contents.", "anchors": ["src/event.rs:478-560", "src/template.rs:34-104", "src/select.rs:433-443", "src/select.rs:586-598", "src/select.rs:791-803", "src/parse.rs:205-217"]}
{"id": "C67", "title": "Descriptions tell error types apart", "statement": "Errors of different error types of the crate have different descriptions.", "quantifier": "for all pairs of errors of the crate", "why_tests_cant": "Compares all pairs of types and values.", "anchors": ["src/select.rs:588", "src/select.rs:435", "src/select.rs:793", "src/parse.rs:207", "src/template.rs:36", "src/template.rs:93", "src/event.rs:480", "src/event.rs:546", "src/event.rs:660", "src/text/identifier.rs:100", "src/select.rs:97", "src/select.rs:204", "src/select.rs:322"]}
{"id": "C68", "title": "Messages of other errors tell kind and data", "statement": "Two errors of the same type (identifier, input, file, id selector, tag selector, class selector, class list, selector, static selector, malformed stream or stream error) with the same message are of the same kind and are about the same index or limit and the same character. The messages of file errors differ if the paths do.", "quantifier": "for all pairs of errors of one type", "why_tests_cant": "Needs that escaped characters and decimal numbers can be read back uniquely, for all characters and numbers.", "anchors": ["src/text/identifier.rs:78-96", "src/select.rs:421-431", "src/select.rs:568-584", "src/select.rs:775-789", "src/template.rs:46-56", "src/template.rs:105-116", "src/event.rs:524-542", "src/event.rs:639-656", "src/select.rs:85-93", "src/select.rs:192-200", "src/select.rs:310-318"]}
{"id": "C69", "title": "The last call about a limit counts", "statement": "Options built from the default by any sequence of calls that set or remove limits have, for each of the two limits, the value of the last call about it, and no limit if there is no such call.", "quantifier": "for all sequences of calls with all limits", "why_tests_cant": "Sequences of calls are unbounded.", "anchors": ["src/parse.rs:42-77"]}
{"id": "C70", "title": "Rendered pages are read as what they are", "statement": "Well nested events that can be written (proper names, values without quotes, texts without <, comments without -->, raw text without its closing tag) are read back after rendering, with neighbouring texts joined, empty texts gone, white space at the beginning of attribute values gone, and everything in a raw text element as one raw text. The markup is the same, in the same order.", "quantifier": "for all well nested event lists of this kind, also those that no parser produced, and all options whose limits they obey", "why_tests_cant": "Event lists are unbounded and are not limited to what the parser gives.", "anchors": ["src/event.rs", "src/template.rs", "src/parse.rs:297-696"]}
{"id": "C71", "title": "Events in the result come from the template or the contents", "statement": "Any property of events that the template and the inserted contents have, and that attribute changes and functions on templates keep, holds for every event of the result of a transform. For instance, no comments come into being, and no element names.", "quantifier": "for all properties of events that pass from self-closed tags to pairs of tags, all templates and all chains of calls, well nested or not", "why_tests_cant": "Quantifies over all properties, templates and programs.", "anchors": ["src/transform.rs", "src/event.rs"]}
{"id": "C72", "title": "Escaped text never becomes markup", "statement": "If a parsed template has no raw text elements and ordinary tag names, and the calls only insert ordinary events and attributes (such as escaped texts, escaped attribute values, and parsed templates of that kind), then the rendered result is read as exactly the events of the result with neighbouring texts joined. Where template or contents are not well nested, the same holds if the result is read at all, and it is read exactly if its events are well nested and within the limits.", "quantifier": "for all such templates, all chains of calls with such contents, all results and all options", "why_tests_cant": "Injection tests try a list of attack strings; the claim is for all texts, templates and programs.", "anchors": ["src/transform.rs", "src/text/encoded.rs", "src/parse.rs:297-696", "src/template.rs"]}
{"id": "C73", "title": "Text without < never becomes markup, even in raw text elements", "statement": "If < in the raw text of a parsed template with ordinary tag names is never at the end or before a slash, and the calls only insert texts without < and ordinary attributes, the rendered result is read with the markup of the result, in the same order. Without the condition on raw text it fails.", "quantifier": "for all such templates, all chains of such calls, all results and all options whose limits the result obeys", "why_tests_cant": "The claim is for all texts, templates and programs.", "anchors": ["src/transform.rs", "src/parse.rs:297-696", "src/template.rs"]}
{"id": "C74", "title": "Transforms deepen a page by at most what they insert", "statement": "If a template nests at most n deep, and the calls can make pages at most k deeper (depth of contents, one level for each nested call on contents of elements, functions on templates as they say), the result nests at most n + k deep; the bound is reached. So the result of an ordinary transform of a template read with depth limit n can be read with limit n + k.", "quantifier": "for all well nested templates, all chains of calls with well nested contents, and all n and k", "why_tests_cant": "Quantifies over all templates, programs and depths.", "anchors": ["src/transform.rs", "src/modifier/mod.rs", "src/parse.rs:297-390"]}
{"id": "C75", "title": "What a selection does to all matches holds in the result", "statement": "A property of events that holds for all events the selector does not match, and for all events the builder gives, holds for all events of the result of a selection. After selecting and removing, no event of the result matches the selector, the result is a part of the template in the same order, and removing again changes nothing.", "quantifier": "for all well nested templates, selectors of the crate, builders and properties of events", "why_tests_cant": "Quantifies over all templates, selectors and builders.", "anchors": ["src/modifier/select/mod.rs", "src/modifier/remove.rs", "src/transform.rs"]}
{"id": "C76", "title": "One round of rendering and parsing is enough", "statement": "What is read after rendering a page that can be written (C70) does not change any more: it renders to a text that is read as the same page.", "quantifier": "for all pages that can be written and all depth limits they obey", "why_tests_cant": "Event lists are unbounded.", "anchors": ["src/event.rs", "src/template.rs", "src/parse.rs:297-696"]}
{"id": "C77", "title": "Comparison of templates", "statement": "Two templates compare equal exactly if their events agree one by one, tag and attribute names up to ASCII case, texts and values exactly, and the names are ASCII (as all accepted names are). The comparison is symmetric and transitive, every parsed template is equal to itself, and equal templates render to texts that agree up to ASCII case.", "quantifier": "for all templates, all texts and options parsed from", "why_tests_cant": "Event lists, names and texts are unbounded.", "anchors": ["src/template.rs:141", "src/event.rs:19-140", "src/text/identifier.rs:143-152", "src/text/deferred.rs:6"]}
{"id": "C78", "title": "Transforms respect equality and do not see storage", "statement": "A transform made of the library's calls does not tell apart templates that are alike (names up to ASCII case, same texts): on equal templates it fails for both, with the same error about names and events alike, or gives equal results, if custom selectors and functions on templates respect this and the inserted names are ASCII; and whether contents, names and values are constants of the program or computed strings is not visible in the rendered result.", "quantifier": "for all templates and programs of calls, well nested or not, all selectors, contents, attribute changes and builders that respect the likeness", "why_tests_cant": "Programs, templates and texts are unbounded; the claim compares two runs.", "anchors": ["src/transform.rs", "src/select.rs", "src/event.rs:342-620", "src/text/identifier.rs:143-152", "src/text/deferred.rs"]}
{"id": "C79", "title": "Texts one after the other are parsed one after the other", "statement": "If a text is accepted, then the text followed by a second text is parsed as the two texts on their own: if the second text is accepted, the whole gives the events of the first and then of the second, with texts at the seam joined; if the second text is rejected, the whole is rejected with the same error, all of its positions (line, column, byte offset) counted on from the end of the first text.", "quantifier": "for all pairs of texts whose concatenation obeys the length limit, all options", "why_tests_cant": "Both texts are unbounded, and every error kind with all its positions is covered.", "anchors": ["src/parse.rs", "src/input.rs:78-142", "src/template.rs:196-240"]}
{"id": "C80", "title": "Selections can be done on the parts of a page separately", "statement": "Calls that treat all matches alike (select and select_direct with builders that ignore the number of the match, remove, apply and conditional calls; what builders do inside is arbitrary) give on two pages one after the other the results of the pages one after the other, or the error of the first page, or the error of the second page if the first has none.", "quantifier": "for all pairs of templates with properly nested events, all such programs of calls with well nested contents", "why_tests_cant": "Pages and programs are unbounded; the claim compares three runs.", "anchors": ["src/transform.rs:658-670", "src/transform.rs:749-761", "src/transform.rs:839-841", "src/modifier/select/mod.rs", "src/modifier/remove.rs"]}
{"id": "C81", "title": "Selecting the same elements twice is selecting them once", "statement": "A selection whose builder changes attributes and contents so that the elements are still selected, followed by a selection with the same selector, is one selection that makes both changes (select, select_direct, select_once, select_direct_once; builders may use the number of the match). In particular repeating a selection that sets or removes an attribute changes nothing, if the elements are still selected.", "quantifier": "for all templates with properly nested events, all selectors that match element starts only, all such builders", "why_tests_cant": "Pages, selectors and builders are unbounded; the claim compares two runs.", "anchors": ["src/transform.rs:658-814", "src/modifier/select/mod.rs", "src/modifier/attribute.rs", "src/event.rs:265-286"]}
{"id": "C82", "title": "Independent attribute changes can be swapped", "statement": "Two selections (select or select_direct, in any combination) that only change attributes can be done in either order, if neither selector sees the changes of the other selection and the changes commute on elements that both select. A selector of the crate does not see a call about attributes it does not look at: tag selectors see no attribute call, id selectors only calls about id, class selectors only calls about class.", "quantifier": "for all templates with properly nested events, all selectors that match element starts only, all attribute changes; second part: all selectors of the crate, all attribute calls with valid names, all events", "why_tests_cant": "Pages, selectors and attribute lists are unbounded; the claim compares two runs.", "anchors": ["src/transform.rs:658-670", "src/transform.rs:1634-2140", "src/select.rs:171-690", "src/event.rs:229-330"]}
{"id": "C83", "title": "Shared sources are never borrowed twice", "statement": "The Rc<RefCell<..>> cells that selections and subselect_contents share with the streams of their builders are never borrowed while they are already borrowed, so no transform panics with a BorrowMutError; and sharing is invisible: on an explicit heap of cells every transform ends with the same template or error as when every stream owns its source.", "quantifier": "for all templates, including badly nested ones, and all programs of Api calls with arbitrary selectors, contents and builders", "why_tests_cant": "Nesting of selections and contents is unbounded, and the heap has a cell for every call and every match.", "anchors": ["src/event.rs:702-707", "src/modifier/select/mod.rs:56-79", "src/modifier/select/mod.rs:154-177", "src/modifier/select/select_contents.rs:50-175", "src/modifier/select/element.rs:27-64"]}
{"id": "C84", "title": "Calls on elements keep the element", "statement": "An element stream produces a single full element: any chain of calls that gives an element stream, applied to one complete element, gives (unless it fails) one complete element with the same tag names; a void element stays void, a self-closed one may become a pair of tags. On a page, calls that work element by element (selections whose builders give elements, contents and attribute calls) keep the top level: its texts, comments and doctypes, and the number, order and names of its elements.", "quantifier": "for all properly nested elements and pages, all programs of Api calls whose contents are well nested, all selectors and builders", "why_tests_cant": "Elements and programs are unbounded, and builders nest to any depth.", "anchors": ["src/event.rs:709-714", "src/transform.rs:119-124", "src/modifier/select/element.rs:27-64", "src/modifier/select/select_contents.rs:50-175", "src/modifier/attribute.rs:1-120"]}
{"id": "C85", "title": "The layout of tags does not matter", "statement": "Two accepted texts give templates that compare equal exactly if one is the other with tags spelled in another way: other white space inside tags (after <, after the slash, after names, around =, before the characters of a value, before >), a slash in void tags or none, other case of tag and attribute names and of the word doctype. A respelled text is accepted under every nesting limit under which the text is accepted. Every text has only one reading.", "quantifier": "for all texts and all limits (the length limit must admit both texts)", "why_tests_cant": "The texts and the places where white space may stand are unbounded; the claim relates two runs of the parser.", "anchors": ["src/parse.rs:407-696", "src/event.rs:19-60", "src/text/identifier.rs:143-160", "src/template.rs:20-24"]}
{"id": "C86", "title": "The parser as an iterator", "statement": "As an iterator the parser yields finitely many items for every text, never panics, and stays ended once it has ended. The items are the events of the text up to its first defect, then the error of that defect, then one 'missing closing tags' error for each element that is still open, innermost first (an element that a closing tag failed to match is no longer open). What Template::from_str returns for a text within the length limit is the first error among the items, or all events if there is none.", "quantifier": "for all texts and options", "why_tests_cant": "The texts are unbounded, and the calls after the first error are never made by the crate itself, so no test through the public interface reaches them.", "anchors": ["src/parse.rs:297-405", "src/input.rs:25-27", "src/template.rs:226-231"]}
{"id": "C87", "title": "The text of a template", "statement": "The text of a template is the text of its events one after the other, each in one fixed layout: a start tag is '<', the name, for each attribute one space, the attribute name and, if it has a value, '=' and the value in double quotes, and then '>' (void tags too) or ' />' for self-closed tags; a closing tag is '</', the name and '>'; comments are between '<!--' and '-->', the doctype after '<!doctype ' up to '>'; text is shown as stored. Names keep their case.", "quantifier": "for all templates, also those no text parses to", "why_tests_cant": "Templates are unbounded; a test compares the text of a few.", "anchors": ["src/event.rs:158-197", "src/event.rs:287-340", "src/template.rs:369-377", "src/text/encoded.rs:110-115"]}
{"id": "C88", "title": "What loading from a file gives", "statement": "Template::from_file reads the file read by read. Each read is decoded by itself: the text is extended by its longest valid beginning, then the length limit is checked, and bytes left over are a decode error. The first failing read is a read error, an empty read is the end. If no error happened, the outcome is that of from_str on the text read, with its errors wrapped. Nothing else can happen, and the outcome is unique.", "quantifier": "for every sequence of read results (including failing and empty reads) and all options", "why_tests_cant": "All byte sequences, chunkings and limits, and the order in which the errors win.", "anchors": ["src/template.rs:149-213"]}
{"id": "C89", "title": "What an accepted selector text matches", "statement": "Every text is cut in exactly one way into a tag (up to the first # or .), an id (up to the first . after a #) and classes (between dots). If a text is accepted as a static selector, documented form or not, it matches exactly the element starts with that tag, that id and all those classes; text, end tags, comments and doctypes never match.", "quantifier": "for every selector text and every event", "why_tests_cant": "All texts, including those that should have been rejected (C34), and all attribute lists.", "anchors": ["src/select.rs:657-746"]}
{"id": "C90", "title": "Contents are only seen up to their first end or error", "statement": "A transform with a content in it gives what it gives with any other content that yields the same events before its first end or error (placeholders left out), and the same error. In particular a user-defined stream is never seen after it said that it ended or failed, whatever it would give then.", "quantifier": "for every template and all calls, well nested or not, and every exchange of contents that keeps what each of them gives before its first end or error", "why_tests_cant": "All user-defined streams, in all nestings of calls; a stream may misbehave only after its end.", "anchors": ["src/event.rs:660-707", "src/modifier/mod.rs:240-300", "src/content.rs:10-117"]}
{"id": "C91", "title": "The state and the counters of the parser", "statement": "In every state the parser reaches, also after errors, the rest of the input is an end of the text and its recorded location is the true position of that end; the recorded location of every open element is the true position of a <; there are at most as many open elements as the text has <. So line, column, offset and depth are bounded by the length of the text in bytes (plus one) and cannot overflow.", "quantifier": "for every text, all options and every state reached by any number of calls of the iterator", "why_tests_cant": "All texts and all states, including those after errors; an overflow would need texts of 2^64 bytes.", "anchors": ["src/parse.rs:297-404", "src/location.rs:19-60", "src/input.rs:10-110"]}
{"id": "C92", "title": "Messages tell the names they are about", "statement": "If the parse errors of two texts have the same message, they name the same tags, doctype or attribute (the attribute in the form tag.attribute), show the same locations and have the same limit. If two malformed stream errors have the same message, they are about the same tag, and the event found instead of the expected one is of the same kind, or the stream ended for both. Everything named is shown in single quotes. The unclosed elements other than the innermost one are listed in order, each in quotes, with commas between.", "quantifier": "for all pairs of texts and options whose parsing fails, and all pairs of malformed stream errors", "why_tests_cant": "Tests compare single messages; the claim is that no two different defects share a message.", "anchors": ["src/parse.rs:220-295", "src/event.rs:75-87", "src/event.rs:639-656", "src/location.rs"]}
{"id": "C93", "title": "Streams are reported for true faults only", "statement": "If a transform fails, the error is one that the calls bring with them, or it says that a closing tag is unexpected, that an opened element has no closing tag before the end, or that a selector has matched an event that does not start an element. The event it names has every property that the events of the template have and the calls keep. The end of the stream is never reported in place of an opening tag, an event never in place of a closing tag, and with selectors that only match starts of elements a missing opening tag is never reported.", "quantifier": "for all lists of events as template, well nested or not, and all transforms with any selectors, builders and contents", "why_tests_cant": "The streams are arbitrary, including badly nested ones, and the calls nest without bound; tests see single faulty streams.", "anchors": ["src/event.rs:560-637", "src/modifier/select/select_contents.rs:50-168", "src/modifier/mod.rs:39-50", "src/modifier/select/element.rs:27-37", "src/modifier/select/mod.rs:104-124", "src/modifier/select/mod.rs:205-220", "src/modifier/attribute.rs:25-36"]}
{"id": "C94", "title": "The event found in place of a closing tag is shown", "statement": "When the contents of an element are taken and nothing is done to them, the element comes out up to its own closing tag and what follows it is dropped; if another closing tag comes instead, that event is reported as the one found, and if the stream ends, the end of input is reported.", "quantifier": "for all names in ASCII, all attributes, all lists of events after the opening tag, and all calls that give the element", "why_tests_cant": "The events inside and their nesting are arbitrary; tests see single faulty streams.", "anchors": ["src/event.rs:619-637", "src/modifier/select/select_contents.rs:50-168", "src/modifier/mod.rs:39-50"]}
{"id": "C95", "title": "Parsing does not blow up", "statement": "A parsed template has at most as many events as the text has bytes, and its rendered text is at most a quarter longer in bytes than the text it was parsed from; with a limit on the length of the input, both are bounded by the limit. The factor is reached.", "quantifier": "for all texts and options whose parsing succeeds", "why_tests_cant": "The bound is about all texts of any length; a test only measures single templates, and the worst case is not known without proof.", "anchors": ["src/parse.rs:305-663", "src/event.rs:158-197", "src/template.rs:216-232"]}
{"id": "C96", "title": "Transforms do not blow up", "statement": "A transform turns a template of size s into one of size at most m*s + c, where m and c add up from the calls: contents and attributes add their own size, a selection multiplies by what its builder adds to or multiplies in one match, repetitions multiply, opening a self-closed element at most doubles it, and nothing else adds anything. This holds for the number of events and for the length of the rendered text in bytes; so the length limit of the parser limits the size of the result.", "quantifier": "for all well nested templates, all transforms of well nested contents with any selectors and builders, and every measure of events under which starts of elements count and splitting a self-closed tag at most doubles it", "why_tests_cant": "Templates, selectors, nesting of calls and contents are arbitrary; a test shows the size of one result.", "anchors": ["src/transform.rs:140-2140", "src/modifier/mod.rs:1-140", "src/modifier/attribute.rs:1-230", "src/event.rs:204-323"]}
{"id": "C97", "title": "Calls that only insert keep everything in its order", "statement": "If no call removes anything (no remove or replace, no repetition over nothing, functions on templates that lose nothing), then all tags, texts, comments and doctypes of the template are in the result, in the same order, up to attributes and the two ways to write an empty element. In general, every comparison of lists that can be made piece by piece, of whatever is seen of single events, holds between template and result if it holds for each call alone.", "quantifier": "for all well nested templates and all chains of calls with well nested contents, any selectors and builders; for all views of events that do not tell one tag of an empty element from two, and all reflexive and transitive relations that respect concatenation", "why_tests_cant": "It is about all templates, selectors and nested calls; a test compares one page with one result.", "anchors": ["src/transform.rs:140-2140", "src/modifier/mod.rs:20-335", "src/modifier/append.rs:1-120", "src/modifier/prepend.rs:1-118", "src/modifier/repeat.rs:1-398"]}
{"id": "C98", "title": "Calls that only remove add nothing", "statement": "If no call inserts anything (selections, removals of elements and contents, repetitions of at most one item, changes of attributes), then the tags, texts, comments and doctypes of the result are a part of those of the template, in the same order, up to attributes and the two ways to write an empty element.", "quantifier": "for all well nested templates and all chains of such calls, any selectors and builders", "why_tests_cant": "It is about all templates, selectors and nested calls; a test compares one page with one result.", "anchors": ["src/transform.rs:140-2140", "src/modifier/remove.rs:1-90", "src/modifier/mod.rs:20-335"]}
{"id": "C99", "title": "Calls about an attribute change nothing else on the page", "statement": "If all calls are selections, calls on contents and changes of attributes of one name (in any case), then the page stays as it is but for attributes of that name: all tags, texts, comments and doctypes, and all other attributes with their values and order, up to the two ways to write an empty element.", "quantifier": "for all well nested templates, all names, and all chains of such calls, any selectors and builders, at any depth", "why_tests_cant": "It is about all templates, selectors and nested calls; a test compares one page with one result.", "anchors": ["src/transform.rs:1605-2150", "src/modifier/attribute.rs:1-564", "src/event.rs:204-323"]}
{"id": "C100", "title": "What a parsed template holds was in the text", "statement": "For every text s, options o and template t with Template::from_str(s, o) = Ok(t): the tag names, attribute names, attribute values, comment contents, doctypes, data and raw texts held by t, in the order of the template, lie in s in that order, unchanged and without overlap. So each of them is found in s, and all together have at most as many bytes as s. Conversely, what any template holds lies in its displayed text in order and unchanged.", "quantifier": "all texts, options and templates", "why_tests_cant": "A parser that trims, normalises case, decodes, joins or duplicates a slice only for some input (white space inside values, non-ASCII names, raw text) passes any fixed set of documents; the claim is about every slice of every accepted text.", "anchors": ["src/event.rs:158-197", "src/event.rs:287-340", "src/parse.rs:305-663", "src/template.rs:216-232", "src/template.rs:369-377", "src/text/encoded.rs:110-115"]}
{"id": "C101", "title": "What texts and values say decides nothing", "statement": "If two templates, and the contents and attribute changes given to the same chain of calls, differ only in the words of texts, comments and doctypes and in the values of attributes other than id and class, and selectors are those of the crate (or agree on events that differ only so), then the results differ only so, or both transforms fail with errors that differ only so. If everything is ordinary (text without <, values without quotes), then without limits both rendered pages are readable or none is, and readers find the same tags with the same attribute names, ids and classes.", "quantifier": "for all pairs of templates and of chains of calls that are alike, at any depth, well nested or not", "why_tests_cant": "It compares two runs for all pairs of inserted texts; a test tries a few texts, and an influence of the data on the structure (an empty text treated as no content, a text compared with a selector) shows only for particular texts.", "anchors": ["src/transform.rs:1605-2150", "src/modifier/attribute.rs:1-564", "src/select.rs:60-420", "src/event.rs:158-340"]}
{"id": "C102", "title": "Format parameters reach texts only", "statement": "Shown with format parameters (`{:>8}`, `{:.3}`, ...), a text or name is cut to the precision and filled up to the width as a string is. In a template the parameters apply to each text by itself; tags, comments, doctypes, attribute names and values are shown as with `{}`. Without width and precision a template is shown as with `{}`. If all events are ordinary and the fill character is not `<`, then the page shown with parameters is readable without limits exactly if the events are well nested, and readers find the same markup.", "quantifier": "for all templates, texts, names and format parameters", "why_tests_cant": "Width, precision, fill and alignment combine freely with all texts, including those shorter than the padding or with characters of several bytes; a `write!` in place of a forwarding call, or the reverse, changes only results with parameters, which tests hardly use.", "anchors": ["src/template.rs:369-377", "src/event.rs:158-197", "src/event.rs:326-340", "src/event.rs:437-448", "src/text/deferred.rs:32-40"]}
{"id": "C103", "title": "No call looks ahead", "statement": "Let two pages begin with the same events, and let the same calls, none of which removes anything or gives a part of the page to a function on templates, transform both. Then both results begin with the same events, and among these are all tags, texts, comments and doctypes of the common beginning, in their order. If the calls concern only one attribute, both results begin with exactly the events of the common beginning, but for attributes of that name, which are the same in both. In general this holds for every comparison that works piece by piece and that each call alone keeps to.", "quantifier": "for all well nested pages, all places where they are cut (also inside elements), and all such chains of calls, at any depth", "why_tests_cant": "It compares two runs on pages that differ from some point on, for all such points and all chains; it is what makes it possible to deliver a page while it is still being read. A call that waits for the end of an element, or chooses the last match in place of the first, gives right results in tests with one match.", "anchors": ["src/transform.rs:159-1060", "src/modifier/select/mod.rs:1-250", "src/modifier/select/select_contents.rs:1-180", "src/modifier/prepend.rs:1-60", "src/modifier/append.rs:1-60", "src/modifier/attribute.rs:1-564"]}
{"id": "C104", "title": "The parser does not look ahead", "statement": "Let a text be parsed, and the same text with anything after it. All events yielded for the first text before its first error are yielded for the second text as well, in the same places; only text at the very end of the first input may go on. If the first error concerns tags that do not nest, tags nested too deeply, or another doctype, then the second text gives exactly the same items, so nothing that follows repairs it. The same holds for every other first error of a text that ends with `>`, unless the error tells that the input ended within a comment, doctype, attribute value or element.", "quantifier": "for all texts, all continuations, and all options of the parser", "why_tests_cant": "It compares the runs on all pairs of a text and a longer text. A search for the end of something (of a comment, of raw text, of a value) that starts too far back or goes on too far changes earlier events only for certain continuations, for instance when another `-->` or `</script>` follows later.", "anchors": ["src/parse.rs:298-404", "src/parse.rs:407-696", "src/input.rs:1-142"]}
{"id": "C105", "title": "A calculus of calls", "statement": "Chains of calls can be rewritten by fixed rules, at any place in a chain and inside of the builders of selections, repetitions and content calls, and the transform gives the same result, also the same error. The rules include: builders applied one after the other are one builder; prepending and appending can be swapped; removing twice is removing once, and removing forgets what was inserted or which attributes were changed before; selecting with a builder that changes nothing changes nothing; two selections of the same elements are one, and selections that do not see each other's attribute changes can be swapped; a selector can be exchanged by one that matches the same events; a selection of the first match is a selection that leaves the other matches alone; two removals of selected elements are one removal; copies of copies are copies, and a selection of elements in copies of a page is that selection in each copy; changing contents twice is one change, and it can be swapped with a change of attributes; setting or removing an attribute overrides earlier calls about that name, replacing after removing does nothing, adding after removing is setting, removing a class twice is removing it once, and removing an attribute can be swapped with calls about other names; calls on a failed stream leave the error as it is.", "quantifier": "for all pages, all well nested chains of calls and builders, all selectors, names, values and contents, and any number of uses of the rules at any depth", "why_tests_cant": "The rules can be combined in infinitely many ways and depths. A modifier that depends on how its source was put together (counters not reset, a pending event lost when streams are nested) satisfies each rule alone on simple pages and fails only below other calls.", "anchors": ["src/transform.rs:140-2140", "src/modifier/apply.rs:11-53", "src/modifier/mod.rs:60-160", "src/modifier/select/mod.rs:1-250", "src/event.rs:220-400", "src/modifier/repeat.rs:116-215"]}
{"id": "C106", "title": "User code with a state in common", "statement": "Closures given to the calls, functions given to apply_as_template, iterators given to repeat and user-defined streams may have a state in common that they read and change in the order in which they are called: they may count together, a stream may be used in two places, an iterator or a stream may have no end. Whatever they do, if the transform ends, its result is that of a transform whose user code has no state in common, and in which every call of a closure gives the calls it gives in some state, every iterator, function and stream what it gives in some states. So pages stay pages, no placeholder is left and no assertion fails, whenever that holds for the user code in every state. User code that does not use the state leaves it as it is and gives the result it has without. A closure, iterator or stream that goes from state to state is used exactly in the states in turn.", "quantifier": "for all types of states, all states, all templates and all chains of calls with any closures, functions, iterators and streams over these states", "why_tests_cant": "The order in which the library calls the closures, and what they have done to each other's state by then, differs with every page and chain. A test uses a few closures with a counter.", "anchors": ["src/transform.rs:13-35", "src/modifier/select/mod.rs:81-226", "src/modifier/repeat.rs:15-240", "src/modifier/apply.rs:55-100", "src/modifier/select/select_contents.rs:36-120", "src/content.rs:10-117", "src/event.rs:676-714"]}
{"id": "C107", "title": "The library sees the state of user code only through what the user code gives", "statement": "If the user code of two transforms works on two kinds of states, and in states that correspond it gives the same and goes on to states that correspond, then both transforms have the same result, or both have none, and their states correspond afterwards. So a log that only the user code reads changes nothing, and user code that reads and changes the state only through a view can be run on the view. A property of states that all user code keeps holds after the transform if it held before, and the user code of the transform has then only been used in states with this property: for pages to stay pages and assertions to hold, the user code only has to be right in these states.", "quantifier": "for all pairs of types of states, all relations between them, all pairs of chains of calls whose user code agrees along the relation, all templates and all states that correspond; for all properties of states", "why_tests_cant": "Relations between states and properties of states are not enumerable. A test compares two closures on a page.", "anchors": ["src/transform.rs:13-35", "src/modifier/select/mod.rs:81-226", "src/modifier/repeat.rs:15-240", "src/modifier/apply.rs:55-100", "src/modifier/select/select_contents.rs:36-120", "src/content.rs:10-117"]}
{"id": "C108", "title": "Transforms end if their user code does", "statement": "The library itself never loops: let the states of user code go on only along some reflexive and transitive relation, and let every iterator given to repeat be without an item, and every user-defined stream without an event, at some time in every course of states along it. Then every transform ends with a template or an error, however closures, functions, iterators and streams use their common state, and the state afterwards is one that can follow the state before. So a transform ends if all use a queue that is only shortened, or if every iterator and stream has a bound. It is enough if that is so in the states with a property that all user code keeps. The condition is needed: a repetition with an iterator that always has an item, and content from a stream that never reports its end, never give a template.", "quantifier": "for all types of states, all reflexive and transitive relations between states, all templates, all chains of calls whose user code ends along the relation, and all states", "why_tests_cant": "Ending is a statement about all courses of states. A test that runs for some time shows nothing about a loop, and a test that ends shows it for one course.", "anchors": ["src/event.rs:676-714", "src/modifier/repeat.rs:15-240", "src/modifier/mod.rs:230-275", "src/modifier/remove.rs:15-40", "src/template.rs:345-366", "src/modifier/select/mod.rs:81-226", "src/modifier/select/select_contents.rs:36-195"]}
{"id": "C109", "title": "How often user code runs", "statement": "User code whose state goes on with every call is called exactly as often as the document asks for, so the state afterwards is known. The builder of a selection is called once for every outermost match in document order, and not any more once an error is met; without errors the number of calls is the number of outermost matches. The builder of a selection of the first match is called if there is a match before any error. The builder of the contents of an element is called unless the element is void. The iterator of a repetition is asked once for every item up to the first one whose builder fails, or once more than it has items, and not at all if the repeated stream fails. With a fallback, the iterator is asked once for its first item. A function on templates is called once with the finished template, and not if there is none. A user-defined stream is asked up to its first answer that is no event; an appended one is not asked if the stream before it fails.", "quantifier": "for all types of states, all states, all steps between states, all user code that depends on the state, all calls before it whose own user code has no state, and all events (for selections and contents: all pages)", "why_tests_cant": "The number of calls depends on the whole document, on where errors are and on the state itself, and one call too many or too few does not show in the output, only in the state afterwards.", "anchors": ["src/modifier/select/mod.rs:81-226", "src/modifier/select/select_contents.rs:36-120", "src/modifier/repeat.rs:15-240", "src/modifier/apply.rs:40-110", "src/modifier/prepend.rs", "src/modifier/append.rs", "src/event.rs:676-714"]}
{"id": "C110", "title": "Streams that have ended stay ended", "statement": "Every pull of a stream that the calls of the crate make returns, however often it is pulled. First it gives events, then once its end or an error, and after that the end for ever: no event, no second error. The events it gives, without the placeholders, are the result of the calls, and if it gives an error, that error is the result. This holds around user-defined streams that do go on after their end or after an error. With user code that has a state in common, and even if that user code never ends, no user code runs after the first end or error.", "quantifier": "for all calls, all events, all numbers of pulls; for all types of states, all states and all user code", "why_tests_cant": "Transforms stop at the first end or error, so tests on results never pull a stream again; the streams inside of others are pulled again only in rare places, and user-defined streams may do anything when they are.", "anchors": ["src/modifier/mod.rs:20-270", "src/event.rs:660-727", "src/template.rs:110-140", "src/modifier/remove.rs:1-40", "src/content.rs:90-117"]}
{"id": "C111", "title": "Nothing is lost when errors become errors of transforms", "statement": "Wherever an error (of an identifier, an id, tag, class, class list or static selector, an input or a file) is converted into an error of a transform, the causes of the latter lead in one or two steps to an error with the same message and the same cause, and different errors stay different. A transform that selects by a tag, an id or a class that is no identifier, with any of the eight selection calls, reports an error whose cause tells which of the three selectors was used, and the cause of that tells what is wrong with the name.", "quantifier": "for all errors, calls, events and strings", "why_tests_cant": "Compares all pairs of errors with arbitrary contents, and covers all strings and calls.", "anchors": ["src/select.rs:75-115", "src/select.rs:182-222", "src/select.rs:300-340", "src/select.rs:445-452", "src/select.rs:600-605", "src/event.rs:560-579"]}
{"id": "C112", "title": "How texts are cut into pieces decides nothing, and pages can be saved in between", "statement": "The same calls on two well nested pages that differ only in how texts are cut into pieces, in empty texts and in whether a text is raw, give results that differ only in the same way and render to the same text, or fail with the same error; selectors match only starts of elements and functions on templates do not see the cutting. Hence two chains of calls may be run in one transform, or the result of the first may be written out and read again before the second: both give the same text or errors alike, provided the page in between can be read back and no attribute value starts with white space. Both provisos are needed.", "quantifier": "for all templates, options and chains of calls", "why_tests_cant": "Quantifies over all pages, all ways to cut their texts, and all pairs of chains of calls; tests compare results of single chains on freshly parsed pages, where texts are never cut.", "anchors": ["src/template.rs:359-367", "src/parse.rs", "src/transform.rs:247-253", "src/modifier/select/mod.rs", "src/modifier/append.rs", "src/modifier/prepend.rs"]}
{"id": "C113", "title": "Selections that do not meet can be swapped, taken together, or done one match at a time", "statement": "Removing the matches of one selector and then those of another is removing the matches of either, in any order. Two selections can be swapped, with the same page or the same error as result, if no match of one is or contains a match of the other and neither builder makes matches of the other selector; this holds for `select`, `select_direct` and one of each, and the builders get the same numbers. If the builders leave no match of what they get, `select` is the same as `select_once` called for the first matches one after the other, followed by `select` for the rest, and as `select_once` alone if it is called as often as the page has events. Each of the three provisos is needed.", "quantifier": "for all templates, selectors that only match starts of elements, chains of calls before, and numbered builders", "why_tests_cant": "Quantifies over all pages, pairs of selectors and families of builders; tests fix one selection and never compare orders.", "anchors": ["src/modifier/select/mod.rs", "src/modifier/remove.rs", "src/transform.rs:658-814"]}
{"id": "C114", "title": "Copies of a page add up, nest, and take later calls inside", "statement": "`repeat` for n + m items gives what `repeat` for the first n items gives, followed by what it gives for the other m items numbered on, or the first error of these. `repeat` for n items whose builder repeats for m items is `repeat` for all n * m pairs in order. Calls after `repeat` that treat all parts of a page alike can be moved into the builder, if there is a copy or the calls give nothing for an empty page; calls that number matches cannot, and without copies calls that always fail cannot.", "quantifier": "for all templates, chains of calls before, numbers of items and numbered builders", "why_tests_cant": "Quantifies over all numbers of items, all builders and all pages; tests run `repeat` on a handful of short lists and never compare two ways of repeating.", "anchors": ["src/modifier/repeat.rs", "src/transform.rs:980-1055"]}
{"id": "C115", "title": "Selectors are seen only through what they match", "statement": "A chain of calls sees of its selectors only which events they match. If the selectors of two chains that are the same apart from that match the same of the events with some property, all events of the page have the property, and the calls only put events with the property into a page, then both chains give the same page or the same error. So selectors that match the same events can be exchanged everywhere, also inside builders; and selector texts that differ only in the case of letters and in the order and repetition of classes are accepted both or rejected both, and select the same.", "quantifier": "for all templates, all chains of calls with nested builders, all selectors including those of users, and all well formed selector texts", "why_tests_cant": "Quantifies over all chains of calls and over all pairs of selectors that agree on what can occur; tests compare single selectors on single elements.", "anchors": ["src/select.rs", "src/modifier/select/mod.rs", "src/transform.rs:600-840"]}
{"id": "C116", "title": "The fields of a form can be filled in in any order, and again", "statement": "A form is a list of selections, each with its builder. If no match of one selector is in, or is, a match of another one, no builder makes matches of another selector, and the builders never fail, then all orders of the selections give the same page. If in addition the builders leave their elements selected and give the same when they get their result again, then filling in the form on the filled-in page, in any order, gives that page again. The selections may be of all matches, of matches at the top, or of the first match, which is a selection of all matches that leaves the others alone. Builders that set or remove any number of attributes, and replace the contents or leave them alone, never fail and are such builders.", "quantifier": "for all templates, all forms with any number of fields and all orders of them, all selectors including those of users, and all builders", "why_tests_cant": "A form with n fields has n! orders, and the claim is about all pages and all builders. An error in the bookkeeping of one selection that is only seen through others (a counter that goes on, an element that is found again in inserted contents) shows up for single pages and orders only.", "anchors": ["src/modifier/select/mod.rs:1-250", "src/modifier/select/select_any.rs:1-100", "src/modifier/select/select_direct.rs:1-100", "src/modifier/attribute.rs:1-230", "src/modifier/replace.rs:1-126", "src/event.rs:244-286"]}
{"id": "C117", "title": "What a chain of calls on one element comes down to", "statement": "Take any chain of calls that set, add or remove attributes and prepend, append, replace or remove contents. On every element, its result is: the attributes whose names were not set or removed, in their order, followed by the attributes that were set or added and whose names no later call sets or removes, in the order of those calls; and the contents, or nothing if some call replaced or removed them, with what was prepended and appended since then around them. An element closed by a slash gets a closing tag if and only if some call was about contents, and a void element keeps having none. Two such chains do the same to every element if and only if these parts agree. In particular every chain does the same as one that first removes names, then adds attributes, and then has at most two calls about contents; and in selections on pages, chains that agree can be exchanged.", "quantifier": "for all chains of such calls of any length, all pairs of them, all elements, and all pages and selections", "why_tests_cant": "The claim is about all pairs of chains of any length, and decides exactly when two of them are the same. An error that shows only after several calls in a certain order (a value that comes back, an attribute in the wrong place, contents that survive a removal) is missed by tests of single calls.", "anchors": ["src/event.rs:199-340", "src/modifier/attribute.rs:1-230", "src/modifier/prepend.rs:1-118", "src/modifier/append.rs:1-120", "src/modifier/replace.rs:1-126", "src/modifier/remove.rs:1-90", "src/modifier/select/select_contents.rs:1-195", "src/modifier/mod.rs:130-200"]}
{"id": "C118", "title": "Attribute calls about different names do not interfere", "statement": "Take any chain of calls that set, add or remove attributes or classes. On every element, the attributes of a name after the chain are exactly what the calls about that name alone make of the attributes of that name alone, where letters count as the same in both cases and class calls are about the name `class`. So calls about different names can be put in any order, as long as those about each name keep theirs: the attributes of each name come out the same, all attributes come out the same up to their order, and no selector of the crate tells the results apart. The calls about one name cannot be put in any order.", "quantifier": "for all chains of attribute calls of any length, all reorderings that keep the calls about each name in order, all elements, all names, and all selectors of the crate", "why_tests_cant": "The claim is about all chains and all their reorderings at once, and about every name in every spelling. Calls that interfere only for names that differ in their case, or only after certain other calls, are missed by tests of single calls.", "anchors": ["src/event.rs:199-340", "src/modifier/attribute.rs:1-230", "src/select.rs:1-120"]}
{"id": "C119", "title": "Classes behave as a set and the id as a variable", "statement": "Take any chain of calls that add and remove classes, set and remove the id, and call anything about attributes of other names. After it, an element has a class if and only if some call added the class and no later call removed it, or the element had it and no call removed it. It has an id if and only if the last call about the id set it to this one, or it had it and no call was about the id. Letters count as the same in both cases, and it does not matter how the classes are spread over attributes. Selectors for classes and ids match accordingly, and if two chains leave the same classes and the same id by this rule, no selector of the crate tells their results apart.", "quantifier": "for all chains of such calls of any length, all pairs of them, all elements, all classes and ids, and all selectors of the crate", "why_tests_cant": "The claim is about chains of any length on elements with any attributes. A class that survives a removal because it is there twice, in two attributes or in two spellings, or an id that comes back, shows only for certain chains on certain elements.", "anchors": ["src/event.rs:199-340", "src/modifier/attribute.rs:1-230", "src/select.rs:1-120", "src/transform.rs:2000-2140"]}
{"id": "C120", "title": "Elements can be marked first and be selected by the mark later", "statement": "Selecting elements, changing their attributes so that a second selector matches them, and then selecting with the second selector does the same as one selection that makes both changes, if every element of the page that the second selector matches anyway is matched by the first. This holds for selections at any depth and at the top, of all matches and of the first one. In particular elements can be marked with a class that no element of the page has, by any chain of calls that leaves the class in the sense of C119, and then be selected by the class: exactly the marked elements are found, in their order, and no elements inside them.", "quantifier": "for all pages, all earlier calls, all pairs of selectors that match only starts of elements, all changes of attributes and all builders, which may depend on the number of the match", "why_tests_cant": "The claim compares two programs on all pages and for all selectors and builders. An element that is marked but not found, or found twice, or counted differently in the second selection shows only for certain nestings of elements.", "anchors": ["src/modifier/select/mod.rs:60-250", "src/modifier/attribute.rs:1-230", "src/event.rs:199-420", "src/transform.rs:2000-2140"]}
{"id": "C121", "title": "A class added and removed again leaves at most tidier class words", "statement": "Adding a class that an element does not have and then removing it changes at most the first class attribute of the element. If there is no class attribute, the attributes are as before. If the first one has no words (no value, or only white space), it is gone. Otherwise it is in its place with its name and the same words in the same order, with single spaces between; all other attributes, also further class attributes, are as before. If the words had single spaces between to begin with, the tag is written exactly as before.", "quantifier": "for all attribute lists without the class, also with several class attributes, and all valid class names", "why_tests_cant": "The claim is about all attribute lists, with any white space and any number of class attributes in any place. A removal that takes too much, or that changes a second class attribute, shows only for certain lists.", "anchors": ["src/event.rs:199-420", "src/transform.rs:2000-2140"]}
