{
 "claims": [
  {
   "property": "C01",
   "status": "proved",
   "theorems": [
    "Fuser.C01_static_text_safe",
    "Fuser.C01_converted_text_safe"
   ],
   "note": ""
  },
  {
   "property": "C02",
   "status": "proved",
   "theorems": [
    "Fuser.C02_encoding_lossless",
    "Fuser.C02_converted_text_lossless"
   ],
   "note": ""
  },
  {
   "property": "C03",
   "status": "partial",
   "theorems": [
    "Fuser.C03_dynamic_text_encoded_false",
    "Fuser.C03_dynamic_text_encoded_partial"
   ],
   "note": "Violated by the code: from_unencoded_str stores the text unencoded. Negation proved; the agreement is shown exactly for strings without & < > \"."
  },
  {
   "property": "C04",
   "status": "proved",
   "theorems": [
    "Fuser.C04_identifier_validation"
   ],
   "note": ""
  },
  {
   "property": "C05",
   "status": "proved",
   "theorems": [
    "Fuser.C05_identifier_comparison"
   ],
   "note": ""
  },
  {
   "property": "C06",
   "status": "proved",
   "theorems": [
    "Fuser.C06_numbers_decimal"
   ],
   "note": "Proved for all integers; Display of the integer types is modelled by decimal digits."
  },
  {
   "property": "C07",
   "status": "partial",
   "theorems": [
    "Fuser.C07_text_equality_false",
    "Fuser.C07_text_equality_partial"
   ],
   "note": "Violated by the code: equality distinguishes static and owned storage."
  },
  {
   "property": "C08",
   "status": "proved",
   "theorems": [
    "Fuser.C08_set_attribute"
   ],
   "note": ""
  },
  {
   "property": "C09",
   "status": "proved",
   "theorems": [
    "Fuser.C09_remove_attribute"
   ],
   "note": ""
  },
  {
   "property": "C10",
   "status": "proved",
   "theorems": [
    "Fuser.C10_replace_if_exists"
   ],
   "note": ""
  },
  {
   "property": "C11",
   "status": "proved",
   "theorems": [
    "Fuser.C11_add_attribute"
   ],
   "note": ""
  },
  {
   "property": "C12",
   "status": "proved",
   "theorems": [
    "Fuser.C12_add_class"
   ],
   "note": ""
  },
  {
   "property": "C13",
   "status": "proved",
   "theorems": [
    "Fuser.C13_remove_class"
   ],
   "note": ""
  },
  {
   "property": "C14",
   "status": "proved",
   "theorems": [
    "Fuser.C14_set_and_remove_id"
   ],
   "note": ""
  },
  {
   "property": "C15",
   "status": "proved",
   "theorems": [
    "Fuser.C15_parse_total"
   ],
   "note": "Panics (slices off a boundary, failed expectations) and exhausted loop bounds are explicit outcomes of the model; none occurs."
  },
  {
   "property": "C16",
   "status": "proved",
   "theorems": [
    "Fuser.C16_well_nested"
   ],
   "note": ""
  },
  {
   "property": "C17",
   "status": "proved",
   "theorems": [
    "Fuser.C17_nesting_limit"
   ],
   "note": "Also: all other errors are unchanged by the limit."
  },
  {
   "property": "C18",
   "status": "proved",
   "theorems": [
    "Fuser.C18_length_limit"
   ],
   "note": ""
  },
  {
   "property": "C19",
   "status": "proved",
   "theorems": [
    "Fuser.C19_render_parse"
   ],
   "note": "For event lists without start tags that look like a directive (name starting with !--, equal to !doctype, or ! with first attribute doctype); those are the exact exceptions, see C20."
  },
  {
   "property": "C20",
   "status": "partial",
   "theorems": [
    "Fuser.C20_round_trip_false",
    "Fuser.C20_round_trip_partial",
    "Fuser.C20_round_trip_ordinary_partial"
   ],
   "note": "Violated by the code for start tags such as < !--x>, whose rendering is read as a comment. Proved: stable if and only if no start tag is of that kind. Stated without length limit, as rendering may lengthen a text."
  },
  {
   "property": "C21",
   "status": "proved",
   "theorems": [
    "Fuser.C21_locations"
   ],
   "note": ""
  },
  {
   "property": "C22",
   "status": "proved",
   "theorems": [
    "Fuser.C22_located_at_tag"
   ],
   "note": ""
  },
  {
   "property": "C23",
   "status": "partial",
   "theorems": [
    "Fuser.C23_mismatch_message_false",
    "Fuser.C23_mismatch_message_partial"
   ],
   "note": "Violated by the code: the message swaps the two tags. The error value itself is proved right."
  },
  {
   "property": "C24",
   "status": "proved",
   "theorems": [
    "Fuser.C24_raw_text"
   ],
   "note": ""
  },
  {
   "property": "C25",
   "status": "proved",
   "theorems": [
    "Fuser.C25_void_elements"
   ],
   "note": ""
  },
  {
   "property": "C26",
   "status": "proved",
   "theorems": [
    "Fuser.C26_whole_input"
   ],
   "note": ""
  },
  {
   "property": "C27",
   "status": "proved",
   "theorems": [
    "Fuser.C27_doctype"
   ],
   "note": ""
  },
  {
   "property": "C28",
   "status": "partial",
   "theorems": [
    "Fuser.C28_values_verbatim_false",
    "Fuser.C28_values_verbatim_partial"
   ],
   "note": "Violated by the code: leading white space of a value is dropped. Proved: the value is the text between the quotes without that white space."
  },
  {
   "property": "C29",
   "status": "proved",
   "theorems": [
    "Fuser.C29_unclosed_reported"
   ],
   "note": ""
  },
  {
   "property": "C30",
   "status": "proved",
   "theorems": [
    "Fuser.C30_no_unexpected_input"
   ],
   "note": ""
  },
  {
   "property": "C31",
   "status": "partial",
   "theorems": [
    "Fuser.C31_file_like_text_false",
    "Fuser.C31_file_like_text_partial"
   ],
   "note": "The claim is false: a character split between two fills of the read buffer gives a Decode error for a valid file. Proved: the negation with a witness; equality whenever no read splits a character; and, without a length limit, that equality holds exactly then and a Decode error is reported otherwise."
  },
  {
   "property": "C32",
   "status": "proved",
   "theorems": [
    "Fuser.C32_file_sound"
   ],
   "note": "For every sequence of read results without empty reads (an empty read is the end of the file)."
  },
  {
   "property": "C33",
   "status": "proved",
   "theorems": [
    "Fuser.C33_static_selector"
   ],
   "note": ""
  },
  {
   "property": "C34",
   "status": "partial",
   "theorems": [
    "Fuser.C34_selector_text_false",
    "Fuser.C34_selector_text_partial"
   ],
   "note": "Violated by the code: a # after the first . or # is accepted as part of a name."
  },
  {
   "property": "C35",
   "status": "proved",
   "theorems": [
    "Fuser.C35_selectors_match_starts"
   ],
   "note": ""
  },
  {
   "property": "C36",
   "status": "proved",
   "theorems": [
    "Fuser.C36_classes_selector"
   ],
   "note": ""
  },
  {
   "property": "C37",
   "status": "proved",
   "theorems": [
    "Fuser.C37_transform_meaning",
    "Fuser.C37_transform_parsed",
    "Fuser.C37_builder_meaning"
   ],
   "note": "The tree meaning is Spec/Tree.lean, which mentions no streams."
  },
  {
   "property": "C38",
   "status": "proved",
   "theorems": [
    "Fuser.C38_transform_nested"
   ],
   "note": ""
  },
  {
   "property": "C39",
   "status": "proved",
   "theorems": [
    "Fuser.C39_no_assertion",
    "Fuser.C39_builtin_selectors"
   ],
   "note": "Unless an assertion error is itself written in the inserted contents."
  },
  {
   "property": "C40",
   "status": "proved",
   "theorems": [
    "Fuser.C40_transform_total",
    "Fuser.C40_builder_total"
   ],
   "note": "For all programs, also with malformed contents and arbitrary selectors."
  },
  {
   "property": "C41",
   "status": "proved",
   "theorems": [
    "Fuser.C41_identity",
    "Fuser.C41_no_match"
   ],
   "note": ""
  },
  {
   "property": "C42",
   "status": "proved",
   "theorems": [
    "Fuser.C42_select"
   ],
   "note": ""
  },
  {
   "property": "C43",
   "status": "proved",
   "theorems": [
    "Fuser.C43_select_direct",
    "Fuser.C44_select_direct_once"
   ],
   "note": ""
  },
  {
   "property": "C44",
   "status": "proved",
   "theorems": [
    "Fuser.C44_select_once",
    "Fuser.C44_select_direct_once"
   ],
   "note": ""
  },
  {
   "property": "C45",
   "status": "proved",
   "theorems": [
    "Fuser.C45_subselect"
   ],
   "note": "Elements with opening and closing tag; for self-closed and void elements see C47_contents, of which the subselect calls are instances."
  },
  {
   "property": "C46",
   "status": "proved",
   "theorems": [
    "Fuser.C46_prepend_append",
    "Fuser.C46_template"
   ],
   "note": ""
  },
  {
   "property": "C47",
   "status": "proved",
   "theorems": [
    "Fuser.C47_contents",
    "Fuser.C47_content_calls",
    "Fuser.C47_empty_elements"
   ],
   "note": ""
  },
  {
   "property": "C48",
   "status": "proved",
   "theorems": [
    "Fuser.C48_repeat",
    "Fuser.C48_repeat_contents"
   ],
   "note": ""
  },
  {
   "property": "C49",
   "status": "proved",
   "theorems": [
    "Fuser.C49_or_else"
   ],
   "note": ""
  },
  {
   "property": "C50",
   "status": "proved",
   "theorems": [
    "Fuser.C50_attributes",
    "Fuser.C50_calls"
   ],
   "note": ""
  },
  {
   "property": "C51",
   "status": "proved",
   "theorems": [
    "Fuser.C51_first_error",
    "Fuser.C51_error_source",
    "Fuser.C51_invalid_argument"
   ],
   "note": ""
  },
  {
   "property": "C52",
   "status": "proved",
   "theorems": [
    "Fuser.C52_conditional"
   ],
   "note": ""
  },
  {
   "property": "C53",
   "status": "proved",
   "theorems": [
    "Fuser.C53_apply_template",
    "Fuser.C53_only_call"
   ],
   "note": "At most one call follows from the bound FnOnce; the function of the model is pure."
  },
  {
   "property": "C54",
   "status": "proved",
   "theorems": [
    "Fuser.C54_no_placeholder"
   ],
   "note": ""
  },
  {
   "property": "C55",
   "status": "proved",
   "theorems": [
    "Fuser.C55_with_element",
    "Fuser.C55_with_transformed_element"
   ],
   "note": ""
  },
  {
   "property": "C56",
   "status": "partial",
   "theorems": [
    "Fuser.C56_static_text_false",
    "Fuser.C56_static_text_partial"
   ],
   "note": "Violated by the code for raw text elements (script, style, title, textarea): the encoded text is read back as raw text. Proved: the negation with a witness; for all elements, that the page parses again to the same events except that the text is raw text in raw text elements, so never tags or comments, exactly if no start tag left in the page looks like a comment or doctype (see C20)."
  },
  {
   "property": "C57",
   "status": "proved",
   "theorems": [
    "Fuser.C57_single_selectors"
   ],
   "note": ""
  },
  {
   "property": "C58",
   "status": "proved",
   "theorems": [
    "Fuser.C58_accepted_iff"
   ],
   "note": ""
  },
  {
   "property": "C59",
   "status": "proved",
   "theorems": [
    "Fuser.C59_rejected_iff"
   ],
   "note": ""
  },
  {
   "property": "C60",
   "status": "proved",
   "theorems": [
    "Fuser.C60_file_total"
   ],
   "note": "Totality of the model includes that the expect call is never reached with an error and that the loop ends."
  },
  {
   "property": "C61",
   "status": "proved",
   "theorems": [
    "Fuser.C61_chain",
    "Fuser.C61_two_steps",
    "Fuser.C61_nested",
    "Fuser.C61_calls"
   ],
   "note": ""
  },
  {
   "property": "C62",
   "status": "proved",
   "theorems": [
    "Fuser.C62_errors_stay",
    "Fuser.C62_element_errors_stay",
    "Fuser.C62_success"
   ],
   "note": ""
  },
  {
   "property": "C63",
   "status": "partial",
   "theorems": [
    "Fuser.C63_unfinished_tag_false",
    "Fuser.C63_unfinished_tag_partial"
   ],
   "note": "The code violates the full statement: the location is where the end of the tag was expected. Proved: the negation with a witness, and that the named tag starts before the location and that there is no > at it."
  },
  {
   "property": "C64",
   "status": "partial",
   "theorems": [
    "Fuser.C64_message_kinds_false",
    "Fuser.C64_message_kinds_partial"
   ],
   "note": "The code violates the full statement: the message for an invalid closing tag name says opening tag. Proved: the negation with a witness, and that all other pairs of kinds have different messages."
  },
  {
   "property": "C65",
   "status": "proved",
   "theorems": [
    "Fuser.C65_message_locations"
   ],
   "note": ""
  },
  {
   "property": "C66",
   "status": "proved",
   "theorems": [
    "Fuser.C66_causes"
   ],
   "note": ""
  },
  {
   "property": "C67",
   "status": "partial",
   "theorems": [
    "Fuser.C67_descriptions_false",
    "Fuser.C67_descriptions_partial"
   ],
   "note": "The code violates the full statement: errors in static selectors describe themselves as class selector errors. Proved: the negation with a witness, and that all other pairs of types have different descriptions."
  },
  {
   "property": "C68",
   "status": "proved",
   "theorems": [
    "Fuser.C68_messages"
   ],
   "note": ""
  },
  {
   "property": "C69",
   "status": "proved",
   "theorems": [
    "Fuser.C69_limits"
   ],
   "note": ""
  },
  {
   "property": "C70",
   "status": "proved",
   "theorems": [
    "Fuser.C70_render_parse_normal",
    "Fuser.C70_joined"
   ],
   "note": ""
  },
  {
   "property": "C71",
   "status": "proved",
   "theorems": [
    "Fuser.C71_invariant"
   ],
   "note": ""
  },
  {
   "property": "C72",
   "status": "proved",
   "theorems": [
    "Fuser.C72_no_injection",
    "Fuser.C72_only_reading",
    "Fuser.C72_ordinary"
   ],
   "note": ""
  },
  {
   "property": "C73",
   "status": "proved",
   "theorems": [
    "Fuser.C73_no_injection_raw",
    "Fuser.C73_guard_needed"
   ],
   "note": ""
  },
  {
   "property": "C74",
   "status": "proved",
   "theorems": [
    "Fuser.C74_depth",
    "Fuser.C74_tight",
    "Fuser.C74_reparse"
   ],
   "note": ""
  },
  {
   "property": "C75",
   "status": "proved",
   "theorems": [
    "Fuser.C75_established",
    "Fuser.C75_removed"
   ],
   "note": ""
  },
  {
   "property": "C76",
   "status": "proved",
   "theorems": [
    "Fuser.C76_stable"
   ],
   "note": ""
  },
  {
   "property": "C77",
   "status": "proved",
   "theorems": [
    "Fuser.C77_equality",
    "Fuser.C77_storage_seen"
   ],
   "note": "`Template == Template` (derived, on top of `PartialEq for Identifier`). Second theorem: texts stored as constants and as computed strings are told apart although they render the same, since `Deferred` derives its comparison."
  },
  {
   "property": "C78",
   "status": "proved",
   "theorems": [
    "Fuser.C78_alike",
    "Fuser.C78_selectors",
    "Fuser.C78_equal",
    "Fuser.C78_stored"
   ],
   "note": "Relational statement over two runs, for any likeness of names and texts that is at least as fine as ASCII case of names and equality of characters; instances for `==` of templates and for the way texts are stored. No condition on nesting."
  },
  {
   "property": "C79",
   "status": "proved",
   "theorems": [
    "Fuser.C79_concat"
   ],
   "note": "Together with C15 (a result always exists) both cases cover every second text."
  },
  {
   "property": "C80",
   "status": "proved",
   "theorems": [
    "Fuser.C80_parts"
   ],
   "note": ""
  },
  {
   "property": "C81",
   "status": "proved",
   "theorems": [
    "Fuser.C81_fuse",
    "Fuser.C81_fuse_once",
    "Fuser.C81_again",
    "Fuser.C81_again_attribute"
   ],
   "note": ""
  },
  {
   "property": "C82",
   "status": "proved",
   "theorems": [
    "Fuser.C82_swap",
    "Fuser.C82_blind"
   ],
   "note": ""
  },
  {
   "property": "C83",
   "status": "proved",
   "theorems": [
    "Fuser.C83_no_double_borrow"
   ],
   "note": "By a simulation between the two machines: ownership of cells is a tree, and a pull only reaches cells above its own."
  },
  {
   "property": "C84",
   "status": "proved",
   "theorems": [
    "Fuser.C84_element",
    "Fuser.C84_page"
   ],
   "note": "The calls left out of C84_page (remove, prepend, append, replace, repeat, apply_as_template) change the top level; an example shows it."
  },
  {
   "property": "C85",
   "status": "proved",
   "theorems": [
    "Fuser.C85_respelled",
    "Fuser.C85_one_reading"
   ],
   "note": ""
  },
  {
   "property": "C86",
   "status": "proved",
   "theorems": [
    "Fuser.C86_iterator",
    "Fuser.C86_from_str"
   ],
   "note": "Iter.step models the iterator with its state after every call, including the calls after an error. The grammar and the defects are those of C58 and C59."
  },
  {
   "property": "C87",
   "status": "proved",
   "theorems": [
    "Fuser.C87_template_text"
   ],
   "note": "An exact description of Display. The round trip C19 allows other layouts, such as a slash in void tags; this claim does not."
  },
  {
   "property": "C88",
   "status": "proved",
   "theorems": [
    "Fuser.C88_file_exact"
   ],
   "note": "The exact outcome; C31, C32 and C60 state consequences in terms of the whole file."
  },
  {
   "property": "C89",
   "status": "proved",
   "theorems": [
    "Fuser.C89_selector_meaning"
   ],
   "note": "Covers the texts that C34 shows to be accepted although malformed: .a#b looks for a class a#b."
  },
  {
   "property": "C90",
   "status": "proved",
   "theorems": [
    "Fuser.C90_contents_exchanged",
    "Fuser.C90_stopped_streams"
   ],
   "note": "User-defined streams are modelled by the results of all calls of next_event, also those after an end or an error."
  },
  {
   "property": "C91",
   "status": "proved",
   "theorems": [
    "Fuser.C91_parser_state",
    "Fuser.C91_parser_counters"
   ],
   "note": "Locations of intermediate inputs within one call are covered through the state the call leaves. The model counts with natural numbers; the second theorem is what makes that adequate for the parser."
  },
  {
   "property": "C92",
   "status": "proved",
   "theorems": [
    "Fuser.C92_parse_messages",
    "Fuser.C92_malformed_messages",
    "Fuser.C92_named_quoted",
    "Fuser.C92_unclosed_listed"
   ],
   "note": "Tag and attribute are shown with a dot between them; an example shows that names with dots are then ambiguous, so the claim is on the pair as shown."
  },
  {
   "property": "C93",
   "status": "proved",
   "theorems": [
    "Fuser.C93_faults",
    "Fuser.C93_never",
    "Fuser.C93_start_selectors"
   ],
   "note": "Holds without conditions on the template or the calls. What a report says about the place of the fault is C94."
  },
  {
   "property": "C94",
   "status": "partial",
   "theorems": [
    "Fuser.C94_found_false",
    "Fuser.C94_found_partial"
   ],
   "note": "Violated by the code: another closing tag inside an element is reported as the end of input, since CurrentContent replaces the error. Proved: the negation with a witness, also by a public call, and exactly what comes out or is reported in all cases."
  },
  {
   "property": "C95",
   "status": "proved",
   "theorems": [
    "Fuser.C95_parsed_size",
    "Fuser.C95_tight"
   ],
   "note": ""
  },
  {
   "property": "C96",
   "status": "proved",
   "theorems": [
    "Fuser.C96_size",
    "Fuser.C96_events",
    "Fuser.C96_text",
    "Fuser.C96_attributes",
    "Fuser.C96_limit",
    "Fuser.C96_tight"
   ],
   "note": ""
  },
  {
   "property": "C97",
   "status": "proved",
   "theorems": [
    "Fuser.C97_keeps_to",
    "Fuser.C97_inserts"
   ],
   "note": ""
  },
  {
   "property": "C98",
   "status": "proved",
   "theorems": [
    "Fuser.C98_removes"
   ],
   "note": ""
  },
  {
   "property": "C99",
   "status": "proved",
   "theorems": [
    "Fuser.C99_about"
   ],
   "note": ""
  },
  {
   "property": "C100",
   "status": "proved",
   "theorems": [
    "Fuser.C100_parsed",
    "Fuser.C100_pieces",
    "Fuser.C100_rendered"
   ],
   "note": "Spec/Source.lean says which texts an event holds and what it means that texts lie in a text in order without overlap. Proved along the grammar of C58."
  },
  {
   "property": "C101",
   "status": "proved",
   "theorems": [
    "Fuser.C101_outline",
    "Fuser.C101_selectors",
    "Fuser.C101_reread"
   ],
   "note": "Spec/Alike.lean: the likeness `outline` hides contents and values other than ids and classes. C78_alike now holds for every likeness that keeps names, ids and classes, so also for this one."
  },
  {
   "property": "C102",
   "status": "proved",
   "theorems": [
    "Fuser.C102_texts",
    "Fuser.C102_template",
    "Fuser.C102_plain",
    "Fuser.C102_markup",
    "Fuser.C102_not_whole"
   ],
   "note": "Model/Format.lean is the model of the Display instances with format parameters, separate from `render`, which is `{}`. Spec/Format.lean says how a string is padded and how an event is shown. C102_not_whole: the parameters are not applied to the page as a whole."
  },
  {
   "property": "C103",
   "status": "proved",
   "theorems": [
    "Fuser.C103_no_look_ahead",
    "Fuser.C103_attributes",
    "Fuser.C103_keeps_to"
   ],
   "note": "Both transforms are assumed to succeed. `remove` would allow an empty common beginning, and a function on templates sees the whole part it gets; Props/Ahead.lean shows a function that looks ahead."
  },
  {
   "property": "C104",
   "status": "proved",
   "theorems": [
    "Fuser.C104_events",
    "Fuser.C104_errors",
    "Fuser.C104_from_str"
   ],
   "note": "About the iterator that `from_str` collects (C86), on a text and the same text with anything after it. The other errors may be repaired by what follows; Props/NoLookAhead.lean has witnesses. For `from_str` the longer text must obey the limit of the length."
  },
  {
   "property": "C105",
   "status": "proved",
   "theorems": [
    "Fuser.C105_calculus"
   ],
   "note": "The rules are the constructors of `SameCalls` in Spec/Calculus.lean, closed under equality and all calls. Rules about removed content need content without errors; rules about attributes need valid names; rules about selections need selectors that only match element starts, as all selectors of the crate do. The rule that moves a selection into copies is for builders that do not use the index. Props/Calculus.lean derives two chains of rules as examples."
  },
  {
   "property": "C106",
   "status": "proved",
   "theorems": [
    "Fuser.C106_common_state",
    "Fuser.C106_stateless",
    "Fuser.C106_closure_state",
    "Fuser.C106_iterator_state",
    "Fuser.C106_stream_state",
    "Fuser.C106_nested",
    "Fuser.C106_no_assertion"
   ],
   "note": "A third model of the streams (Model/UserState.lean) passes a state through all user code. C106_common_state is the general theorem; the relation `Resolves` is in Spec/Resolve.lean. It speaks about transforms that end: with an iterator or stream without end there may be no result. The order in which different pieces of user code are called is given by the model and shown in examples; for one piece of user code (closure of a selection, iterator, stream) it is the subject of C106_closure_state, C106_iterator_state and C106_stream_state. Selectors with inner mutability and user code that panics are not modelled."
  },
  {
   "property": "C107",
   "status": "proved",
   "theorems": [
    "Fuser.C107_along",
    "Fuser.C107_view",
    "Fuser.C107_invariant",
    "Fuser.C107_nested",
    "Fuser.C107_no_assertion"
   ],
   "note": "The relations `Along`, `KeepsState` and the restriction `within` are in Spec/Along.lean. C107_along is the general theorem; C107_invariant strengthens C106_common_state, whose states range over all states, to the states with a property that all user code keeps."
  },
  {
   "property": "C108",
   "status": "proved",
   "theorems": [
    "Fuser.C108_ends",
    "Fuser.C108_within",
    "Fuser.C108_page",
    "Fuser.C108_endless"
   ],
   "note": "C40 says this for transforms without common state. `Settled` in Spec/Settle.lean is the condition on the user code: it speaks about sequences of states. C108_endless shows that it cannot be dropped."
  },
  {
   "property": "C109",
   "status": "proved",
   "theorems": [
    "Fuser.C109_closure",
    "Fuser.C109_all_matches",
    "Fuser.C109_once",
    "Fuser.C109_contents",
    "Fuser.C109_iterator",
    "Fuser.C109_fallback",
    "Fuser.C109_function",
    "Fuser.C109_stream",
    "Fuser.C109_transform"
   ],
   "note": "One theorem for each kind of user code. C106 says which transform without state gives the result; this says in addition what the state is afterwards. The numbers (`selectCalls`, `onceCalled`, `asks`, `answers`, `hasContents` in Spec/Asked.lean) are read off the document and the results of the builders."
  },
  {
   "property": "C110",
   "status": "proved",
   "theorems": [
    "Fuser.C110_pulled",
    "Fuser.C110_no_more_calls"
   ],
   "note": "`pulls` and `pullsUser` in Spec/Ended.lean are what a caller sees who does not stop at the end. C110_pulled gives all results of any number of pulls and ties them to the result of the calls; C110_no_more_calls is about states in common and needs no condition on the user code."
  },
  {
   "property": "C111",
   "status": "proved",
   "theorems": [
    "Fuser.C111_message_kept",
    "Fuser.C111_told_apart",
    "Fuser.C111_invalid_name"
   ],
   "note": "The conversions are the `From` instances into `StreamError`; `AnyError.toStream` is `none` for error types without one. An error that is an error of a transform already is left out of the first two theorems; its conversion is the identity."
  },
  {
   "property": "C112",
   "status": "proved",
   "theorems": [
    "Fuser.C112_cut",
    "Fuser.C112_saved",
    "Fuser.C112_texts_seen",
    "Fuser.C112_space_lost"
   ],
   "note": "`letters` cuts all texts into letters; pages with the same letters differ only in cutting, empty texts and rawness. The errors in C112_saved are alike, not the same, since an error can contain a name that is static before the page is saved and owned after. C112_texts_seen and C112_space_lost show that the conditions on selectors and on values cannot be dropped."
  },
  {
   "property": "C113",
   "status": "proved",
   "theorems": [
    "Fuser.C113_removals",
    "Fuser.C113_swap",
    "Fuser.C113_one_by_one",
    "Fuser.C113_meeting_seen",
    "Fuser.C113_making_seen",
    "Fuser.C113_left_seen"
   ],
   "note": "`NeverMeet` is stated on the events of the page, `MakesNone` on the contents and attribute changes of the calls, `Clears` on what the calls give for single elements. The selectors of C113_swap do not see whether an element is closed by a slash, since adding contents to such an element opens it. The last three theorems show that the provisos cannot be dropped."
  },
  {
   "property": "C114",
   "status": "proved",
   "theorems": [
    "Fuser.C114_split",
    "Fuser.C114_nested",
    "Fuser.C114_inside",
    "Fuser.C114_numbers_seen",
    "Fuser.C114_none_seen"
   ],
   "note": "Calls that treat all parts of a page alike are `Local`, the condition of C80. The last two theorems show that the condition on the calls and the condition on empty lists cannot be dropped."
  },
  {
   "property": "C115",
   "status": "proved",
   "theorems": [
    "Fuser.C115_agree",
    "Fuser.C115_exchange",
    "Fuser.C115_respelled",
    "Fuser.C115_kept_seen",
    "Fuser.C115_slash_seen"
   ],
   "note": "The property of events must hold for closing tags and must not be lost when a self-closed element is opened. The last two theorems show that neither the condition on inserted contents nor the one on self-closed elements can be dropped."
  },
  {
   "property": "C116",
   "status": "proved",
   "theorems": [
    "Fuser.C116_order",
    "Fuser.C116_again",
    "Fuser.C116_once",
    "Fuser.C116_filling",
    "Fuser.C116_unselected_seen"
   ],
   "note": "The selectors must match element starts only and must not see whether an element is closed by a slash; all selectors are so, except possibly functions given by users. C113 has the two-field case also for builders that fail. The last theorem shows that filling in again can change more if a builder takes away what its element is selected by."
  },
  {
   "property": "C117",
   "status": "proved",
   "theorems": [
    "Fuser.C117_result",
    "Fuser.C117_same",
    "Fuser.C117_normal",
    "Fuser.C117_selected",
    "Fuser.C117_opens_seen"
   ],
   "note": "Names are valid identifiers and contents are templates with well nested events; contents that fail are covered by C46, C47 and C90. The calls are those of the crate on the whole machine, the summary of a chain is a separate specification. The last theorem shows that even a chain that puts nothing into the contents differs from the empty chain, as it is seen on elements closed by a slash. Calls that depend on the attributes that are there already (add_to_attribute, add_class, remove_class, replace_attribute_value_if_exists) have no such summary and are not in the chains; C10 to C13 are about them."
  },
  {
   "property": "C118",
   "status": "proved",
   "theorems": [
    "Fuser.C118_one_name",
    "Fuser.C118_order",
    "Fuser.C118_same_name_seen"
   ],
   "note": "Names are valid identifiers. Selectors written by the user can look at the order of attributes and are left out of the last part of C118_order."
  },
  {
   "property": "C119",
   "status": "proved",
   "theorems": [
    "Fuser.C119_marks",
    "Fuser.C119_alike",
    "Fuser.C119_other_seen"
   ],
   "note": "Names are valid identifiers. C119_other_seen shows why the other calls must not be about class or id. Selectors written by the user are left out of C119_alike, as they can look at the attributes themselves."
  },
  {
   "property": "C120",
   "status": "proved",
   "theorems": [
    "Fuser.C120_hand_on",
    "Fuser.C120_marked"
   ],
   "note": "Selectors match only starts of elements, as all of the crate do. An example shows that the condition on the page is needed: an element that has the class already is changed too."
  },
  {
   "property": "C121",
   "status": "proved",
   "theorems": [
    "Fuser.C121_unmark",
    "Fuser.C121_no_trace"
   ],
   "note": "Examples show that the conditions are needed: other spaces do not stay, an empty class attribute goes, and a class that the element had before is lost."
  }
 ]
}
