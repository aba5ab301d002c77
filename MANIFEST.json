{
 "claims": [
  {
   "property": "C01",
   "status": "proved",
   "theorems": [
    "Aitch.Props.C01_text",
    "Aitch.Props.C01_comment",
    "Aitch.Props.C01_pi",
    "Aitch.Props.C01_attribute",
    "Aitch.Props.C01_writeString"
   ],
   "note": ""
  },
  {
   "property": "C02",
   "status": "proved",
   "theorems": [
    "Aitch.Props.C02_decode",
    "Aitch.Props.C02_decode_attribute",
    "Aitch.Props.C02_injective"
   ],
   "note": ""
  },
  {
   "property": "C03",
   "status": "proved",
   "theorems": [
    "Aitch.Props.C03_pieces",
    "Aitch.Props.C03_split",
    "Aitch.Props.C03_fast_path"
   ],
   "note": ""
  },
  {
   "property": "C04",
   "status": "proved",
   "theorems": [
    "Aitch.Props.C04_text",
    "Aitch.Props.C04_attribute",
    "Aitch.Props.C04_unique",
    "Aitch.Props.C04_int_injective"
   ],
   "note": ""
  },
  {
   "property": "C05",
   "status": "partial",
   "theorems": [
    "Aitch.Props.C05_false",
    "Aitch.Props.C05_static_partial",
    "Aitch.Props.C05_key_partial"
   ],
   "note": "False in the code: fmt.Stringer output and dynamic values are written unescaped or as nothing (C05_false). Proved for static and keyed values of the other types."
  },
  {
   "property": "C06",
   "status": "proved",
   "theorems": [
    "Aitch.Props.C06_element"
   ],
   "note": ""
  },
  {
   "property": "C07",
   "status": "proved",
   "theorems": [
    "Aitch.Props.C07_shape",
    "Aitch.Props.C07_contents_ignored",
    "Aitch.Props.C07_declarations_only"
   ],
   "note": ""
  },
  {
   "property": "C08",
   "status": "proved",
   "theorems": [
    "Aitch.Props.C08_void",
    "Aitch.Props.C08_other"
   ],
   "note": ""
  },
  {
   "property": "C09",
   "status": "proved",
   "theorems": [
    "Aitch.Props.C09_element",
    "Aitch.Props.C09_void",
    "Aitch.Props.C09_attribute",
    "Aitch.Props.C09_booleanAttribute",
    "Aitch.Props.C09_delimitedAttribute",
    "Aitch.Props.C09_chars"
   ],
   "note": ""
  },
  {
   "property": "C10",
   "status": "proved",
   "theorems": [
    "Aitch.Props.C10_once"
   ],
   "note": ""
  },
  {
   "property": "C11",
   "status": "proved",
   "theorems": [
    "Aitch.Props.C11_last_wins"
   ],
   "note": ""
  },
  {
   "property": "C12",
   "status": "proved",
   "theorems": [
    "Aitch.Props.C12_merge"
   ],
   "note": ""
  },
  {
   "property": "C13",
   "status": "proved",
   "theorems": [
    "Aitch.Props.C13_delimiter",
    "Aitch.Props.C13_parts"
   ],
   "note": ""
  },
  {
   "property": "C14",
   "status": "proved",
   "theorems": [
    "Aitch.Props.C14_interleaving",
    "Aitch.Props.C14_swap"
   ],
   "note": ""
  },
  {
   "property": "C15",
   "status": "proved",
   "theorems": [
    "Aitch.Props.C15_open",
    "Aitch.Props.C15_collection"
   ],
   "note": ""
  },
  {
   "property": "C16",
   "status": "proved",
   "theorems": [
    "Aitch.Props.C16_conditional",
    "Aitch.Props.C16_collection",
    "Aitch.Props.C16_nil"
   ],
   "note": ""
  },
  {
   "property": "C17",
   "status": "partial",
   "theorems": [
    "Aitch.Props.C17_partial",
    "Aitch.Props.C17_three_levels_partial",
    "Aitch.Props.C17_false",
    "Aitch.Props.C17_declares",
    "Aitch.Props.C17_declares_when",
    "Aitch.Props.C17_declares_collection"
   ],
   "note": "False in the code: append(conditions, fn) shares backing arrays, so sibling conditionals under three or more levels overwrite each other (C17_false). Proved whenever no two sibling conditionals share a slot, in particular up to three levels. C17_declares* say what Conditional, When and Collection declare."
  },
  {
   "property": "C18",
   "status": "proved",
   "theorems": [
    "Aitch.Props.C18_when",
    "Aitch.Props.C18_when_not",
    "Aitch.Props.C18_attribute"
   ],
   "note": ""
  },
  {
   "property": "C19",
   "status": "proved",
   "theorems": [
    "Aitch.Props.C19_tag",
    "Aitch.Props.C19_extend",
    "Aitch.Props.C19_override",
    "Aitch.Props.C19_first_delimited",
    "Aitch.Props.C19_first_plain"
   ],
   "note": ""
  },
  {
   "property": "C20",
   "status": "partial",
   "theorems": [
    "Aitch.Props.C20_false",
    "Aitch.Props.C20_reordered_partial",
    "Aitch.Props.C20_unconditional_partial"
   ],
   "note": "False in the code when a conditional attribute is in effect (C20_false). Proved for all nodes up to the order of attributes within tags, and exactly for nodes without conditional attributes."
  },
  {
   "property": "C21",
   "status": "proved",
   "theorems": [
    "Aitch.Props.C21_after",
    "Aitch.Props.C21_sequence"
   ],
   "note": ""
  },
  {
   "property": "C22",
   "status": "partial",
   "theorems": [
    "Aitch.Props.C22_false",
    "Aitch.Props.C22_stays_false",
    "Aitch.Props.C22_partial",
    "Aitch.Props.C22_last_partial"
   ],
   "note": "False in the code for writers that recover and for Imperative nodes (C22_*false). Proved for writers that stay failed, with user functions that do not clear ctx.Error and set it when a write of their own fails, and Imperative functions that return an error when it is set. For any writer, also one that recovers, C22_last_partial says what is returned: the result of the last write."
  },
  {
   "property": "C23",
   "status": "proved",
   "theorems": [
    "Aitch.Props.C23_prefix"
   ],
   "note": ""
  },
  {
   "property": "C24",
   "status": "partial",
   "theorems": [
    "Aitch.Props.C24_false",
    "Aitch.Props.C24_partial",
    "Aitch.Props.C24_siblings_partial"
   ],
   "note": "False in the code: text siblings, ContentCollect and WriteNodes discard the error (C24_false). Proved for the enclosing positions that keep it."
  },
  {
   "property": "C25",
   "status": "proved",
   "theorems": [
    "Aitch.Props.C25_closed",
    "Aitch.Props.C25_endAll",
    "Aitch.Props.C25_end",
    "Aitch.Props.C25_runs"
   ],
   "note": ""
  },
  {
   "property": "C26",
   "status": "partial",
   "theorems": [
    "Aitch.Props.C26_start",
    "Aitch.Props.C26_void_partial",
    "Aitch.Props.C26_element_partial",
    "Aitch.Props.C26_exact",
    "Aitch.Props.C26_false",
    "Aitch.Props.C26_false_empty"
   ],
   "note": "Start's tag is fully characterised (C26_start); equality with the element's tag is proved when the declarations of each name agree (last one plain or boolean, or all delimited alike with no empty value before the last). In general it is false (C26_false, C26_false_empty); for delimited attributes the condition is exact (C26_exact)."
  },
  {
   "property": "C27",
   "status": "proved",
   "theorems": [
    "Aitch.Props.C27_iterate",
    "Aitch.Props.C27_empty"
   ],
   "note": ""
  },
  {
   "property": "C28",
   "status": "proved",
   "theorems": [
    "Aitch.Props.C28_iterate",
    "Aitch.Props.C28_iterateKey",
    "Aitch.Props.C28_iterateYield"
   ],
   "note": ""
  },
  {
   "property": "C29",
   "status": "partial",
   "theorems": [
    "Aitch.Props.C29_exact_partial",
    "Aitch.Props.C29_same_partial",
    "Aitch.Props.C29_false"
   ],
   "note": "False in the code: a non-map item yielded to IterateYield sees the data of the last map item or none (C29_false). Proved: exactly which data each item sees, and agreement with Iterate when every item is a map."
  },
  {
   "property": "C30",
   "status": "proved",
   "theorems": [
    "Aitch.Props.C30_slice",
    "Aitch.Props.C30_none"
   ],
   "note": ""
  },
  {
   "property": "C31",
   "status": "proved",
   "theorems": [
    "Aitch.Props.C31_found",
    "Aitch.Props.C31_missing",
    "Aitch.Props.C31_must"
   ],
   "note": ""
  },
  {
   "property": "C32",
   "status": "partial",
   "theorems": [
    "Aitch.Props.C32_false",
    "Aitch.Props.C32_keys_false",
    "Aitch.Props.C32_partial",
    "Aitch.Props.C32_safe_partial"
   ],
   "note": "False in the code: Get panics for unexported struct fields, nil embedded pointers and maps keyed by a named string type (C32_false, C32_keys_false). Proved for cargo without these (C32_partial, C32_safe_partial)."
  },
  {
   "property": "C33",
   "status": "proved",
   "theorems": [
    "Aitch.Props.C33_text",
    "Aitch.Props.C33_attribute",
    "Aitch.Props.C33_delimited"
   ],
   "note": ""
  },
  {
   "property": "C34",
   "status": "proved",
   "theorems": [
    "Aitch.Props.C34_unchanged",
    "Aitch.Props.C34_again",
    "Aitch.Props.C34_times",
    "Aitch.Props.C34_computing"
   ],
   "note": ""
  },
  {
   "property": "C35",
   "status": "partial",
   "theorems": [
    "Aitch.Props.C35_false",
    "Aitch.Props.C35_partial",
    "Aitch.Props.C35_fresh_partial",
    "Aitch.Props.C35_attribute",
    "Aitch.Props.C35_attributes"
   ],
   "note": "False in the code: a shared delimited attribute absorbs later values (C35_false). Proved for nodes that do not use an absorbing attribute, and for constructions with fresh attributes. C35_attributes: a delimited attribute keeps exactly its own values whatever delimited attributes are built after it."
  },
  {
   "property": "C36",
   "status": "proved",
   "theorems": [
    "Aitch.Props.C36_text",
    "Aitch.Props.C36_fragment",
    "Aitch.Props.C36_comment",
    "Aitch.Props.C36_pi",
    "Aitch.Props.C36_packages",
    "Aitch.Props.C36_attribute",
    "Aitch.Props.C36_newConcatValue",
    "Aitch.Props.C36_newValue",
    "Aitch.Props.C36_unique"
   ],
   "note": ""
  },
  {
   "property": "C37",
   "status": "partial",
   "theorems": [
    "Aitch.Props.C37_reads_back_partial",
    "Aitch.Props.C37_exact_partial",
    "Aitch.Props.C37_false"
   ],
   "note": "False in the code: texts in script, style and the like, and comments, are escaped although HTML readers do not decode there (C37_false). Proved: exactly what a reader gets for every tree (C37_reads_back_partial), and that it is what was meant when those places have nothing to escape (C37_exact_partial)."
  },
  {
   "property": "C38",
   "status": "proved",
   "theorems": [
    "Aitch.Props.C38_comment",
    "Aitch.Props.C38_reads"
   ],
   "note": ""
  },
  {
   "property": "C39",
   "status": "proved",
   "theorems": [
    "Aitch.Props.C39_document"
   ],
   "note": ""
  },
  {
   "property": "C40",
   "status": "proved",
   "theorems": [
    "Aitch.Props.C40_property",
    "Aitch.Props.C40_unit",
    "Aitch.Props.C40_units",
    "Aitch.Props.C40_joined",
    "Aitch.Props.C40_properties"
   ],
   "note": ""
  },
  {
   "property": "C41",
   "status": "partial",
   "theorems": [
    "Aitch.Props.C41_false",
    "Aitch.Props.C41_partial",
    "Aitch.Props.C41_full_partial",
    "Aitch.Props.C41_variadic_partial"
   ],
   "note": "False in the code: append(value, unit) writes into spare capacity (C41_false). Proved: only the element after the arguments can change, and nothing changes without spare capacity, in particular for arguments given one by one."
  },
  {
   "property": "C42",
   "status": "proved",
   "theorems": [
    "Aitch.Props.C42_headers",
    "Aitch.Props.C42_headersJS",
    "Aitch.Props.C42_order",
    "Aitch.Props.C42_panic",
    "Aitch.Props.C42_plain"
   ],
   "note": ""
  },
  {
   "property": "C43",
   "status": "proved",
   "theorems": [
    "Aitch.Props.C43_object",
    "Aitch.Props.C43_headers",
    "Aitch.Props.C43_headersJS"
   ],
   "note": ""
  },
  {
   "property": "C44",
   "status": "proved",
   "theorems": [
    "Aitch.Props.C44_names",
    "Aitch.Props.C44_spare"
   ],
   "note": ""
  },
  {
   "property": "C45",
   "status": "proved",
   "theorems": [
    "Aitch.Props.C45_literal",
    "Aitch.Props.C45_text",
    "Aitch.Props.C45_comment",
    "Aitch.Props.C45_doctype",
    "Aitch.Props.C45_attribute"
   ],
   "note": ""
  },
  {
   "property": "C46",
   "status": "partial",
   "theorems": [
    "Aitch.Props.C46_generates",
    "Aitch.Props.C46_exact_partial",
    "Aitch.Props.C46_document",
    "Aitch.Props.C46_end_names",
    "Aitch.Props.C46_false",
    "Aitch.Props.C46_balanced_partial",
    "Aitch.Props.C46_indentation_partial"
   ],
   "note": "False in the code: void start tags such as <br> open a parenthesis that nothing closes (C46_false). Exact for all token streams whose names have no quotes (C46_exact_partial): balanced iff there are as many end tags as start tags and never more than one too many; for documents iff every start tag has its end tag (C46_document)."
  },
  {
   "property": "C47",
   "status": "partial",
   "theorems": [
    "Aitch.Props.C47_false",
    "Aitch.Props.C47_element_partial",
    "Aitch.Props.C47_ascii",
    "Aitch.Props.C47_attribute_partial",
    "Aitch.Props.C47_aria",
    "Aitch.Props.C47_capitals_element",
    "Aitch.Props.C47_capitals_attribute"
   ],
   "note": "False in the code for names with the Kelvin sign or U+0130 (C47_false) and for aria-/data- (C47_aria). Proved up to strings.ToLower for all other names, elements and attributes, html and svg."
  },
  {
   "property": "C48",
   "status": "proved",
   "theorems": [
    "Aitch.Props.C48_run",
    "Aitch.Props.C48_context",
    "Aitch.Props.C48_stops",
    "Aitch.Props.C48_stops_text",
    "Aitch.Props.C48_output",
    "Aitch.Props.C48_ends",
    "Aitch.Props.C48_new",
    "Aitch.Props.C48_new_fails",
    "Aitch.Props.C48_must"
   ],
   "note": ""
  },
  {
   "property": "C49",
   "status": "proved",
   "theorems": [
    "Aitch.Props.C49_positive",
    "Aitch.Props.C49_other",
    "Aitch.Props.C49_length",
    "Aitch.Props.C49_renders",
    "Aitch.Props.C49_fresh"
   ],
   "note": ""
  },
  {
   "property": "C50",
   "status": "proved",
   "theorems": [
    "Aitch.Props.C50_alone",
    "Aitch.Props.C50_memory",
    "Aitch.Props.C50_finishes",
    "Aitch.Props.C50_ends",
    "Aitch.Props.C50_callbackFree",
    "Aitch.Props.C50_needed"
   ],
   "note": "Proved for nodes of all kinds, including ContentCollect and Imperative; user functions (also those in nodes supplied while rendering) leave shared memory alone, other code may change memory that the nodes do not use. C50_needed shows that the condition on functions is needed. Start must get every attribute name once: otherwise it appends to value slices that goroutines may share (C73). The model is sequentially consistent."
  },
  {
   "property": "C51",
   "status": "partial",
   "theorems": [
    "Aitch.Props.C51_false",
    "Aitch.Props.C51_track_false",
    "Aitch.Props.C51_void_partial",
    "Aitch.Props.C51_same_partial",
    "Aitch.Props.C51_name",
    "Aitch.Props.C51_distinct",
    "Aitch.Props.C51_svg_name",
    "Aitch.Props.C51_svg"
   ],
   "note": "False in the code: html.Track is not void (C51_track_false). Proved for every other function of the table."
  },
  {
   "property": "C52",
   "status": "proved",
   "theorems": [
    "Aitch.Props.C52_fixed",
    "Aitch.Props.C52_supplied",
    "Aitch.Props.C52_unique",
    "Aitch.Props.C52_needed"
   ],
   "note": ""
  },
  {
   "property": "C53",
   "status": "proved",
   "theorems": [
    "Aitch.Props.C53_renders",
    "Aitch.Props.C53_html",
    "Aitch.Props.C53_svg",
    "Aitch.Props.C53_htmx",
    "Aitch.Props.C53_distinct",
    "Aitch.Props.C53_same",
    "Aitch.Props.C53_delimited"
   ],
   "note": ""
  },
  {
   "property": "C54",
   "status": "partial",
   "theorems": [
    "Aitch.Props.C54_exact_partial",
    "Aitch.Props.C54_object_partial",
    "Aitch.Props.C54_quote_false",
    "Aitch.Props.C54_reference_false",
    "Aitch.Props.C54_false",
    "Aitch.Props.C54_partial"
   ],
   "note": "False in the code: single quotes end the string early and references are decoded (C54_*false). Proved: exactly which keys are read back (C54_exact_partial), and for whole header maps with such keys and values that are JavaScript literals, that an HTML reader followed by a JavaScript object reader finds exactly the merged members in alphabetical order (C54_object_partial)."
  },
  {
   "property": "C55",
   "status": "partial",
   "theorems": [
    "Aitch.Props.C55_false",
    "Aitch.Props.C55_sticky_partial",
    "Aitch.Props.C55_exact_partial",
    "Aitch.Props.C55_reader"
   ],
   "note": "False in the code: err is overwritten by later writes of the same step (C55_false). Proved: exactly which error is returned, for any writer (C55_exact_partial), and the claim for writers that stay failed."
  },
  {
   "property": "C56",
   "status": "partial",
   "theorems": [
    "Aitch.Props.C56_exact_partial",
    "Aitch.Props.C56_nested_partial",
    "Aitch.Props.C56_false",
    "Aitch.Props.C56_declares_partial",
    "Aitch.Props.C56_generates",
    "Aitch.Props.C56_unique",
    "Aitch.Props.C56_injective"
   ],
   "note": "False in the code for names with quotes, backslashes or line ends (C56_false). For all other token streams C56_exact_partial says exactly when the output is valid Go, and C56_nested_partial what it declares; C56_declares_partial is the case of well nested inputs."
  },
  {
   "property": "C57",
   "status": "partial",
   "theorems": [
    "Aitch.Props.C57_renders_partial",
    "Aitch.Props.C57_doctype",
    "Aitch.Props.C57_false"
   ],
   "note": "False in the code: values of boolean attributes are dropped (C57_false). Proved: exactly what is rendered for every well nested document with usable names (htmlAll). C57_doctype: html keeps doctypes, svg drops them."
  },
  {
   "property": "C58",
   "status": "proved",
   "theorems": [
    "Aitch.Props.C58_well_formed",
    "Aitch.Props.C58_no_injection"
   ],
   "note": "Hypotheses: valid names, no plaintext element, only text in elements like script and title, user functions return escaped bytes, Imperative functions end what they start."
  },
  {
   "property": "C59",
   "status": "proved",
   "theorems": [
    "Aitch.Props.C59_relevant",
    "Aitch.Props.C59_put",
    "Aitch.Props.C59_static",
    "Aitch.Props.C59_writes"
   ],
   "note": "SameUnder says what two contexts must share; HeedsOnly asks the same of user functions. C59_put is the case of one map update, C59_writes speaks of calls of Render. ContentCollect and Imperative are left out since their nodes are not fixed by the template."
  },
  {
   "property": "C60",
   "status": "partial",
   "theorems": [
    "Aitch.Props.C60_effects_partial",
    "Aitch.Props.C60_effects_apart_partial",
    "Aitch.Props.C60_partial",
    "Aitch.Props.C60_apart_partial",
    "Aitch.Props.C60_false"
   ],
   "note": "C60_false: a conditional that writes nothing changes the conditions of an attribute next to it, three levels deep. C60_partial: proved when neither part is a conditional or a collection holding one, for every way of building a template around them. C60_apart_partial: proved for all parts, also ones that bring (the same) attributes, in templates in which no two conditionals share a slot (for instance up to three levels of conditionals)."
  },
  {
   "property": "C61",
   "status": "proved",
   "theorems": [
    "Aitch.Props.C61_calls",
    "Aitch.Props.C61_nil",
    "Aitch.Props.C61_exactly"
   ],
   "note": "CallSays gives the piece of each call from the calls before it. C61_exactly: without WriteNodes the output is unique."
  },
  {
   "property": "C62",
   "status": "proved",
   "theorems": [
    "Aitch.Props.C62_collect",
    "Aitch.Props.C62_nil",
    "Aitch.Props.C62_collection"
   ],
   "note": ""
  },
  {
   "property": "C63",
   "status": "partial",
   "theorems": [
    "Aitch.Props.C63_false",
    "Aitch.Props.C63_panics",
    "Aitch.Props.C63_values_partial",
    "Aitch.Props.C63_collection_partial",
    "Aitch.Props.C63_void_partial",
    "Aitch.Props.C63_element_partial",
    "Aitch.Props.C63_collect_partial",
    "Aitch.Props.C63_imperative_partial",
    "Aitch.Props.C63_document_partial"
   ],
   "note": "C63_false: conditionals and iterations panic on nil nodes, C63_panics says exactly when. Proved for all other constructors and for nodes returned by user functions; a Document needs another head argument to stay."
  },
  {
   "property": "C64",
   "status": "proved",
   "theorems": [
    "Aitch.Props.C64_structure",
    "Aitch.Props.C64_count"
   ],
   "note": "SameShapes relates data with equal keys, flags, list lengths; user functions must map related contexts to related results (ShapeFns)."
  },
  {
   "property": "C65",
   "status": "proved",
   "theorems": [
    "Aitch.Props.C65_joined",
    "Aitch.Props.C65_strings",
    "Aitch.Props.C65_vars"
   ],
   "note": "C65_strings and C65_vars give the exact text for string arguments and for htmx variables."
  },
  {
   "property": "C66",
   "status": "partial",
   "theorems": [
    "Aitch.Props.C66_declarations_partial",
    "Aitch.Props.C66_simple_partial",
    "Aitch.Props.C66_false"
   ],
   "note": "C66_false: the value red;top:0 brings in a declaration. Proved for values that stay within a declaration (Css.Contained): strings, brackets, URLs closed, no semicolon outside of them."
  },
  {
   "property": "C67",
   "status": "proved",
   "theorems": [
    "Aitch.Props.C67_css",
    "Aitch.Props.C67_important",
    "Aitch.Props.C67_keywords",
    "Aitch.Props.C67_properties",
    "Aitch.Props.C67_words",
    "Aitch.Props.C67_attributes",
    "Aitch.Props.C67_events",
    "Aitch.Props.C67_all_events",
    "Aitch.Props.C67_written",
    "Aitch.Props.C67_distinct"
   ],
   "note": "The tables of constants are generated from the source text."
  },
  {
   "property": "C68",
   "status": "proved",
   "theorems": [
    "Aitch.Props.C68_order",
    "Aitch.Props.C68_exact",
    "Aitch.Props.C68_fixed",
    "Aitch.Props.C68_computing",
    "Aitch.Props.C68_calls",
    "Aitch.Props.C68_numbered",
    "Aitch.Props.C68_readme",
    "Aitch.Props.C68_separated"
   ],
   "note": "Plays is the document-order reading; C68_order: every render is explained by it; C68_exact: and it allows nothing that no render does (in output and memory); C68_computing: for functions that only compute it is exactly what renders can write. Functions that report errors are in C21-C24. C68_separated: what an IterateYield function writes itself stands where it writes it."
  },
  {
   "property": "C69",
   "status": "proved",
   "theorems": [
    "Aitch.Props.C69_collection",
    "Aitch.Props.C69_conditional_split",
    "Aitch.Props.C69_when_split",
    "Aitch.Props.C69_conditional_swap",
    "Aitch.Props.C69_conditional_twice",
    "Aitch.Props.C69_when_either",
    "Aitch.Props.C69_iterate",
    "Aitch.Props.C69_iterateKey",
    "Aitch.Props.C69_iterateYield",
    "Aitch.Props.C69_text"
   ],
   "note": "One theorem per law. C60_apart_partial carries a law to any place in a template (see the last example of Props/Laws)."
  },
  {
   "property": "C70",
   "status": "proved",
   "theorems": [
    "Aitch.Props.C70_escape",
    "Aitch.Props.C70_writes",
    "Aitch.Props.C70_page",
    "Aitch.Props.C70_class",
    "Aitch.Props.C70_ascii",
    "Aitch.Props.C70_constructors"
   ],
   "note": "Utf8 is defined by Lean's own character encoding. C70_class is the general form; strings need not be valid UTF-8 in Go, hence the hypothesis."
  },
  {
   "property": "C71",
   "status": "proved",
   "theorems": [
    "Aitch.Props.C71_newElement",
    "Aitch.Props.C71_element",
    "Aitch.Props.C71_attribute",
    "Aitch.Props.C71_others",
    "Aitch.Props.C71_kinds",
    "Aitch.Props.C71_exported",
    "Aitch.Props.C71_inner",
    "Aitch.Props.C71_tag",
    "Aitch.Props.C71_attr"
   ],
   "note": "A processing instruction named iterator has the same Name() as an Iterate node, hence the exception."
  },
  {
   "property": "C72",
   "status": "proved",
   "theorems": [
    "Aitch.Props.C72_same",
    "Aitch.Props.C72_memory",
    "Aitch.Props.C72_every"
   ],
   "note": "Attributes for which Start and elements differ are those of C26_false."
  },
  {
   "property": "C73",
   "status": "partial",
   "theorems": [
    "Aitch.Props.C73_constructor",
    "Aitch.Props.C73_collect",
    "Aitch.Props.C73_kept",
    "Aitch.Props.C73_false",
    "Aitch.Props.C73_overlap_partial"
   ],
   "note": "C73_false: a plain attribute made with a nil argument shared by two Start calls. C73_overlap_partial: two calls disturb each other only if both append to the values of the same plain attribute (both are given a delimited attribute of its name) and these have spare capacity."
  },
  {
   "property": "C74",
   "status": "partial",
   "theorems": [
    "Aitch.Props.C74_false",
    "Aitch.Props.C74_boolean_partial",
    "Aitch.Props.C74_others",
    "Aitch.Props.C74_spellcheck"
   ],
   "note": "C74_false: Spellcheck. C74_boolean_partial names the three exceptions exactly."
  },
  {
   "property": "C75",
   "status": "partial",
   "theorems": [
    "Aitch.Props.C75_false",
    "Aitch.Props.C75_page_partial",
    "Aitch.Props.C75_code",
    "Aitch.Props.C75_node_partial"
   ],
   "note": "C75_false: <br>. C75_page_partial and C75_node_partial are for trees in which nothing is lost on the way (StayAll); C75_code: there is code for every such page."
  },
  {
   "property": "C76",
   "status": "partial",
   "theorems": [
    "Aitch.Props.C76_exact_partial",
    "Aitch.Props.C76_false"
   ],
   "note": "C76_false: a conditional attribute (or any node that is no attribute) inside a tag is followed by html/template's marker ZgotmplZ, because contextFunc returns template.HTML for it. C76_exact_partial says what is written at every place; C48_output is the case in which nothing is left behind. The behaviour of html/template's escapers on the empty string is part of the model, its parser is not (an action comes with its place)."
  },
  {
   "property": "C77",
   "status": "partial",
   "theorems": [
    "Aitch.Props.C77_false",
    "Aitch.Props.C77_returned_partial",
    "Aitch.Props.C77_exact_partial",
    "Aitch.Props.C77_first_partial"
   ],
   "note": "The claim is false: values are written although Context.Error is set, and overwrite it (C77_false: a writer with another error each time). Proved: no error is made up, with any writer (C77_returned_partial); with a writer that keeps returning its first error, Context.Error and the returned error are that error (C77_first_partial); with any writer and functions that leave Context.Error alone, they are the error of the last write (C77_exact_partial)."
  },
  {
   "property": "C78",
   "status": "proved",
   "theorems": [
    "Aitch.Props.C78_alone",
    "Aitch.Props.C78_memory",
    "Aitch.Props.C78_finishes"
   ],
   "note": "The steps of html/template itself are modelled as writes of the text parts; its one-time escaping under a lock is not modelled."
  },
  {
   "property": "C79",
   "status": "proved",
   "theorems": [
    "Aitch.Props.C79_collection",
    "Aitch.Props.C79_conditional",
    "Aitch.Props.C79_when",
    "Aitch.Props.C79_iterate",
    "Aitch.Props.C79_iterateKey",
    "Aitch.Props.C79_iterateYield",
    "Aitch.Props.C79_text",
    "Aitch.Props.C79_once"
   ],
   "note": "SameEffect compares what renders can write and leave in memory (C68_exact makes it a statement about Plays). C79_once: the laws of C69 that ask a condition twice do not extend to side effects. With C60_effects_partial one side can replace the other inside templates."
  },
  {
   "property": "C80",
   "status": "proved",
   "theorems": [
    "Aitch.Props.C80_returns",
    "Aitch.Props.C80_ends",
    "Aitch.Props.C80_prefix",
    "Aitch.Props.C80_memory",
    "Aitch.Props.C80_again",
    "Aitch.Props.C80_context",
    "Aitch.Props.C80_execute_error",
    "Aitch.Props.C80_execute_returns",
    "Aitch.Props.C80_execute_prefix"
   ],
   "note": "No code in /repo defers or recovers, so a panic is the end of the program that Render is; a panicking function may leave any state behind. text/template's safeCall (which recovers) is modelled. Not modelled: user functions that recover from panics of nodes they render themselves."
  },
  {
   "property": "C81",
   "status": "partial",
   "theorems": [
    "Aitch.Props.C81_false",
    "Aitch.Props.C81_mute_partial",
    "Aitch.Props.C81_shows_partial",
    "Aitch.Props.C81_exact_partial",
    "Aitch.Props.C81_silent_partial",
    "Aitch.Props.C81_kept_partial"
   ],
   "note": "False (C81_false): values write without a look at the context's error and then replace it, so that `<p id=\"a\">b</p>` rendered in a failed context writes `a\">b</p>` and clears the error. Proved: what happens instead, exactly, for every node with computing functions (C81_silent_partial: which renders make no call of the writer, what they return and leave behind; C81_kept_partial: they keep the error or clear it). Simpler for trees without conditional attributes, collectors and imperative parts (C81_exact_partial)."
  },
  {
   "property": "C82",
   "status": "partial",
   "theorems": [
    "Aitch.Props.C82_false",
    "Aitch.Props.C82_exact",
    "Aitch.Props.C82_partial",
    "Aitch.Props.C82_must"
   ],
   "note": "C82_false: the name my-node. C82_exact says exactly when it panics; C48_new and C48_new_fails say what it returns otherwise. html/template's check of the names is part of the model (characters that are not ASCII count as letters)."
  },
  {
   "property": "C83",
   "status": "partial",
   "theorems": [
    "Aitch.Props.C83_false",
    "Aitch.Props.C83_exact_partial",
    "Aitch.Props.C83_unchanged_partial",
    "Aitch.Props.C83_names",
    "Aitch.Props.C83_names_copied",
    "Aitch.Props.C83_imperative",
    "Aitch.Props.C83_imperative_false",
    "Aitch.Props.C83_imperative_partial"
   ],
   "note": "C83_false: a buffer given to Text and used again. C83_exact_partial says what is shown instead (the contents at the time of rendering, as if all calls were made then) if attribute names are left alone; C83_unchanged_partial is the claim for programs that leave slices alone once given away. C83_names: an attribute name changed in between appears twice in a tag. C83_imperative_false and C83_imperative_partial for the names given to Start. Not covered: slices changed while a rendering runs (other than by an imperative function), slices kept by nodes that user functions build during rendering."
  },
  {
   "property": "C84",
   "status": "proved",
   "theorems": [
    "Aitch.Props.C84_once",
    "Aitch.Props.C84_only",
    "Aitch.Props.C84_order",
    "Aitch.Props.C84_ends",
    "Aitch.Props.C84_valid",
    "Aitch.Props.C84_invalid",
    "Aitch.Props.C84_value",
    "Aitch.Props.C84_text"
   ],
   "note": "The functions are assumed not to change delimited attributes that exist already. Values in the data (Context.Data, Cargo) are asked when rendered; there a func() any is modelled as the value it returns."
  },
  {
   "property": "C85",
   "status": "partial",
   "theorems": [
    "Aitch.Props.C85_reads_partial",
    "Aitch.Props.C85_exact_partial",
    "Aitch.Props.C85_false",
    "Aitch.Props.C85_template",
    "Aitch.Props.C85_no_injection"
   ],
   "note": "False as stated: the code writes a carriage return as it is (not as &#13;), and browsers normalise newlines; C85_false."
  },
  {
   "property": "C86",
   "status": "proved",
   "theorems": [
    "Aitch.Props.C86_component",
    "Aitch.Props.C86_exchange",
    "Aitch.Props.C86_exchange_apart",
    "Aitch.Props.C86_anywhere",
    "Aitch.Props.C86_writer",
    "Aitch.Props.C86_attributes"
   ],
   "note": "C86_attributes shows that the condition on attributes is needed."
  },
  {
   "property": "C87",
   "status": "partial",
   "theorems": [
    "Aitch.Props.C87_first_spelling_partial",
    "Aitch.Props.C87_partial",
    "Aitch.Props.C87_false"
   ],
   "note": "False as stated: attributes are merged by exact name while HTML attribute names are case-insensitive; C87_false (id=a, ID=b reads as a). C87_first_spelling_partial says exactly what is read."
  },
  {
   "property": "C88",
   "status": "partial",
   "theorems": [
    "Aitch.Props.C88_partial",
    "Aitch.Props.C88_other_case_partial",
    "Aitch.Props.C88_false"
   ],
   "note": "False as stated: voidElementNames is looked up with the exact name; C88_false. C88_other_case_partial says what is read instead."
  },
  {
   "property": "C89",
   "status": "partial",
   "theorems": [
    "Aitch.Props.C89_false",
    "Aitch.Props.C89_partial",
    "Aitch.Props.C89_any",
    "Aitch.Props.C89_start",
    "Aitch.Props.C89_dropped",
    "Aitch.Props.C89_any_element",
    "Aitch.Props.C89_any_void",
    "Aitch.Props.C89_once",
    "Aitch.Props.C89_outside",
    "Aitch.Props.C89_any_when",
    "Aitch.Props.C89_any_when_void",
    "Aitch.Props.C89_three",
    "Aitch.Props.C89_apart_needed"
   ],
   "note": "False as stated: C89_false. C89_partial is the exchange under the stated condition; C89_any, C89_any_void and C89_any_element for arbitrary Render methods without conditionals, C89_any_when and C89_any_when_void with conditionals (in others too, unless they share the memory for their conditions, as in C17: C89_three, C89_apart_needed); C89_once: what the tag in C89_any_when does is exactly one call for every name; C89_outside: no call where there is no tag; C89_dropped: what is lost in C89_false is lost in every such element; C89_start for Start."
  },
  {
   "property": "C90",
   "status": "partial",
   "theorems": [
    "Aitch.Props.C90_exact",
    "Aitch.Props.C90_reads_partial",
    "Aitch.Props.C90_meant_partial",
    "Aitch.Props.C90_false",
    "Aitch.Props.C90_template",
    "Aitch.Props.C90_no_injection",
    "Aitch.Props.C90_characters",
    "Aitch.Props.C90_page",
    "Aitch.Props.C90_svg"
   ],
   "note": "False as stated: white space in attribute values, line ends and comments (C90_false). Proved: exactly when a tree is written as well-formed XML (C90_exact), what a reader gets from it (C90_reads_partial), exactly when that is what was meant (C90_meant_partial); well-formedness and names of whole templates with conditions, iterations, dynamic contents and Imperative functions (C90_template, C90_no_injection, C90_characters, C90_page)."
  },
  {
   "property": "C91",
   "status": "proved",
   "theorems": [
    "Aitch.Props.C91_once",
    "Aitch.Props.C91_nothing",
    "Aitch.Props.C91_after_error",
    "Aitch.Props.C91_output",
    "Aitch.Props.C91_value",
    "Aitch.Props.C91_fallback",
    "Aitch.Props.C91_cached",
    "Aitch.Props.C91_parent"
   ],
   "note": "C91_once: one call with everything; C91_nothing: after a failure nothing; C91_after_error; C91_output: the bytes are among those the node can write there; C91_fallback: with another node to fall back on; C91_value: a buffer as a dynamic value; C91_cached: keeping the bytes; C91_parent: functions that look at ctx.Parent do make a difference. Simplification: the map orders of the inner rendering are given by its own environment."
  },
  {
   "property": "C92",
   "status": "partial",
   "theorems": [
    "Aitch.Props.C92_attributes",
    "Aitch.Props.C92_strings",
    "Aitch.Props.C92_headers_partial",
    "Aitch.Props.C92_headers_false",
    "Aitch.Props.C92_scripts_partial",
    "Aitch.Props.C92_scripts_false"
   ],
   "note": "Proved for attributes (C92_attributes, C92_strings). False for header maps (C92_headers_false: their keys are in single quotes; C92_headers_partial: it is JSON only if all maps are empty) and for scripts (C92_scripts_false: texts are escaped there although nothing decodes them; C92_scripts_partial says exactly when what is read is JSON). The theorems on maps and scripts are about the tokens before line ends are normalised."
  },
  {
   "property": "C93",
   "status": "partial",
   "theorems": [
    "Aitch.Props.C93_schemes_partial",
    "Aitch.Props.C93_local_partial",
    "Aitch.Props.C93_fixed_partial",
    "Aitch.Props.C93_scheme_exact",
    "Aitch.Props.C93_local_exact",
    "Aitch.Props.C93_false"
   ],
   "note": "The claim without conditions on the first value is false in the code (C93_false): a link that consists of data has the scheme of the data, which is what an unchecked href=... of user input leads to. C93_schemes_partial and C93_local_partial are the exact part: C93_scheme_exact and C93_local_exact show that nothing weaker than settlesScheme/settlesSite would do. C93_fixed_partial is the general form."
  },
  {
   "property": "C94",
   "status": "partial",
   "theorems": [
    "Aitch.Props.C94_element_partial",
    "Aitch.Props.C94_element_unknown",
    "Aitch.Props.C94_attribute_partial",
    "Aitch.Props.C94_attribute_unknown",
    "Aitch.Props.C94_others",
    "Aitch.Props.C94_false"
   ],
   "note": "False in the code (C94_false): <ruby> becomes aitch.Element(\"ruby\", ...). C94_element_partial and C94_attribute_partial hold for the names that are Known, and C94_element_unknown and C94_attribute_unknown show that all the others are passed on, so the list of exceptions is exact. C94_others: nothing but the names of functions is taken for one (aria- and data- excepted, see C47_aria)."
  },
  {
   "property": "C95",
   "status": "partial",
   "theorems": [
    "Aitch.Props.C95_dom_partial",
    "Aitch.Props.C95_received_partial",
    "Aitch.Props.C95_false"
   ],
   "note": "C95_claim is the property without the condition Page.fits; C95_false refutes it (a div in a p ends the p, and the end tag of p makes another one: NewElement does not know content models). C95_dom_partial proves it for every page whose elements may stand where they are, with Page.fits computable. C95_received_partial needs nothing of the strings: it says what becomes of line ends, of a line feed at the start of a pre, and of entities in comments and raw text elements. The reference tree builder (Spec/Dom) gives no answer where the standard needs the adoption agency, foster parenting, templates, select or foreign content; the theorem shows that fitting pages never get there. The whole sample page is run through the theorem in an example."
  },
  {
   "property": "C96",
   "status": "proved",
   "theorems": [
    "Aitch.Props.C96_not_rearranged",
    "Aitch.Props.C96_names"
   ],
   "note": "The condition that elements stand where the standard lets them (Stands, PageStands in Spec/Stands) is part of the property: it is a condition on the template alone, not on data, and C95_false shows a page without it. For an Imperative function it is asked of each call with the elements that are open then. C96_not_rearranged gives the DOM of the written tree, C96_names the names in it. The sample page has an iteration, a ContentCollect and an Imperative function."
  },
  {
   "property": "C97",
   "status": "partial",
   "theorems": [
    "Aitch.Props.C97_false",
    "Aitch.Props.C97_shows_partial",
    "Aitch.Props.C97_code",
    "Aitch.Props.C97_slash"
   ],
   "note": "False in general: the code for <br> does not compile (C97_false), and <div/>, which HTML reads as a start tag, becomes an element with an end tag (C97_slash). C97_shows_partial proves it for inputs that are well nested and have nothing that is lost: void elements written with a slash, boolean attributes without values, nothing to be escaped in comments, doctypes and raw text elements, no names that aitch refuses."
  },
  {
   "property": "C98",
   "status": "proved",
   "theorems": [
    "Aitch.Props.C98_words",
    "Aitch.Props.C98_words_element",
    "Aitch.Props.C98_in_force",
    "Aitch.Props.C98_classes",
    "Aitch.Props.C98_classes_void",
    "Aitch.Props.C98_names"
   ],
   "note": "C98_words and C98_words_element tell it for any attribute whose declarations are all delimited by spaces, beside any other ordinary attributes; C98_classes and C98_classes_void for calls of html.Class, C98_names for strings that are single class names, C98_in_force tells when a conditional call counts. The memory at rendering is that after the construction of the element."
  },
  {
   "property": "C99",
   "status": "proved",
   "theorems": [
    "Aitch.Props.C99_build",
    "Aitch.Props.C99_values",
    "Aitch.Props.C99_items",
    "Aitch.Props.C99_generator",
    "Aitch.Props.C99_render",
    "Aitch.Props.C99_runs",
    "Aitch.Props.C99_imperative"
   ],
   "note": "C99_render is the rendering of any node made by the API (PanicFree: what a panic would do does not matter); C99_runs says the same of renderings that return; C99_imperative of Start, End, EndAll; C99_build, C99_values, C99_items and C99_generator of the functions without effects. Only index and slice expressions: panics that the code raises on purpose and those of nil arguments are in C09, C42 and C63, panics of user code in C80."
  },
  {
   "property": "C100",
   "status": "proved",
   "theorems": [
    "Aitch.Props.C100_order",
    "Aitch.Props.C100_exact",
    "Aitch.Props.C100_determined",
    "Aitch.Props.C100_same",
    "Aitch.Props.C100_adds",
    "Aitch.Props.C100_place",
    "Aitch.Props.C100_inside",
    "Aitch.Props.C100_inside_runs"
   ],
   "note": "C100_order (soundness) and C100_exact (every reading of the document is some run) against the small separate reading in Spec/Stream; C100_place spells it out for a function among the contents of an element, C100_inside and C100_inside_runs for a function that renders a node, C100_determined and C100_adds hold for all functions. C100_same: with functions that do not write it is the rendering of all other properties. In passing C100_inside_runs shows that an error of a node rendered inside a dynamic value is lost."
  },
  {
   "property": "C101",
   "status": "partial",
   "theorems": [
    "Aitch.Props.C101_prefix",
    "Aitch.Props.C101_false",
    "Aitch.Props.C101_reported_partial",
    "Aitch.Props.C101_noted_partial",
    "Aitch.Props.C101_returned",
    "Aitch.Props.C101_first_partial"
   ],
   "note": "C101_prefix for all functions. C101_false: Iterate with a function that notes a failed write and returns no items. C101_reported_partial and C101_noted_partial: the claim when functions given to Iterate do not write (all others may write and render). C101_returned: with any writer, functions that bring no errors of their own: the error returned is one that the writer returned. C101_first_partial: with a writer that repeats its first error, it is the first."
  },
  {
   "property": "C102",
   "status": "proved",
   "theorems": [
    "Aitch.Props.C102_value",
    "Aitch.Props.C102_condition",
    "Aitch.Props.C102_collect",
    "Aitch.Props.C102_iterate_error",
    "Aitch.Props.C102_iterate",
    "Aitch.Props.C102_yield_error",
    "Aitch.Props.C102_yield",
    "Aitch.Props.C102_imperative"
   ],
   "note": "An exact description (if and only if) of the runs of each kind of node that calls a function: C102_value, C102_condition, C102_collect, C102_iterate, C102_yield, C102_imperative (functions that compute, write and render; what the methods of the imperative context write is C94 and others)."
  },
  {
   "property": "C103",
   "status": "proved",
   "theorems": [
    "Aitch.Props.C103_alone",
    "Aitch.Props.C103_memory",
    "Aitch.Props.C103_finishes",
    "Aitch.Props.C103_needed"
   ],
   "note": "C50 for functions that write and render: C103_alone, C103_memory, C103_finishes. C103_needed shows that the condition on the functions is needed, and that calls of functions do interleave in the model."
  },
  {
   "property": "C104",
   "status": "proved",
   "theorems": [
    "Aitch.Props.C104_ends",
    "Aitch.Props.C104_goroutines",
    "Aitch.Props.C104_needed"
   ],
   "note": "C52 for functions that write and render: C104_ends, C104_goroutines. C104_needed is the function that renders its own node."
  },
  {
   "property": "C105",
   "status": "proved",
   "theorems": [
    "Aitch.Props.C105_returns",
    "Aitch.Props.C105_ends",
    "Aitch.Props.C105_once",
    "Aitch.Props.C105_prefix",
    "Aitch.Props.C105_memory",
    "Aitch.Props.C105_again",
    "Aitch.Props.C105_context"
   ],
   "note": "C80 for functions that write and render: C105_returns, C105_ends, C105_once, C105_prefix, C105_memory, C105_again, C105_context. Functions that recover from the panic of a node they render are not modelled."
  },
  {
   "property": "C106",
   "status": "proved",
   "theorems": [
    "Aitch.Props.C106_keeps",
    "Aitch.Props.C106_panics",
    "Aitch.Props.C106_iterate",
    "Aitch.Props.C106_iterateKey",
    "Aitch.Props.C106_iterateYield",
    "Aitch.Props.C106_needed"
   ],
   "note": "C28 for functions that write and render: C106_keeps, C106_panics (the stronger form of C105_context), C106_iterate, C106_iterateKey, C106_iterateYield. C106_needed: a function that changes its context outside of iterations."
  },
  {
   "property": "C107",
   "status": "proved",
   "theorems": [
    "Aitch.Props.C107_run",
    "Aitch.Props.C107_stops",
    "Aitch.Props.C107_stops_text",
    "Aitch.Props.C107_determined",
    "Aitch.Props.C107_same",
    "Aitch.Props.C107_output",
    "Aitch.Props.C107_ends",
    "Aitch.Props.C107_items",
    "Aitch.Props.C107_alone",
    "Aitch.Props.C107_memory",
    "Aitch.Props.C107_finishes",
    "Aitch.Props.C107_panic_error",
    "Aitch.Props.C107_panic_returns",
    "Aitch.Props.C107_panic_prefix"
   ],
   "note": "C48, C78 and the Execute part of C80 for functions that write and render: C107_run, C107_stops, C107_stops_text, C107_determined, C107_same (it extends C48), C107_output, C107_ends, C107_items, C107_alone, C107_memory, C107_finishes, C107_panic_error, C107_panic_returns, C107_panic_prefix."
  },
  {
   "property": "C108",
   "status": "proved",
   "theorems": [
    "Aitch.Props.C108_exchange",
    "Aitch.Props.C108_exchange_apart",
    "Aitch.Props.C108_agree",
    "Aitch.Props.C108_both",
    "Aitch.Props.C108_anywhere",
    "Aitch.Props.C108_template",
    "Aitch.Props.C108_component",
    "Aitch.Props.C108_stands",
    "Aitch.Props.C108_needed"
   ],
   "note": "C86 for functions that write and render, and for exchanges in the functions themselves: C108_exchange, C108_exchange_apart (nodes with the same attributes), C108_agree, C108_both, C108_anywhere, C108_template, C108_component, C108_stands; C108_needed: that the nodes behave the same in the new program is needed."
  },
  {
   "property": "C109",
   "status": "proved",
   "theorems": [
    "Aitch.Props.C109_class",
    "Aitch.Props.C109_writes",
    "Aitch.Props.C109_page",
    "Aitch.Props.C109_ascii",
    "Aitch.Props.C109_template",
    "Aitch.Props.C109_needed"
   ],
   "note": "C70 for functions that write and render: C109_class, C109_writes, C109_page, C109_ascii, C109_template; C109_needed: the condition on what functions write is needed."
  },
  {
   "property": "C110",
   "status": "proved",
   "theorems": [
    "Aitch.Props.C110_well_formed",
    "Aitch.Props.C110_reads",
    "Aitch.Props.C110_no_injection",
    "Aitch.Props.C110_needed",
    "Aitch.Props.C110_template",
    "Aitch.Props.C110_template_reads",
    "Aitch.Props.C110_template_needed",
    "Aitch.Props.C110_constructors",
    "Aitch.Props.C110_mixed_conditions"
   ],
   "note": "C58 for functions that write and render: C110_well_formed, C110_reads, C110_no_injection; C110_needed: a function that may stand among elements must not stand in a tag. C110_constructors: which calls of constructors return templates that meet the hypotheses; C110_mixed_conditions: why it has to look at all conditions (see C17). C110_template, C110_template_reads: the same for html/template templates with nodes among elements, in elements like title and in quoted attribute values; C110_template_needed: not in unquoted ones."
  }
 ]
}