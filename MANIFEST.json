{
 "claims": [
  {
   "property": "C01",
   "status": "proved",
   "theorems": [
    "Verif.C01.visible_lines",
    "Verif.C01.conditional_lines",
    "Verif.C01.surplus_endif",
    "Verif.C01.finding_declaration_in_disabled_region_takes_effect",
    "Verif.C01.finding_include_in_disabled_region_is_resolved"
   ],
   "note": "Findings: attribute declarations and includes inside a false region are still processed (their lines are not output)."
  },
  {
   "property": "C02",
   "status": "proved",
   "theorems": [
    "Verif.C02.identity",
    "Verif.C02.identity_crlf",
    "Verif.C02.finding_long_line_truncates"
   ],
   "note": "For lines within bufio.Scanner's 64KiB token limit; beyond it the property is false (finding_long_line_truncates)."
  },
  {
   "property": "C03",
   "status": "proved",
   "theorems": [
    "Verif.C03.lines_selected",
    "Verif.C03.line_selected_iff",
    "Verif.C03.written_order_irrelevant",
    "Verif.C03.all_lines",
    "Verif.C03.hasTag_iff",
    "Verif.C39.include_lines",
    "Verif.C03.finding_minus_one_selects_everything"
   ],
   "note": "For every sorted permutation the Go sort may produce."
  },
  {
   "property": "C04",
   "status": "partial",
   "theorems": [
    "Verif.C04.tags_selected",
    "Verif.C04.order_irrelevant",
    "Verif.C04.finding_negated_double_star_selects",
    "Verif.C04.finding_stray_end_panics"
   ],
   "note": "Proved for selectors other than `!**`; the property is false for `!**` (selects everything) and a stray end:: panics instead of being reported (findings)."
  },
  {
   "property": "C05",
   "status": "proved",
   "theorems": [
    "Verif.C05.relative_offsets",
    "Verif.C05.absolute_offset",
    "Verif.C05.shifted_file",
    "Verif.C05.finding_negative_level_panics"
   ],
   "note": "For headings whose shifted level stays >= -1; below that the code panics (finding)."
  },
  {
   "property": "C06",
   "status": "proved",
   "theorems": [
    "Verif.C06.get_after_history",
    "Verif.C06.all_agrees_with_get",
    "Verif.C06.api_value_is_immutable"
   ],
   "note": ""
  },
  {
   "property": "C07",
   "status": "proved",
   "theorems": [
    "Verif.C07.terminates",
    "Verif.C07.depth_independent",
    "Verif.C07.cycle_diverges"
   ],
   "note": "The include graph is the static over-approximation that ranges over all attribute values in paths."
  },
  {
   "property": "C08",
   "status": "partial",
   "theorems": [
    "Verif.C08.isolation",
    "Verif.C08.offsets_kept",
    "Verif.C08.finding_absolute_offset_leaks"
   ],
   "note": "Proved when only relative level offsets are in force; false with a pending absolute offset, whose cell is shared with nested files (finding)."
  },
  {
   "property": "C09",
   "status": "partial",
   "theorems": [
    "Verif.C09.restored",
    "Verif.C09.completes",
    "Verif.C09.absolute_paths_any_schedule",
    "Verif.C09.finding_relative_lookup_is_racy",
    "Verif.C09.finding_directory_not_restored_when_concurrent"
   ],
   "note": "Sequential part and concurrent lookups with absolute names proved; concurrent relative lookups and concurrent restoration are false (findings)."
  },
  {
   "property": "C35",
   "status": "partial",
   "theorems": [
    "Verif.C35.cmp_iff",
    "Verif.C35.ifeval_iff",
    "Verif.C35.ifeval_parsed_partial",
    "Verif.C35.finding_le_ge_never_parsed",
    "Verif.C35.finding_le_ge_line_rejected",
    "Verif.C35.finding_document_attributes_never_compare_to_numbers"
   ],
   "note": "Evaluation proved for the six operators; the grammar makes `<=` and `>=` unusable (findings)."
  },
  {
   "property": "C39",
   "status": "proved",
   "theorems": [
    "Verif.C39.line_ranges_iff",
    "Verif.C39.tag_ranges_iff",
    "Verif.C39.line_ranges_round_trip",
    "Verif.C39.tag_ranges_round_trip"
   ],
   "note": ""
  },
  {
   "property": "C36",
   "status": "proved",
   "theorems": [
    "Verif.C06.ifdef_iff"
   ],
   "note": ""
  },
  {
   "property": "C37",
   "status": "partial",
   "theorems": [
    "Verif.C37.heading_recognised_iff",
    "Verif.C37.within_follows_tracker",
    "Verif.C37.finding_delimiter_in_listing_breaks_tracking",
    "Verif.C37.finding_literal_closes_listing",
    "Verif.C08.finding_inherited_block_state_is_lost"
   ],
   "note": "True for properly nested delimiters; false inside verbatim blocks (findings)."
  },
  {
   "property": "C10",
   "status": "proved",
   "theorems": [
    "Verif.C10.result_is_sequential",
    "Verif.C10.delivered_in_order",
    "Verif.C10.no_deadlock",
    "Verif.C10.always_terminates",
    "Verif.C10.drained",
    "Verif.C10.maximal_run",
    "Verif.C10.channels_bounded",
    "Verif.C10.no_leak_when_guarded",
    "Verif.C10.finding_parser_goroutine_leaks"
   ],
   "note": "For every schedule, number of stages, channel capacity and input. Finding: the parser stage's unguarded error send may leave a goroutine blocked for ever after an aggregation error."
  },
  {
   "property": "C11",
   "status": "partial",
   "theorems": [
    "Verif.C11.error_fragments_ignored",
    "Verif.C11.failed_fragment_dropped",
    "Verif.C11.finding_failed_fragment_leaves_state"
   ],
   "note": "Proved for stateless stages before the failure and all stages after it; false for the substitution stage whose attributes/counters survive a failure (finding)."
  },
  {
   "property": "C12",
   "status": "proved",
   "theorems": [
    "Verif.C12.content_preserved",
    "Verif.C12.document_tree"
   ],
   "note": ""
  },
  {
   "property": "C13",
   "status": "proved",
   "theorems": [
    "Verif.C12.document_tree",
    "Verif.C12.child_level_greater"
   ],
   "note": ""
  },
  {
   "property": "C16",
   "status": "partial",
   "theorems": [
    "Verif.C16.entries",
    "Verif.C16.nesting",
    "Verif.C16.finding_gap_nests_shallower_below_deeper",
    "Verif.C16.finding_first_section_deeper"
   ],
   "note": "Entries proved for all documents; nesting proved for documents without level gaps, and false otherwise (findings)."
  },
  {
   "property": "C17",
   "status": "proved",
   "theorems": [
    "Verif.C17.preamble_inserted_iff",
    "Verif.C17.content_preserved",
    "Verif.C17.no_header_no_preamble",
    "Verif.C17.finding_declaration_before_title_hides_header",
    "Verif.C17.finding_blank_line_before_header_loses_content"
   ],
   "note": ""
  },
  {
   "property": "C14",
   "status": "proved",
   "theorems": [
    "Verif.C14.terminates",
    "Verif.C14.first_free",
    "Verif.C14.unique_ids",
    "Verif.C14.found",
    "Verif.C14.elements_kept",
    "Verif.C14.section_resolved",
    "Verif.C14.toc_of_document",
    "Verif.C14.finding_empty_ids_collide",
    "Verif.C14.finding_block_takes_over"
   ],
   "note": "For non-empty identifiers; with an empty idprefix a title without letters gets the empty identifier (finding); a later block with the same explicit id takes it over (finding)."
  },
  {
   "property": "C15",
   "status": "proved",
   "theorems": [
    "Verif.C15.safe_characters",
    "Verif.C15.plain_title",
    "Verif.C15.finding_leading_separator",
    "Verif.C15.finding_trailing_separators"
   ],
   "note": "Characters for all titles; exact text for plain titles (separator without letters/digits). Findings for the position of separators."
  },
  {
   "property": "C38",
   "status": "partial",
   "theorems": [
    "Verif.C38.by_id",
    "Verif.C38.by_title",
    "Verif.C38.label_given",
    "Verif.C38.unknown_target",
    "Verif.C38.finding_one_word_title_not_found",
    "Verif.C38.finding_attributes_at_end_of_document",
    "Verif.C38.finding_formatted_label_ignored"
   ],
   "note": "Titles of at least two words with unchanged idprefix/idseparator; false for one-word titles (finding)."
  },
  {
   "property": "C18",
   "status": "partial",
   "theorems": [
    "Verif.C18.footnotes_collected",
    "Verif.C18.numbered_consecutively",
    "Verif.C18.references_resolve",
    "Verif.C18.all_replaced",
    "Verif.C18.finding_footnote_in_block_not_collected",
    "Verif.C18.finding_empty_footnote_refers_to_first_anonymous"
   ],
   "note": "Proved for the containers the collection visits; footnotes inside other containers are not collected and rendering fails (finding)."
  },
  {
   "property": "C19",
   "status": "proved",
   "theorems": [
    "Verif.C19.arranged",
    "Verif.C19.outline_inj",
    "Verif.C19.order_kept",
    "Verif.C19.homogeneous",
    "Verif.C19.single_root",
    "Verif.C19.kinds_kept",
    "Verif.C19.succeeds",
    "Verif.C19.fails_on_deep_continuation",
    "Verif.C19.finding_siblings_nested",
    "Verif.C19.finding_continuation_loses_list",
    "Verif.C19.finding_list_in_attached_block"
   ],
   "note": "Attributes of list elements are not modelled."
  },
  {
   "property": "C20",
   "status": "proved",
   "theorems": [
    "Verif.C20.nothing_unwanted_remains",
    "Verif.C20.everything_else_remains",
    "Verif.C20.clean_unchanged",
    "Verif.C20.idempotent"
   ],
   "note": "For trees as the grammar builds them (no comments in header and footer cells of tables, which filtering does not visit)."
  },
  {
   "property": "C21",
   "status": "partial",
   "theorems": [
    "Verif.C21.merge_go",
    "Verif.C21.merged_plain",
    "Verif.C21.merged_content",
    "Verif.C21.merged_content_exact",
    "Verif.C21.merged_content_flat",
    "Verif.C21.merged_flat",
    "Verif.C21.merged_slice",
    "Verif.C21.merged_twice",
    "Verif.C21.reduced_text",
    "Verif.C21.reduced_content",
    "Verif.C21.finding_text_after_slice_not_merged",
    "Verif.C21.finding_spaces_lost",
    "Verif.C21.merge_same",
    "Verif.C21.merged_any",
    "Verif.C21.merged_any_dash"
   ],
   "note": "Content for all sequences; absence of adjacent strings for flat sequences and single slices. In full the claim is false: findings."
  },
  {
   "property": "C41",
   "status": "proved",
   "theorems": [
    "Verif.C41.lines_joined",
    "Verif.C41.lines_are_lines"
   ],
   "note": ""
  },
  {
   "property": "C22",
   "status": "proved",
   "theorems": [
    "Verif.C22.subs_meaning",
    "Verif.C22.otherwise_error",
    "Verif.C22.no_subs",
    "Verif.C22.default_documented",
    "Verif.C22.finding_literal_paragraphs",
    "Verif.C22.last_mention_wins",
    "Verif.C22.second_phase",
    "Verif.C22.finding_mixed",
    "Verif.C22.finding_spaces",
    "Verif.C22.finding_passthroughs_unnamed"
   ],
   "note": "With findings: a list that mixes modifiers and plain names drops the default, spaces are an error, the passthrough substitution has no name."
  },
  {
   "property": "C23",
   "status": "proved",
   "theorems": [
    "Verif.C23.Doc.substituted",
    "Verif.C23.Doc.unset_literal",
    "Verif.C23.Doc.set_text",
    "Verif.C23.Doc.value_text",
    "Verif.C23.Doc.value_unchanged",
    "Verif.C23.Doc.keys_kept",
    "Verif.C23.Doc.attr_after",
    "Verif.C23.Doc.location_text",
    "Verif.C23.Doc.content_text",
    "Verif.C23.Doc.parsed_text",
    "Verif.C23.Doc.content_unchanged",
    "Verif.C23.Doc.api_value",
    "Verif.C23.Doc.declared_at",
    "Verif.C23.Doc.reset_at",
    "Verif.C23.Doc.never_set",
    "Verif.C23.Doc.sample_result",
    "Verif.C23.Doc.finding_footnote",
    "Verif.C23.Doc.finding_header_cell",
    "Verif.C23.Doc.finding_counter_in_value",
    "Verif.C23.substituted",
    "Verif.C23.content_filled",
    "Verif.C23.declared_spec",
    "Verif.C23.renderable_strings",
    "Verif.C23.finding_empty_attribute"
   ],
   "note": "The whole substitution stage: all kinds of elements, their attributes, titles, locations, cells and content, in reading order, for every parser (a parameter). The meaning of the relations in Spec/Substitution is given by the other theorems. Findings: references in footnotes, in several-paragraph header cells and counters in values are not replaced; an attribute without value makes the renderer fail; see also C56 and C57."
  },
  {
   "property": "C24",
   "status": "proved",
   "theorems": [
    "Verif.C23.substituted",
    "Verif.C24.counts",
    "Verif.C24.counts_from",
    "Verif.C24.independent",
    "Verif.C24.hidden_shows_nothing",
    "Verif.C24.hidden_counts",
    "Verif.C24.kth_shown",
    "Verif.C24.letter_shown",
    "Verif.C24.finding_counter2_start",
    "Verif.C24.finding_past_z"
   ],
   "note": "Counters in inline content; numbers are unbounded in the model."
  },
  {
   "property": "C25",
   "status": "proved",
   "theorems": [
    "Verif.C25.restored",
    "Verif.C25.groups_kept",
    "Verif.C25.finding_delimiter_in_text",
    "Verif.C23.Doc.marked",
    "Verif.C23.Doc.filledAll"
   ],
   "note": "For text without U+FFFD (false otherwise: finding) and for every grouping a parser may form of the characters and placeholders, in order. Placeholders that end up in attributes or locations are not modelled."
  },
  {
   "property": "C26",
   "status": "proved",
   "theorems": [
    "Verif.C26.cells_kept",
    "Verif.C26.rows_full",
    "Verif.C26.header_iff",
    "Verif.C26.footer_iff",
    "Verif.C26.panics_iff",
    "Verif.C26.renders_iff",
    "Verif.C26.finding_panics",
    "Verif.C26.finding_header_only"
   ],
   "note": "Including exact conditions for the panics of the parser and of the renderer."
  },
  {
   "property": "C27",
   "status": "proved",
   "theorems": [
    "Verif.C27.no_markup",
    "Verif.C27.ampersands",
    "Verif.C27.plain_unchanged",
    "Verif.C27.idempotent",
    "Verif.C27.meaning_kept",
    "Verif.C27.recovered",
    "Verif.C27.finding_ambiguous",
    "Verif.C27.finding_bare_hash"
   ],
   "note": "What a browser reads back is the original text when it has no character reference of its own; otherwise ambiguous (finding)."
  },
  {
   "property": "C28",
   "status": "proved",
   "theorems": [
    "Verif.C28.ascii",
    "Verif.C28.unchanged",
    "Verif.C28.meaning_kept",
    "Verif.C28.recovered",
    "Verif.C28.decimal_understood",
    "Verif.C28.rendered"
   ],
   "note": ""
  },
  {
   "property": "C29",
   "status": "proved",
   "theorems": [
    "Verif.C29.numbering",
    "Verif.C29.only_sections",
    "Verif.C29.path_numbers",
    "Verif.C29.numbers_distinct",
    "Verif.C29.document_ids",
    "Verif.C29.finding_preamble",
    "Verif.C29.finding_dot",
    "Verif.C29.finding_hidden_header"
   ],
   "note": "For documents whose sections have distinct identifiers (shown for documents built by the parser). Findings: `.k` below sections without number; switches in the preamble or in a hidden header are ignored."
  },
  {
   "property": "C30",
   "status": "partial",
   "theorems": [
    "Verif.C30.consecutive",
    "Verif.C30.caption_shown",
    "Verif.C30.independent",
    "Verif.C30.standard_captions",
    "Verif.C30.finding_untitled_example",
    "Verif.C30.finding_nested_example",
    "Verif.C30.finding_footer_first",
    "Verif.C30.finding_configured_caption_ignored"
   ],
   "note": "Proved for every document, in the order of rendering. False in part: an example without title consumes a number, and rendering order differs from document order for nested examples and table footers (findings)."
  },
  {
   "property": "C31",
   "status": "partial",
   "theorems": [
    "Verif.C31.no_problem_iff",
    "Verif.C31.other_types",
    "Verif.C31.crashes_iff",
    "Verif.C31.problem_reported",
    "Verif.C31.valid_rendered",
    "Verif.C31.invalid_rendered",
    "Verif.C31.article_rendered",
    "Verif.C31.finding_panics",
    "Verif.C31.finding_not_a_paragraph",
    "Verif.C31.finding_front_matter",
    "Verif.C31.finding_declared_doctype"
   ],
   "note": "Reported-iff proved for all documents, with the exact condition of crashes. False in part: validation panics on short documents, does not check that the element is a paragraph, and is bypassed when the document declares its type (findings)."
  },
  {
   "property": "C33",
   "status": "partial",
   "theorems": [
    "Verif.C33.group_roles",
    "Verif.C33.group_last_wins",
    "Verif.C33.group_options",
    "Verif.C33.option_texts",
    "Verif.C33.group_options_replaced",
    "Verif.C33.group_positionals",
    "Verif.C33.built_new",
    "Verif.C33.block_roles",
    "Verif.C33.block_last_wins",
    "Verif.C33.block_options_last_line",
    "Verif.C33.block_order_independent",
    "Verif.C33.finding_opts_replaces",
    "Verif.C33.finding_options_of_lines_replaced",
    "Verif.C33.finding_roles_text_dropped",
    "Verif.C33.finding_options_not_trimmed",
    "Verif.C33.finding_block_trumps_inline"
   ],
   "note": "Roles, last-wins and independence of the iteration order proved for all sequences. False in part: options are not cumulative over `opts=` entries and over lines (exact meaning proved, findings)."
  },
  {
   "property": "C42",
   "status": "proved",
   "theorems": [
    "Verif.C42.tables_good",
    "Verif.C42.positional_named",
    "Verif.C42.mapping_order_independent",
    "Verif.C42.mapping_idempotent",
    "Verif.C42.paragraph_order_independent",
    "Verif.C42.order_matters_otherwise"
   ],
   "note": "Proved for every mapping table of the code, every iteration order and all attributes."
  },
  {
   "property": "C32",
   "status": "partial",
   "theorems": [
    "Verif.C32.options_last_wins",
    "Verif.C32.attributes_last_wins",
    "Verif.C32.attributes_replaced",
    "Verif.C32.crashes_iff",
    "Verif.C32.backend_agrees",
    "Verif.C32.finding_backend_attributes_lost",
    "Verif.C32.finding_order_matters",
    "Verif.C32.finding_nil_map_panics",
    "Verif.C32.finding_nil_map_backend",
    "Verif.C32.finding_empty_backend",
    "Verif.C32.finding_caller_map_changed"
   ],
   "note": "Last-wins proved for all sequences of settings. False in part: settings interfere through the attribute map (findings)."
  },
  {
   "property": "C40",
   "status": "partial",
   "theorems": [
    "Verif.C40.config_after",
    "Verif.C40.others_unchanged",
    "Verif.C40.output_depends_on_refs",
    "Verif.C40.second_conversion",
    "Verif.C40.files_isolated",
    "Verif.C40.finding_twice",
    "Verif.C40.finding_caller_value_lost",
    "Verif.C40.finding_second_file",
    "Verif.C40.finding_builtin_appears",
    "Verif.C40.finding_nil_attributes"
   ],
   "note": "False of the code: the attributes of the caller are modified by each conversion (findings). Proved: the exact configuration after a conversion, what cannot change, and when a second conversion agrees."
  },
  {
   "property": "C43",
   "status": "partial",
   "theorems": [
    "Verif.C43.attributes_of_options",
    "Verif.C43.finding_value_with_equals",
    "Verif.C43.finding_unset_not_supported"
   ],
   "note": "Exact meaning of all option lists proved. False in part: a value with `=` is cut, and `name!` does not unset (findings)."
  },
  {
   "property": "C34",
   "status": "proved",
   "theorems": [
    "Verif.C34.all_or_nothing",
    "Verif.C34.failure_writes_nothing",
    "Verif.C34.success_iff",
    "Verif.C34.finding_cli_loses_output",
    "Verif.C34.finding_cli_loses_output_always"
   ],
   "note": "For all stages and all writers, including failing ones. The stages before writing are arbitrary. Finding: the command line empties the output file first."
  },
  {
   "property": "C44",
   "status": "partial",
   "theorems": [
    "Verif.C44.html5_body",
    "Verif.C44.xhtml5_body",
    "Verif.C44.html5_stylesheets",
    "Verif.C44.xhtml5_stylesheets",
    "Verif.C44.finding_description_xhtml",
    "Verif.C44.finding_description_not_escaped"
   ],
   "note": "Body and stylesheets for all pages, in both formats. False in part: the description is left out in XHTML, head values are not escaped (findings)."
  },
  {
   "property": "C45",
   "status": "proved",
   "theorems": [
    "Verif.C45.parse_ends",
    "Verif.C45.exp_ends",
    "Verif.C45.parse_deterministic",
    "Verif.C45.optional_parts_consume",
    "Verif.C45.empty_positional",
    "Verif.C45.checks_needed"
   ],
   "note": "For all 338 rules, all texts and all meanings of the code in the grammar in which four predicates that check progress do (shown necessary and justified)."
  },
  {
   "property": "C46",
   "status": "proved",
   "theorems": [
    "Verif.C46.fragment_consumes",
    "Verif.C46.fragments_end",
    "Verif.C46.fragments_tile",
    "Verif.C48.fragments_at_lines"
   ],
   "note": "For all documents."
  },
  {
   "property": "C47",
   "status": "proved",
   "theorems": [
    "Verif.C47.inline_accepted",
    "Verif.C47.empty_rejected",
    "Verif.C47.tracked_not_empty"
   ],
   "note": "For all texts and all meanings of the code as in C45. `tracked_not_empty`: the last character of an element is always defined when it is tracked."
  },
  {
   "property": "C48",
   "status": "proved",
   "theorems": [
    "Verif.C48.accepted",
    "Verif.C48.parsed_to_the_end",
    "Verif.C48.fragments_at_lines",
    "Verif.C48.rejected",
    "Verif.C48.silently_dropped"
   ],
   "note": "For all documents of such lines, with the meaning of two predicates as in the code. Findings: other lines (a no-break space alone, `NOTE: ` alone) make the conversion fail, or end the document silently after block attributes."
  },
  {
   "property": "C49",
   "status": "proved",
   "theorems": [
    "Verif.C49.block_extent",
    "Verif.C49.delimited_iff",
    "Verif.C49.rest_unclosed",
    "Verif.C49.rest_closed",
    "Verif.C49.sized_line",
    "Verif.C49.sized_closes",
    "Verif.C49.comment_any_length"
   ],
   "note": "For every kind of block at the level of the grammar, and for fragments that begin with any of them except comments. Finding: comment blocks are closed by a delimiter of any length."
  },
  {
   "property": "C50",
   "status": "proved",
   "theorems": [
    "Verif.C50.read_iff",
    "Verif.C50.ifdef_iff",
    "Verif.C50.ifndef_iff",
    "Verif.C50.endif_iff",
    "Verif.C50.reset_iff",
    "Verif.C50.delimiter_iff",
    "Verif.C50.title_iff",
    "Verif.C50.declaration_only",
    "Verif.C50.inclusion_only",
    "Verif.C50.plain_line",
    "Verif.C50.simple_declares",
    "Verif.C50.document_unchanged",
    "Verif.C50.condition_document",
    "Verif.C50.no_such_name",
    "Verif.C50.finding_comma",
    "Verif.C50.finding_underscore",
    "Verif.C50.finding_trailing_space",
    "Verif.C50.finding_brace",
    "Verif.C50.rawEnv_reads"
   ],
   "note": "At the level of the grammar, for every meaning of the embedded code that satisfies RawCode. Declarations: necessary shape for all, sufficient for values without references and passthroughs. Findings: a trailing space or an unmatched brace undoes a declaration; ifdef::a,b[] tests one name; names with an underscore inside cannot be declared."
  },
  {
   "property": "C51",
   "status": "proved",
   "theorems": [
    "Verif.C51.output_wellformed",
    "Verif.C51.html_wellformed",
    "Verif.C51.xhtml_wellformed",
    "Verif.C51.element_wellformed",
    "Verif.C51.sample_clean",
    "Verif.C51.lib_ok",
    "Verif.C51.finding_lt",
    "Verif.C51.finding_no_label",
    "Verif.C51.finding_icon_alt",
    "Verif.C51.finding_alt_quotes",
    "Verif.C51.finding_title_markup",
    "Verif.C51.finding_horizontal",
    "Verif.C51.finding_xhtml_quote",
    "Verif.C51.finding_xhtml_reversed",
    "Verif.C51.finding_xhtml_checkbox",
    "Verif.C51.finding_injection",
    "Verif.C51.finding_literal_roles",
    "Verif.C51.finding_verse_panic",
    "Verif.Html.markup_iff"
   ],
   "note": "The whole renderer (pkg/renderer/sgml) and all the templates of html5 and xhtml5 (translated by tools/tmpl2lean.py). Conditions on the document: CleanDoc; on the library functions (strings.ToLower, highlighting, user macros, \u2026): LibOk. That the parser gives clean documents is not proved. The findings show that the conditions are needed."
  },
  {
   "property": "C52",
   "status": "proved",
   "theorems": [
    "Verif.C52.element_text",
    "Verif.C52.element_context",
    "Verif.C52.article_text",
    "Verif.C52.article_page",
    "Verif.C52.article_header",
    "Verif.C52.manpage_text",
    "Verif.C52.body_context",
    "Verif.C52.occurs",
    "Verif.C52.ordered",
    "Verif.C52.lib_known",
    "Verif.C52.lib_highlights",
    "Verif.C52.sample_article",
    "Verif.C52.finding_header_only",
    "Verif.C52.finding_quote_title",
    "Verif.C52.finding_pass_title",
    "Verif.C52.finding_manpage",
    "Verif.C52.finding_preamble_toc"
   ],
   "note": "The whole renderer, all templates. The text of an element is defined in Spec/Content; the exceptions in it are shown needed by the findings. The content of source blocks with a language counts only if the highlighter keeps words together (src, Highlights)."
  },
  {
   "property": "C53",
   "status": "proved",
   "theorems": [
    "Verif.C53.ends",
    "Verif.C53.depth_irrelevant",
    "Verif.C53.one_result",
    "Verif.C53.result",
    "Verif.C53.ends_without_references",
    "Verif.C53.referring_ranked",
    "Verif.C53.finding_circular"
   ],
   "note": "The whole renderer, for all library functions. Finding: a section whose title refers to itself makes the renderer recurse for ever (proved for all depths)."
  },
  {
   "property": "C54",
   "status": "proved",
   "theorems": [
    "Verif.C54.no_panic",
    "Verif.C54.no_panic_simple",
    "Verif.C54.sample_no_panic",
    "Verif.C54.finding_verse",
    "Verif.C54.finding_email",
    "Verif.C54.finding_email_first",
    "Verif.C54.finding_manpage",
    "Verif.C54.finding_empty"
   ],
   "note": "The whole renderer. Each condition in NoPanic is shown needed by a finding: a special character in a verse paragraph, an e-mail without author, manual pages without name section, empty ordered lists, rows longer than the first."
  },
  {
   "property": "C55",
   "status": "proved",
   "theorems": [
    "Verif.C55.renders",
    "Verif.C55.no_failure",
    "Verif.C55.sample_no_fail",
    "Verif.C55.sample_ranked",
    "Verif.C55.finding_toc",
    "Verif.C55.finding_icons",
    "Verif.C55.finding_labeled",
    "Verif.C55.finding_source",
    "Verif.C55.finding_title",
    "Verif.C55.finding_reftext"
   ],
   "note": "The whole renderer, all templates. Conditions in Spec/Renderable. Findings: `:toc: left` and others, `:icons: foo`, unknown styles of labeled lists, markup in highlighted source, a button in the title, `reftext` with a table of contents make the conversion fail."
  },
  {
   "property": "C56",
   "status": "partial",
   "theorems": [
    "Verif.C56.order_irrelevant",
    "Verif.C56.loops_order_irrelevant",
    "Verif.C56.finding_inline_order",
    "Verif.C56.finding_leak"
   ],
   "note": "Proved for the attributes of all blocks and of the configuration. False for the attributes of inline elements (finding_inline_order): the result of a conversion is not determined."
  },
  {
   "property": "C57",
   "status": "proved",
   "theorems": [
    "Verif.C57.no_panic",
    "Verif.C57.no_panic_fragment",
    "Verif.C57.sample_safe",
    "Verif.C57.finding_empty_title",
    "Verif.C57.finding_email",
    "Verif.C57.finding_email_first",
    "Verif.C57.finding_no_columns",
    "Verif.C57.finding_one_row",
    "Verif.C57.finding_title_fails"
   ],
   "note": "Each condition is shown needed by a finding. The parser is a parameter that gives something for a text that is not empty (Speaks)."
  },
  {
   "property": "C58",
   "status": "proved",
   "theorems": [
    "Verif.C58.left_alone",
    "Verif.C58.no_other",
    "Verif.C58.pieces_text_of",
    "Verif.C58.pieces_one",
    "Verif.C58.pieces_kinds",
    "Verif.C58.passthrough_content",
    "Verif.C58.verbatim_content",
    "Verif.C58.finding_escaped_apostrophe",
    "Verif.C58.finding_place_holder"
   ],
   "note": "For the grammar and the interpreter with values. The actions that plain text meets are modelled (Obeys), the checks of the enabled substitutions are assumed to do what they say (Enabled), and special characters are not letters (Classes)."
  },
  {
   "property": "C59",
   "status": "proved",
   "theorems": [
    "Verif.C59.split_into_paragraphs",
    "Verif.C59.paragraphs",
    "Verif.C59.split_preprocessed",
    "Verif.C59.paragraphs_preprocessed",
    "Verif.C59.substituted",
    "Verif.C59.left_as_they_are",
    "Verif.C59.loopV_ends",
    "Verif.C59.sample_good",
    "Verif.C59.world_grammatical"
   ],
   "note": "For the grammar and the interpreter with values: the two predicates and the character classes as in the code (C59.Code), the modelled actions (Obeys). The second part (left_as_they_are) is the stage of substitutions, with a parser that follows the grammar (Grammatical)."
  },
  {
   "property": "C60",
   "status": "proved",
   "theorems": [
    "Verif.C60.text_to_page",
    "Verif.C60.page_of",
    "Verif.C60.templates",
    "Verif.C60.sample_good",
    "Verif.C60.sample_plain",
    "Verif.C60.plainCfg_article"
   ],
   "note": "All stages, each by its model; the composition is the structure Stages. The conditions on the code of the grammar are those of C50 (Reads), C59 (Code, Obeys, Grammatical)."
  },
  {
   "property": "C61",
   "status": "proved",
   "theorems": [
    "Verif.C61.one_result",
    "Verif.C61.ends",
    "Verif.C61.others_unchanged",
    "Verif.C61.table_cells",
    "Verif.C61.block_content",
    "Verif.C61.fragment_error",
    "Verif.C61.reader_shrinks",
    "Verif.C61.finding_cells"
   ],
   "note": "Shrinks (blocks found in a text have less text than it) is assumed of the parser, not proved from the grammar. Finding: blocks in cells of format a are parsed but not refined."
  },
  {
   "property": "C62",
   "status": "proved",
   "theorems": [
    "Verif.C62.text_to_page",
    "Verif.C62.split_into_blocks",
    "Verif.C62.split_preprocessed",
    "Verif.C62.blocks_preprocessed",
    "Verif.C62.elements_rule",
    "Verif.C62.refine_block",
    "Verif.C62.substituted_block",
    "Verif.C62.filter_document",
    "Verif.C62.rendered",
    "Verif.C62.sample_good",
    "Verif.C62.sample_plain",
    "Verif.C62.reader_reads",
    "Verif.C62.finding_open_block",
    "Verif.C62.other_blocks"
   ],
   "note": "All stages, each by its model; the composition is the structure Stages. Conditions on the code of the grammar as in C60, and that the delimiters' lengths are remembered and compared (LenCode); content of blocks is parsed with the same grammar (ReadsBlocks). Excluded: a tab right after three back quotes, which is taken for the name of a language; an open block right after a paragraph (finding)."
  },
  {
   "property": "C63",
   "status": "proved",
   "theorems": [
    "Verif.C63.text_to_page",
    "Verif.C63.split_into_sections",
    "Verif.C63.split_preprocessed",
    "Verif.C63.sample_good",
    "Verif.C63.sample_plain",
    "Verif.C63.sem_place",
    "Verif.Nested.tree_nest"
   ],
   "note": "All stages, each by its model; the composition is the structure Stages. Conditions on the code of the grammar as in C62, and that sections are only enabled outside of delimited blocks and have at most six equal signs (Place). Titles with marks of inline markup, special characters (<, >, &) or apostrophes are excluded; so are the attributes idprefix, idseparator and toc."
  },
  {
   "property": "C64",
   "status": "proved",
   "theorems": [
    "Verif.C64.list_to_page",
    "Verif.C64.list_fragment",
    "Verif.C64.arrange_list",
    "Verif.C64.list_shows",
    "Verif.C64.sample_ok",
    "Verif.C64.sample_lines",
    "Verif.C64.sample_plain",
    "Verif.C64.finding_two_digits",
    "Verif.C63.text_to_page",
    "Verif.C63.sem_list"
   ],
   "note": "All stages, each by its model. C63.text_to_page is the theorem for documents with lists among sections and blocks; list_to_page is the case of one list. Conditions on the code of the grammar as in C63, and that the checks of the number of dots and stars do what they say (ListCode). The first mark of a list has one digit or letter: otherwise the code takes the items for a paragraph (finding)."
  },
  {
   "property": "C65",
   "status": "proved",
   "theorems": [
    "Verif.C65.text_to_page",
    "Verif.C65.parsed",
    "Verif.C65.substituted",
    "Verif.C65.unambiguous",
    "Verif.C65.draws_show",
    "Verif.C65.sign_shown",
    "Verif.C65.named_shown",
    "Verif.C65.opens_nothing",
    "Verif.C65.closes_nothing",
    "Verif.C65.sample_page",
    "Verif.C65.sample_good",
    "Verif.C65.sample_content",
    "Verif.C65.world_spoken",
    "Verif.C65.sem_inl",
    "Verif.C65.finding_closing_byte",
    "Verif.C65.finding_opening_byte",
    "Verif.C65.finding_apostrophe_byte",
    "Verif.C65.finding_script_raw",
    "Verif.C65.finding_two_semicolons"
   ],
   "note": "All stages, each by its model. Conditions on the code of the grammar: those of C59 for blocks, and for inline content that the checks of substitutions do what they say and the tracked byte is kept as in the code (Inl, Tracks; met by sem_inl). Paragraphs begin with a letter or a number. Findings: the tracked character is the last byte of the UTF-8 encoding, so marks after letters that are not ASCII are read wrongly; special characters in subscripts and superscripts are not escaped; {two-semicolons} shows one. References are among the pieces (C70)."
  },
  {
   "property": "C66",
   "status": "proved",
   "theorems": [
    "Verif.C66.text_to_page",
    "Verif.C66.content_parts",
    "Verif.C66.sample_source",
    "Verif.C66.sample_ok",
    "Verif.C66.sample_lines",
    "Verif.C66.sample_plain",
    "Verif.C66.wholeCfg_plain",
    "Verif.C66.sem_head",
    "Verif.C66.finding_one_digit",
    "Verif.C66.two_digits",
    "Verif.C66.finding_name_raw"
   ],
   "note": "All stages, each by its model; the composition is the structure Stages. Conditions on the code of the grammar as in C64, and that headers are allowed until the first fragment has been read and an author has a name or an address (HeadCode, AuthorCode). Authors without a name (the code would panic), comments and attribute declarations in the header are excluded; the title has no marks, special characters or apostrophes, as in C63."
  },
  {
   "property": "C67",
   "status": "proved",
   "theorems": [
    "Verif.C67.text_to_page",
    "Verif.C67.items_parsed",
    "Verif.C67.stage",
    "Verif.C67.page_of",
    "Verif.C67.sample_to_page",
    "Verif.C67.sample_good",
    "Verif.C67.sample_fits",
    "Verif.C67.sample_source",
    "Verif.C67.sample_page",
    "Verif.C67.sem_code",
    "Verif.C67.world_grammatical",
    "Verif.C67.finding_hidden_start",
    "Verif.C67.finding_value_escape",
    "Verif.C67.empty_value",
    "Verif.C67.finding_empty_value"
   ],
   "note": "All stages, each by its model; the composition is the structure Stages, where the stage of substitutions has one context for all fragments. Conditions on the code of the grammar as in C60, and that references are enabled outside of paragraphs (predicate 102: context.go:30); the inline content is parsed with the same classes of characters (C67.Grammatical). Text with the values in it has no markup (Fits); values are not empty: a reference to an attribute declared without value makes the conversion fail (findings). Counters with a start value, and names of characters such as {nbsp}, are excluded."
  },
  {
   "property": "C68",
   "status": "proved",
   "theorems": [
    "Verif.C68.text_to_page",
    "Verif.C68.rendered",
    "Verif.C68.fold_grown",
    "Verif.C68.shows",
    "Verif.C68.recorded",
    "Verif.C68.free_fresh",
    "Verif.C68.sample_to_page",
    "Verif.C68.sample_good",
    "Verif.C68.sample_gapless",
    "Verif.C68.finding_case"
   ],
   "note": "All stages, each by its model, as in C63, with the same conditions on the code of the grammar. toc is given in the configuration, empty or without value (the values auto and preamble are not covered). If levels are skipped, entries can be put below deeper ones: see the findings of C16. Finding: identifiers are compared before they are put in lower case, so that sections whose titles differ only in case share an identifier on the page (finding_case)."
  },
  {
   "property": "C69",
   "status": "proved",
   "theorems": [
    "Verif.C69.text_to_page",
    "Verif.C69.outlined_to_page",
    "Verif.C69.stages_of",
    "Verif.C69.tree_shows",
    "Verif.C69.back_tree",
    "Verif.C69.aggregated",
    "Verif.C69.not_numbered",
    "Verif.C69.world_grammatical",
    "Verif.C69.sample_to_page",
    "Verif.C69.sample_outlined",
    "Verif.C69.sample_good",
    "Verif.C69.sample_ready"
   ],
   "note": "All stages, each by its model, under the conditions of C63, C64, C65 and C68 on the code of the grammar. Markup in the paragraphs of the document; the paragraphs in delimited blocks and in items of lists, and titles, have none."
  },
  {
   "property": "C70",
   "status": "proved",
   "theorems": [
    "Verif.C65.exactly_ref",
    "Verif.C65.exactly_macro",
    "Verif.C65.ref_shows",
    "Verif.C69.text_to_page",
    "Verif.C69.fixed",
    "Verif.C69.looked_up",
    "Verif.C69.labelled",
    "Verif.C70.by_identifier",
    "Verif.C70.by_title",
    "Verif.C70.with_label",
    "Verif.C70.leads",
    "Verif.C70.first_anchor",
    "Verif.C69.sample_to_page",
    "Verif.C70.finding_lower_case",
    "Verif.C70.finding_space",
    "Verif.C70.finding_short"
   ],
   "note": "C69.text_to_page with references among the pieces of paragraphs; the corollaries say what Woven.view means for references to sections. References in titles, lists and blocks are not covered (the code resolves none in titles). Findings: the identifier as it is on the page (in lower case) does not give the title; labels are not escaped; a label after a space, or of one character, makes the whole no reference."
  },
  {
   "property": "C71",
   "status": "proved",
   "theorems": [
    "Verif.C71.chosen_remain",
    "Verif.C71.text_to_page",
    "Verif.C71.outlined_to_page",
    "Verif.C71.headed_to_page",
    "Verif.C71.referenced_to_page",
    "Verif.C71.parts_amount",
    "Verif.C71.step_condition",
    "Verif.C71.step_end",
    "Verif.C71.parts_ok",
    "Verif.C71.parts_written",
    "Verif.C71.sample_to_page",
    "Verif.C71.declared_ok",
    "Verif.C71.declared_written",
    "Verif.C71.finding_hidden_declaration"
   ],
   "note": "Conditions upon one attribute (ifdef, ifndef), well nested; ifeval and inclusions between the lines are not covered (C35, C03-C05 are about them). Declarations as in C50 (values without braces). Conditions on the code of the grammar as in C50, C66, C67 and C69. Finding: a declaration that is not chosen still counts for the conditions after it, but not for the references (finding_hidden_declaration)."
  },
  {
   "property": "C72",
   "status": "proved",
   "theorems": [
    "Verif.C72.inclusions_replaced",
    "Verif.C72.text_to_page",
    "Verif.C72.outlined_to_page",
    "Verif.C72.headed_to_page",
    "Verif.C72.referenced_to_page",
    "Verif.C72.parts_amount",
    "Verif.C72.yields_inclusion",
    "Verif.C72.inclusion_read",
    "Verif.C72.step_inclusion",
    "Verif.C72.step_title",
    "Verif.C72.include_file",
    "Verif.C72.include_plain",
    "Verif.C72.docParts_ok",
    "Verif.C72.files_written",
    "Verif.C72.sample_to_page",
    "Verif.C72.version_ok",
    "Verif.C72.finding_included_declaration",
    "Verif.C72.finding_blank_lines"
   ],
   "note": "With leveloffset=+n (n at most 9), lines= and tags= in the brackets (the last two are C73), absolute and negative offsets are C05; paths without braces and spaces. Blocks are not nested within blocks here. The code of the grammar's action for inclusions is assumed to return the path and the values as written, and quotes are assumed to be no letters (Includes, met by sem_includes). Findings: what an included file declares counts for the references after it but not for the conditions (finding_included_declaration); a file of no lines leaves a blank line and a file that is not AsciiDoc leaves one after its own (finding_blank_lines)."
  },
  {
   "property": "C73",
   "status": "proved",
   "theorems": [
    "Verif.C72.read_picked",
    "Verif.C72.read_tags",
    "Verif.C72.inclusions_replaced",
    "Verif.C72.text_to_page",
    "Verif.C72.yields_attributes",
    "Verif.C72.yields_named",
    "Verif.C73.region_contained",
    "Verif.C73.range_contained",
    "Verif.C73.code_contained",
    "Verif.C73.more_contained",
    "Verif.C73.setup_contained",
    "Verif.C73.docParts_ok",
    "Verif.C73.files_written",
    "Verif.C73.sample_to_page"
   ],
   "note": "The theorems of C72 are about inclusions with lines= and tags= (Spec/Included: Pick, picked, Contains); region_contained and range_contained are the single region and the single range. Selectors as in C39; for tags: no !**, no end:: without tag:: before it (the code panics, C04) and no missing tag. lines= or tags= come before leveloffset=, values are without spaces, braces and brackets, and between double quotes or none. Assumption Includes as in C72."
  },
  {
   "property": "C74",
   "status": "partial",
   "theorems": [
    "Verif.C74.leads",
    "Verif.C74.only_one",
    "Verif.C74.none_found",
    "Verif.C74.section_above",
    "Verif.C74.shows_text",
    "Verif.C74.shows_unknown",
    "Verif.C74.shows_markup",
    "Verif.C74.sample_ok",
    "Verif.C74.sample_names",
    "Verif.C74.sample_shows",
    "Verif.C74.finding_image",
    "Verif.C74.finding_taken",
    "Verif.C74.taken_without"
   ],
   "note": "For identifiers that are text, and titles of images without markup. Partial because the claim is false of the code otherwise: the title of an image that has markup is recorded as printed with %v, i.e. as addresses (finding_image); and an element that takes the identifier of a section before it, with a title of plain text, makes the whole conversion fail (finding_taken; taken_without is the same document without the identifier). Titles with links are shown with the links as plain text (cross_reference.go:33-40), which is modelled (Rend.xrefLabel) but not part of the theorems."
  },
  {
   "property": "C75",
   "status": "partial",
   "theorems": [
    "Verif.C75.which",
    "Verif.C75.one_each",
    "Verif.C75.adds_up",
    "Verif.C75.near_share",
    "Verif.C75.exact",
    "Verif.C75.as_written",
    "Verif.C75.none_written",
    "Verif.C75.sixDigits_between",
    "Verif.C75.sixDigits_exact",
    "Verif.C75.trunc_truncates",
    "Verif.C75.sample_weighted",
    "Verif.C75.finding_two_to_one",
    "Verif.C75.finding_nan",
    "Verif.C75.finding_over"
   ],
   "note": "Proved as stated, for weights that are not negative and not all zero, on rational numbers. Partial because the widths need not add up to exactly 100, as the comment in the code claims: cols=\"2,1\" gives 66.6667 and 33.3334 (finding_two_to_one); if all weights are zero, the first is NaN (finding_nan); numbers beside `~` are not checked (finding_over). The rounding of float64 is not modelled."
  },
  {
   "property": "C76",
   "status": "partial",
   "theorems": [
    "Verif.C76.src_any",
    "Verif.C76.src_first",
    "Verif.C76.roles_shown",
    "Verif.C76.image_roles",
    "Verif.C76.image_title",
    "Verif.C76.block_written",
    "Verif.C76.inline_written",
    "Verif.C76.shown_first",
    "Verif.C76.images",
    "Verif.C76.left_alone",
    "Verif.C76.again_same",
    "Verif.C76.draws_both",
    "Verif.C76.sample_bare",
    "Verif.C76.sample_shown",
    "Verif.C76.finding_twice",
    "Verif.C76.finding_section_title",
    "Verif.C76.figure_first",
    "Verif.C76.caption_numbered",
    "Verif.C76.caption_own",
    "Verif.C76.figures_numbered",
    "Verif.C76.sample_figures"
   ],
   "note": "For images whose attributes are text, with roles, float, alignment and titles, and without data-uri, at the level of the renderer. Partial because an image that is rendered more than once is taken from the directory within the directory, if imagesdir is relative (finding_twice): this is so for every image in the title of a section (finding_section_title)."
  },
  {
   "property": "C77",
   "status": "partial",
   "theorems": [
    "Verif.C77.cell_written",
    "Verif.C77.headerCell_written",
    "Verif.C77.footerCell_written",
    "Verif.C77.blocks_written",
    "Verif.C77.tableCell_written",
    "Verif.C77.rowCells_written",
    "Verif.C77.rows_written",
    "Verif.C77.header_edge",
    "Verif.C77.footer_edge",
    "Verif.C77.columns_are",
    "Verif.C77.trimmed_eq",
    "Verif.C77.percent_eq",
    "Verif.C77.caption_numbered",
    "Verif.C77.caption_own",
    "Verif.C77.caption_none",
    "Verif.C77.table_written",
    "Verif.C77.table_to_page",
    "Verif.C77.element_to_page",
    "Verif.C77.boxes_both",
    "Verif.C77.sample_simple",
    "Verif.C77.sample_fits",
    "Verif.C77.sample_to_page",
    "Verif.C77.finding_negative",
    "Verif.C52.finding_header_only"
   ],
   "note": "For tables with a title that is text, or none, whose rows are not longer than the list of columns (longer ones panic, C26), at the level of the renderer. The caption before the title is whatever it is computed to be (the hypothesis hcap): the label of tables and the next number (caption_numbered), the caption given for this table (caption_own) or nothing (caption_none). Partial because the claim is false for tables with a header and no other row: the header is lost (C52.finding_header_only). A negative width is written as it is (finding_negative)."
  },
  {
   "property": "C78",
   "status": "partial",
   "theorems": [
    "Verif.C78.link_written",
    "Verif.C78.roles_given",
    "Verif.C78.bare_classes",
    "Verif.C78.label_shown",
    "Verif.C78.link_to_page",
    "Verif.C78.leads",
    "Verif.C78.another_window",
    "Verif.C78.ext_of",
    "Verif.C78.other_document",
    "Verif.C78.ext_none",
    "Verif.C78.this_document",
    "Verif.C78.templates_both",
    "Verif.C78.sample_stated",
    "Verif.C78.sample_shown",
    "Verif.C78.sample_other",
    "Verif.C78.sample_here",
    "Verif.C78.finding_part",
    "Verif.C78.finding_quote",
    "Verif.C78.finding_window",
    "Verif.C78.finding_mail",
    "Verif.C78.finding_empty"
   ],
   "note": "Proved as stated for links, except that roles of mail addresses are excluded (their class begins with a space: finding_mail), and for references to other documents given by a path with an extension. Partial because the claim is false of the code: the part of another document is lost (`xref:other.adoc#part[]` leads to other.html: finding_part), the address of another document is not escaped (finding_quote), and neither are identifier, roles and window, which may therefore hold other attributes, such as onclick (finding_window)."
  }
 ]
}