# Axioms of the theorems of MANIFEST.json

Printed by `collectAxioms` on the compiled modules. No theorem depends on any other axiom than
`propext`, `Classical.choice` and `Quot.sound`.

## C01

* `Verif.C01.visible_lines`: Classical.choice, Quot.sound, propext
* `Verif.C01.conditional_lines`: Classical.choice, Quot.sound, propext
* `Verif.C01.surplus_endif`: Classical.choice, Quot.sound, propext
* `Verif.C01.finding_declaration_in_disabled_region_takes_effect`: Classical.choice, Quot.sound, propext
* `Verif.C01.finding_include_in_disabled_region_is_resolved`: Classical.choice, Quot.sound, propext

## C02

* `Verif.C02.identity`: Classical.choice, Quot.sound, propext
* `Verif.C02.identity_crlf`: Classical.choice, Quot.sound, propext
* `Verif.C02.finding_long_line_truncates`: Classical.choice, Quot.sound, propext

## C03

* `Verif.C03.lines_selected`: Quot.sound, propext
* `Verif.C03.line_selected_iff`: Classical.choice, Quot.sound, propext
* `Verif.C03.written_order_irrelevant`: Quot.sound, propext
* `Verif.C03.all_lines`: Classical.choice, Quot.sound, propext
* `Verif.C03.hasTag_iff`: Classical.choice, Quot.sound, propext
* `Verif.C39.include_lines`: Quot.sound, propext
* `Verif.C03.finding_minus_one_selects_everything`: Classical.choice, Quot.sound, propext

## C04

* `Verif.C04.tags_selected`: Classical.choice, Quot.sound, propext
* `Verif.C04.order_irrelevant`: Quot.sound, propext
* `Verif.C04.finding_negated_double_star_selects`: Quot.sound, propext
* `Verif.C04.finding_stray_end_panics`: Classical.choice, Quot.sound, propext

## C05

* `Verif.C05.relative_offsets`: Classical.choice, Quot.sound, propext
* `Verif.C05.absolute_offset`: Classical.choice, Quot.sound, propext
* `Verif.C05.shifted_file`: Classical.choice, Quot.sound, propext
* `Verif.C05.finding_negative_level_panics`: Quot.sound, propext

## C06

* `Verif.C06.get_after_history`: Quot.sound, propext
* `Verif.C06.all_agrees_with_get`: Quot.sound, propext
* `Verif.C06.api_value_is_immutable`: Quot.sound, propext

## C07

* `Verif.C07.terminates`: Classical.choice, Quot.sound, propext
* `Verif.C07.depth_independent`: Classical.choice, Quot.sound, propext
* `Verif.C07.cycle_diverges`: Classical.choice, Quot.sound, propext

## C08

* `Verif.C08.isolation`: Classical.choice, Quot.sound, propext
* `Verif.C08.offsets_kept`: Classical.choice, Quot.sound, propext
* `Verif.C08.finding_absolute_offset_leaks`: Classical.choice, Quot.sound, propext

## C09

* `Verif.C09.restored`: Quot.sound, propext
* `Verif.C09.completes`: Quot.sound, propext
* `Verif.C09.absolute_paths_any_schedule`: Quot.sound, propext
* `Verif.C09.finding_relative_lookup_is_racy`: Classical.choice, Quot.sound, propext
* `Verif.C09.finding_directory_not_restored_when_concurrent`: Classical.choice, Quot.sound, propext

## C35

* `Verif.C35.cmp_iff`: propext
* `Verif.C35.ifeval_iff`: propext
* `Verif.C35.ifeval_parsed_partial`: Classical.choice, Quot.sound, propext
* `Verif.C35.finding_le_ge_never_parsed`: Classical.choice, Quot.sound, propext
* `Verif.C35.finding_le_ge_line_rejected`: Classical.choice, Quot.sound, propext
* `Verif.C35.finding_document_attributes_never_compare_to_numbers`: propext

## C39

* `Verif.C39.line_ranges_iff`: Quot.sound, propext
* `Verif.C39.tag_ranges_iff`: Quot.sound, propext
* `Verif.C39.line_ranges_round_trip`: Quot.sound, propext
* `Verif.C39.tag_ranges_round_trip`: Quot.sound, propext

## C36

* `Verif.C06.ifdef_iff`: Quot.sound, propext

## C37

* `Verif.C37.heading_recognised_iff`: Quot.sound, propext
* `Verif.C37.within_follows_tracker`: propext
* `Verif.C37.finding_delimiter_in_listing_breaks_tracking`: none
* `Verif.C37.finding_literal_closes_listing`: none
* `Verif.C08.finding_inherited_block_state_is_lost`: Classical.choice, Quot.sound, propext

## C10

* `Verif.C10.result_is_sequential`: Quot.sound, propext
* `Verif.C10.delivered_in_order`: Classical.choice, Quot.sound, propext
* `Verif.C10.no_deadlock`: Classical.choice, Quot.sound, propext
* `Verif.C10.always_terminates`: Quot.sound, propext
* `Verif.C10.drained`: Quot.sound, propext
* `Verif.C10.maximal_run`: Classical.choice, Quot.sound, propext
* `Verif.C10.channels_bounded`: Quot.sound, propext
* `Verif.C10.no_leak_when_guarded`: Quot.sound, propext
* `Verif.C10.finding_parser_goroutine_leaks`: propext

## C11

* `Verif.C11.error_fragments_ignored`: Classical.choice, Quot.sound, propext
* `Verif.C11.failed_fragment_dropped`: Quot.sound, propext
* `Verif.C11.finding_failed_fragment_leaves_state`: propext

## C12

* `Verif.C12.content_preserved`: Quot.sound, propext
* `Verif.C12.document_tree`: Quot.sound, propext

## C13

* `Verif.C12.document_tree`: Quot.sound, propext
* `Verif.C12.child_level_greater`: Quot.sound, propext

## C16

* `Verif.C16.entries`: Quot.sound, propext
* `Verif.C16.nesting`: Quot.sound, propext
* `Verif.C16.finding_gap_nests_shallower_below_deeper`: Classical.choice, Quot.sound, propext
* `Verif.C16.finding_first_section_deeper`: Classical.choice, Quot.sound, propext

## C17

* `Verif.C17.preamble_inserted_iff`: Classical.choice, Quot.sound, propext
* `Verif.C17.content_preserved`: Classical.choice, Quot.sound, propext
* `Verif.C17.no_header_no_preamble`: propext
* `Verif.C17.finding_declaration_before_title_hides_header`: propext
* `Verif.C17.finding_blank_line_before_header_loses_content`: propext

## C14

* `Verif.C14.terminates`: Classical.choice, Quot.sound, propext
* `Verif.C14.first_free`: Classical.choice, Quot.sound, propext
* `Verif.C14.unique_ids`: Classical.choice, Quot.sound, propext
* `Verif.C14.found`: Classical.choice, Quot.sound, propext
* `Verif.C14.elements_kept`: Classical.choice, Quot.sound, propext
* `Verif.C14.section_resolved`: Classical.choice, Quot.sound, propext
* `Verif.C14.toc_of_document`: Classical.choice, Quot.sound, propext
* `Verif.C14.finding_empty_ids_collide`: Classical.choice, Quot.sound, propext
* `Verif.C14.finding_block_takes_over`: Classical.choice, Quot.sound, propext

## C15

* `Verif.C15.safe_characters`: Quot.sound, propext
* `Verif.C15.plain_title`: Classical.choice, Quot.sound, propext
* `Verif.C15.finding_leading_separator`: Classical.choice, Quot.sound, propext
* `Verif.C15.finding_trailing_separators`: Classical.choice, Quot.sound, propext

## C38

* `Verif.C38.by_id`: Classical.choice, Quot.sound, propext
* `Verif.C38.by_title`: Classical.choice, Quot.sound, propext
* `Verif.C38.label_given`: propext
* `Verif.C38.unknown_target`: propext
* `Verif.C38.finding_one_word_title_not_found`: Classical.choice, Quot.sound, propext
* `Verif.C38.finding_attributes_at_end_of_document`: Classical.choice, Quot.sound, propext
* `Verif.C38.finding_formatted_label_ignored`: propext

## C18

* `Verif.C18.footnotes_collected`: Classical.choice, Quot.sound, propext
* `Verif.C18.numbered_consecutively`: Classical.choice, Quot.sound, propext
* `Verif.C18.references_resolve`: Classical.choice, Quot.sound, propext
* `Verif.C18.all_replaced`: propext
* `Verif.C18.finding_footnote_in_block_not_collected`: propext
* `Verif.C18.finding_empty_footnote_refers_to_first_anonymous`: propext

## C19

* `Verif.C19.arranged`: Quot.sound, propext
* `Verif.C19.outline_inj`: Quot.sound, propext
* `Verif.C19.order_kept`: Quot.sound, propext
* `Verif.C19.homogeneous`: Quot.sound, propext
* `Verif.C19.single_root`: Quot.sound, propext
* `Verif.C19.kinds_kept`: Quot.sound, propext
* `Verif.C19.succeeds`: Quot.sound, propext
* `Verif.C19.fails_on_deep_continuation`: Quot.sound, propext
* `Verif.C19.finding_siblings_nested`: propext
* `Verif.C19.finding_continuation_loses_list`: Quot.sound, propext
* `Verif.C19.finding_list_in_attached_block`: propext

## C20

* `Verif.C20.nothing_unwanted_remains`: propext
* `Verif.C20.everything_else_remains`: propext
* `Verif.C20.clean_unchanged`: propext
* `Verif.C20.idempotent`: propext

## C21

* `Verif.C21.merge_go`: Quot.sound, propext
* `Verif.C21.merged_plain`: Quot.sound, propext
* `Verif.C21.merged_content`: Quot.sound, propext
* `Verif.C21.merged_content_exact`: Quot.sound, propext
* `Verif.C21.merged_content_flat`: Quot.sound, propext
* `Verif.C21.merged_flat`: Quot.sound, propext
* `Verif.C21.merged_slice`: Quot.sound, propext
* `Verif.C21.merged_twice`: Quot.sound, propext
* `Verif.C21.reduced_text`: Quot.sound, propext
* `Verif.C21.reduced_content`: Quot.sound, propext
* `Verif.C21.finding_text_after_slice_not_merged`: Quot.sound, propext
* `Verif.C21.finding_spaces_lost`: Quot.sound, propext
* `Verif.C21.merge_same`: Quot.sound, propext
* `Verif.C21.merged_any`: Quot.sound, propext
* `Verif.C21.merged_any_dash`: Quot.sound, propext

## C41

* `Verif.C41.lines_joined`: Classical.choice, Quot.sound, propext
* `Verif.C41.lines_are_lines`: Classical.choice, Quot.sound, propext

## C22

* `Verif.C22.subs_meaning`: Classical.choice, Quot.sound, propext
* `Verif.C22.otherwise_error`: Classical.choice, Quot.sound, propext
* `Verif.C22.no_subs`: Classical.choice, Quot.sound, propext
* `Verif.C22.default_documented`: Classical.choice, Quot.sound, propext
* `Verif.C22.finding_literal_paragraphs`: Classical.choice, Quot.sound, propext
* `Verif.C22.last_mention_wins`: Quot.sound, propext
* `Verif.C22.second_phase`: propext
* `Verif.C22.finding_mixed`: Classical.choice, Quot.sound, propext
* `Verif.C22.finding_spaces`: Classical.choice, Quot.sound, propext
* `Verif.C22.finding_passthroughs_unnamed`: propext

## C23

* `Verif.C23.Doc.substituted`: Classical.choice, Quot.sound, propext
* `Verif.C23.Doc.unset_literal`: Classical.choice, Quot.sound, propext
* `Verif.C23.Doc.set_text`: Classical.choice, Quot.sound, propext
* `Verif.C23.Doc.value_text`: Classical.choice, Quot.sound, propext
* `Verif.C23.Doc.value_unchanged`: Classical.choice, Quot.sound, propext
* `Verif.C23.Doc.keys_kept`: Classical.choice, Quot.sound, propext
* `Verif.C23.Doc.attr_after`: Classical.choice, Quot.sound, propext
* `Verif.C23.Doc.location_text`: Classical.choice, Quot.sound, propext
* `Verif.C23.Doc.content_text`: Classical.choice, Quot.sound, propext
* `Verif.C23.Doc.parsed_text`: Classical.choice, Quot.sound, propext
* `Verif.C23.Doc.content_unchanged`: Classical.choice, Quot.sound, propext
* `Verif.C23.Doc.api_value`: propext
* `Verif.C23.Doc.declared_at`: Quot.sound, propext
* `Verif.C23.Doc.reset_at`: Quot.sound, propext
* `Verif.C23.Doc.never_set`: Quot.sound, propext
* `Verif.C23.Doc.sample_result`: Classical.choice, Quot.sound, propext
* `Verif.C23.Doc.finding_footnote`: Classical.choice, Quot.sound, propext
* `Verif.C23.Doc.finding_header_cell`: Classical.choice, Quot.sound, propext
* `Verif.C23.Doc.finding_counter_in_value`: Classical.choice, Quot.sound, propext
* `Verif.C23.substituted`: Classical.choice, Quot.sound, propext
* `Verif.C23.content_filled`: Classical.choice, Quot.sound, propext
* `Verif.C23.declared_spec`: Classical.choice, Quot.sound, propext
* `Verif.C23.renderable_strings`: Classical.choice, Quot.sound, propext
* `Verif.C23.finding_empty_attribute`: Classical.choice, Quot.sound, propext

## C24

* `Verif.C23.substituted`: Classical.choice, Quot.sound, propext
* `Verif.C24.counts`: Quot.sound, propext
* `Verif.C24.counts_from`: Quot.sound, propext
* `Verif.C24.independent`: propext
* `Verif.C24.hidden_shows_nothing`: none
* `Verif.C24.hidden_counts`: propext
* `Verif.C24.kth_shown`: Quot.sound, propext
* `Verif.C24.letter_shown`: Quot.sound, propext
* `Verif.C24.finding_counter2_start`: Classical.choice, Quot.sound, propext
* `Verif.C24.finding_past_z`: Classical.choice, Quot.sound, propext

## C25

* `Verif.C25.restored`: Classical.choice, Quot.sound, propext
* `Verif.C25.groups_kept`: none
* `Verif.C25.finding_delimiter_in_text`: propext
* `Verif.C23.Doc.marked`: Classical.choice, Quot.sound, propext
* `Verif.C23.Doc.filledAll`: Classical.choice, Quot.sound, propext

## C26

* `Verif.C26.cells_kept`: Classical.choice, Quot.sound, propext
* `Verif.C26.rows_full`: Classical.choice, Quot.sound, propext
* `Verif.C26.header_iff`: Classical.choice, Quot.sound, propext
* `Verif.C26.footer_iff`: Classical.choice, Quot.sound, propext
* `Verif.C26.panics_iff`: Classical.choice, Quot.sound, propext
* `Verif.C26.renders_iff`: Classical.choice, Quot.sound, propext
* `Verif.C26.finding_panics`: propext
* `Verif.C26.finding_header_only`: propext

## C27

* `Verif.C27.no_markup`: Classical.choice, Quot.sound, propext
* `Verif.C27.ampersands`: Classical.choice, Quot.sound, propext
* `Verif.C27.plain_unchanged`: Classical.choice, Quot.sound, propext
* `Verif.C27.idempotent`: Classical.choice, Quot.sound, propext
* `Verif.C27.meaning_kept`: Classical.choice, Quot.sound, propext
* `Verif.C27.recovered`: Classical.choice, Quot.sound, propext
* `Verif.C27.finding_ambiguous`: Classical.choice, Quot.sound, propext
* `Verif.C27.finding_bare_hash`: Classical.choice, Quot.sound, propext

## C28

* `Verif.C28.ascii`: Classical.choice, Quot.sound, propext
* `Verif.C28.unchanged`: Classical.choice, Quot.sound, propext
* `Verif.C28.meaning_kept`: Classical.choice, Quot.sound, propext
* `Verif.C28.recovered`: Classical.choice, Quot.sound, propext
* `Verif.C28.decimal_understood`: Classical.choice, Quot.sound, propext
* `Verif.C28.rendered`: Classical.choice, Quot.sound, propext

## C29

* `Verif.C29.numbering`: Classical.choice, Quot.sound, propext
* `Verif.C29.only_sections`: propext
* `Verif.C29.path_numbers`: Classical.choice, Quot.sound, propext
* `Verif.C29.numbers_distinct`: Classical.choice, Quot.sound, propext
* `Verif.C29.document_ids`: Classical.choice, Quot.sound, propext
* `Verif.C29.finding_preamble`: Classical.choice, Quot.sound, propext
* `Verif.C29.finding_dot`: Classical.choice, Quot.sound, propext
* `Verif.C29.finding_hidden_header`: Classical.choice, Quot.sound, propext

## C30

* `Verif.C30.consecutive`: Classical.choice, Quot.sound, propext
* `Verif.C30.caption_shown`: Classical.choice, Quot.sound, propext
* `Verif.C30.independent`: Classical.choice, Quot.sound, propext
* `Verif.C30.standard_captions`: Classical.choice, Quot.sound, propext
* `Verif.C30.finding_untitled_example`: Classical.choice, Quot.sound, propext
* `Verif.C30.finding_nested_example`: Classical.choice, Quot.sound, propext
* `Verif.C30.finding_footer_first`: Classical.choice, Quot.sound, propext
* `Verif.C30.finding_configured_caption_ignored`: Classical.choice, Quot.sound, propext

## C31

* `Verif.C31.no_problem_iff`: Classical.choice, Quot.sound, propext
* `Verif.C31.other_types`: Classical.choice, Quot.sound, propext
* `Verif.C31.crashes_iff`: Classical.choice, Quot.sound, propext
* `Verif.C31.problem_reported`: Classical.choice, Quot.sound, propext
* `Verif.C31.valid_rendered`: Classical.choice, Quot.sound, propext
* `Verif.C31.invalid_rendered`: Classical.choice, Quot.sound, propext
* `Verif.C31.article_rendered`: Classical.choice, Quot.sound, propext
* `Verif.C31.finding_panics`: Classical.choice, Quot.sound, propext
* `Verif.C31.finding_not_a_paragraph`: Classical.choice, Quot.sound, propext
* `Verif.C31.finding_front_matter`: Classical.choice, Quot.sound, propext
* `Verif.C31.finding_declared_doctype`: Classical.choice, Quot.sound, propext

## C33

* `Verif.C33.group_roles`: Classical.choice, Quot.sound, propext
* `Verif.C33.group_last_wins`: Classical.choice, Quot.sound, propext
* `Verif.C33.group_options`: Classical.choice, Quot.sound, propext
* `Verif.C33.option_texts`: propext
* `Verif.C33.group_options_replaced`: Classical.choice, Quot.sound, propext
* `Verif.C33.group_positionals`: Classical.choice, Quot.sound, propext
* `Verif.C33.built_new`: Classical.choice, Quot.sound, propext
* `Verif.C33.block_roles`: Classical.choice, Quot.sound, propext
* `Verif.C33.block_last_wins`: Classical.choice, Quot.sound, propext
* `Verif.C33.block_options_last_line`: Classical.choice, Quot.sound, propext
* `Verif.C33.block_order_independent`: Classical.choice, Quot.sound, propext
* `Verif.C33.finding_opts_replaces`: Classical.choice, Quot.sound, propext
* `Verif.C33.finding_options_of_lines_replaced`: Classical.choice, Quot.sound, propext
* `Verif.C33.finding_roles_text_dropped`: Classical.choice, Quot.sound, propext
* `Verif.C33.finding_options_not_trimmed`: Classical.choice, Quot.sound, propext
* `Verif.C33.finding_block_trumps_inline`: Classical.choice, Quot.sound, propext

## C42

* `Verif.C42.tables_good`: none
* `Verif.C42.positional_named`: Classical.choice, Quot.sound, propext
* `Verif.C42.mapping_order_independent`: Classical.choice, Quot.sound, propext
* `Verif.C42.mapping_idempotent`: Classical.choice, Quot.sound, propext
* `Verif.C42.paragraph_order_independent`: Classical.choice, Quot.sound, propext
* `Verif.C42.order_matters_otherwise`: Classical.choice, Quot.sound, propext

## C32

* `Verif.C32.options_last_wins`: Classical.choice, Quot.sound, propext
* `Verif.C32.attributes_last_wins`: Classical.choice, Quot.sound, propext
* `Verif.C32.attributes_replaced`: Classical.choice, Quot.sound, propext
* `Verif.C32.crashes_iff`: Classical.choice, Quot.sound, propext
* `Verif.C32.backend_agrees`: Classical.choice, Quot.sound, propext
* `Verif.C32.finding_backend_attributes_lost`: Classical.choice, Quot.sound, propext
* `Verif.C32.finding_order_matters`: Classical.choice, Quot.sound, propext
* `Verif.C32.finding_nil_map_panics`: Classical.choice, Quot.sound, propext
* `Verif.C32.finding_nil_map_backend`: Classical.choice, Quot.sound, propext
* `Verif.C32.finding_empty_backend`: Classical.choice, Quot.sound, propext
* `Verif.C32.finding_caller_map_changed`: Classical.choice, Quot.sound, propext

## C40

* `Verif.C40.config_after`: Classical.choice, Quot.sound, propext
* `Verif.C40.others_unchanged`: Classical.choice, Quot.sound, propext
* `Verif.C40.output_depends_on_refs`: Classical.choice, Quot.sound, propext
* `Verif.C40.second_conversion`: Classical.choice, Quot.sound, propext
* `Verif.C40.files_isolated`: Classical.choice, Quot.sound, propext
* `Verif.C40.finding_twice`: Classical.choice, Quot.sound, propext
* `Verif.C40.finding_caller_value_lost`: Classical.choice, Quot.sound, propext
* `Verif.C40.finding_second_file`: Classical.choice, Quot.sound, propext
* `Verif.C40.finding_builtin_appears`: Classical.choice, Quot.sound, propext
* `Verif.C40.finding_nil_attributes`: Classical.choice, Quot.sound, propext

## C43

* `Verif.C43.attributes_of_options`: Classical.choice, Quot.sound, propext
* `Verif.C43.finding_value_with_equals`: Classical.choice, Quot.sound, propext
* `Verif.C43.finding_unset_not_supported`: Classical.choice, Quot.sound, propext

## C34

* `Verif.C34.all_or_nothing`: Quot.sound, propext
* `Verif.C34.failure_writes_nothing`: Quot.sound, propext
* `Verif.C34.success_iff`: Quot.sound, propext
* `Verif.C34.finding_cli_loses_output`: Classical.choice, Quot.sound, propext
* `Verif.C34.finding_cli_loses_output_always`: Quot.sound, propext

## C44

* `Verif.C44.html5_body`: Classical.choice, Quot.sound, propext
* `Verif.C44.xhtml5_body`: Classical.choice, Quot.sound, propext
* `Verif.C44.html5_stylesheets`: Classical.choice, Quot.sound, propext
* `Verif.C44.xhtml5_stylesheets`: Classical.choice, Quot.sound, propext
* `Verif.C44.finding_description_xhtml`: Classical.choice, Quot.sound, propext
* `Verif.C44.finding_description_not_escaped`: Classical.choice, Quot.sound, propext

## C45

* `Verif.C45.parse_ends`: Classical.choice, Quot.sound, propext
* `Verif.C45.exp_ends`: Classical.choice, Quot.sound, propext
* `Verif.C45.parse_deterministic`: propext
* `Verif.C45.optional_parts_consume`: Classical.choice, Quot.sound, propext
* `Verif.C45.empty_positional`: Classical.choice, Quot.sound, propext
* `Verif.C45.checks_needed`: Quot.sound, propext

## C46

* `Verif.C46.fragment_consumes`: Classical.choice, Quot.sound, propext
* `Verif.C46.fragments_end`: Classical.choice, Quot.sound, propext
* `Verif.C46.fragments_tile`: Classical.choice, Quot.sound, propext
* `Verif.C48.fragments_at_lines`: Classical.choice, Quot.sound, propext

## C47

* `Verif.C47.inline_accepted`: Classical.choice, Quot.sound, propext
* `Verif.C47.empty_rejected`: propext
* `Verif.C47.tracked_not_empty`: Classical.choice, Quot.sound, propext

## C48

* `Verif.C48.accepted`: Classical.choice, Quot.sound, propext
* `Verif.C48.parsed_to_the_end`: Classical.choice, Quot.sound, propext
* `Verif.C48.fragments_at_lines`: Classical.choice, Quot.sound, propext
* `Verif.C48.rejected`: Classical.choice, Quot.sound, propext
* `Verif.C48.silently_dropped`: Classical.choice, Quot.sound, propext

## C49

* `Verif.C49.block_extent`: Classical.choice, Quot.sound, propext
* `Verif.C49.delimited_iff`: Classical.choice, Quot.sound, propext
* `Verif.C49.rest_unclosed`: Quot.sound, propext
* `Verif.C49.rest_closed`: Quot.sound, propext
* `Verif.C49.sized_line`: Classical.choice, Quot.sound, propext
* `Verif.C49.sized_closes`: Quot.sound, propext
* `Verif.C49.comment_any_length`: Classical.choice, Quot.sound, propext

## C50

* `Verif.C50.read_iff`: Classical.choice, Quot.sound, propext
* `Verif.C50.ifdef_iff`: Classical.choice, Quot.sound, propext
* `Verif.C50.ifndef_iff`: Classical.choice, Quot.sound, propext
* `Verif.C50.endif_iff`: Classical.choice, Quot.sound, propext
* `Verif.C50.reset_iff`: Classical.choice, Quot.sound, propext
* `Verif.C50.delimiter_iff`: Classical.choice, Quot.sound, propext
* `Verif.C50.title_iff`: Classical.choice, Quot.sound, propext
* `Verif.C50.declaration_only`: Classical.choice, Quot.sound, propext
* `Verif.C50.inclusion_only`: Classical.choice, Quot.sound, propext
* `Verif.C50.plain_line`: Classical.choice, Quot.sound, propext
* `Verif.C50.simple_declares`: Classical.choice, Quot.sound, propext
* `Verif.C50.document_unchanged`: Classical.choice, Quot.sound, propext
* `Verif.C50.condition_document`: Classical.choice, Quot.sound, propext
* `Verif.C50.no_such_name`: Classical.choice, Quot.sound, propext
* `Verif.C50.finding_comma`: Classical.choice, Quot.sound, propext
* `Verif.C50.finding_underscore`: Classical.choice, Quot.sound, propext
* `Verif.C50.finding_trailing_space`: Classical.choice, Quot.sound, propext
* `Verif.C50.finding_brace`: Classical.choice, Quot.sound, propext
* `Verif.C50.rawEnv_reads`: Classical.choice, Quot.sound, propext

## C51

* `Verif.C51.output_wellformed`: Classical.choice, Quot.sound, propext
* `Verif.C51.html_wellformed`: Classical.choice, Quot.sound, propext
* `Verif.C51.xhtml_wellformed`: Classical.choice, Quot.sound, propext
* `Verif.C51.element_wellformed`: Classical.choice, Quot.sound, propext
* `Verif.C51.sample_clean`: Classical.choice, Quot.sound, propext
* `Verif.C51.lib_ok`: Classical.choice, Quot.sound, propext
* `Verif.C51.finding_lt`: Classical.choice, Quot.sound, propext
* `Verif.C51.finding_no_label`: Classical.choice, Quot.sound, propext
* `Verif.C51.finding_icon_alt`: Classical.choice, Quot.sound, propext
* `Verif.C51.finding_alt_quotes`: Classical.choice, Quot.sound, propext
* `Verif.C51.finding_title_markup`: Classical.choice, Quot.sound, propext
* `Verif.C51.finding_horizontal`: Classical.choice, Quot.sound, propext
* `Verif.C51.finding_xhtml_quote`: Classical.choice, Quot.sound, propext
* `Verif.C51.finding_xhtml_reversed`: Classical.choice, Quot.sound, propext
* `Verif.C51.finding_xhtml_checkbox`: Classical.choice, Quot.sound, propext
* `Verif.C51.finding_injection`: Classical.choice, Quot.sound, propext
* `Verif.C51.finding_literal_roles`: Classical.choice, Quot.sound, propext
* `Verif.C51.finding_verse_panic`: Classical.choice, Quot.sound, propext
* `Verif.Html.markup_iff`: Classical.choice, Quot.sound, propext

## C52

* `Verif.C52.element_text`: Classical.choice, Quot.sound, propext
* `Verif.C52.element_context`: Classical.choice, Quot.sound, propext
* `Verif.C52.article_text`: Classical.choice, Quot.sound, propext
* `Verif.C52.article_page`: Classical.choice, Quot.sound, propext
* `Verif.C52.article_header`: Classical.choice, Quot.sound, propext
* `Verif.C52.manpage_text`: Classical.choice, Quot.sound, propext
* `Verif.C52.body_context`: Classical.choice, Quot.sound, propext
* `Verif.C52.occurs`: Classical.choice, Quot.sound, propext
* `Verif.C52.ordered`: Classical.choice, Quot.sound, propext
* `Verif.C52.lib_known`: Classical.choice, Quot.sound, propext
* `Verif.C52.lib_highlights`: Classical.choice, Quot.sound, propext
* `Verif.C52.sample_article`: Classical.choice, Quot.sound, propext
* `Verif.C52.finding_header_only`: Classical.choice, Quot.sound, propext
* `Verif.C52.finding_quote_title`: Classical.choice, Quot.sound, propext
* `Verif.C52.finding_pass_title`: Classical.choice, Quot.sound, propext
* `Verif.C52.finding_manpage`: Classical.choice, Quot.sound, propext
* `Verif.C52.finding_preamble_toc`: Classical.choice, Quot.sound, propext

## C53

* `Verif.C53.ends`: Classical.choice, Quot.sound, propext
* `Verif.C53.depth_irrelevant`: Classical.choice, Quot.sound, propext
* `Verif.C53.one_result`: Classical.choice, Quot.sound, propext
* `Verif.C53.result`: Classical.choice, Quot.sound, propext
* `Verif.C53.ends_without_references`: Classical.choice, Quot.sound, propext
* `Verif.C53.referring_ranked`: Classical.choice, Quot.sound, propext
* `Verif.C53.finding_circular`: Classical.choice, Quot.sound, propext

## C54

* `Verif.C54.no_panic`: Classical.choice, Quot.sound, propext
* `Verif.C54.no_panic_simple`: Classical.choice, Quot.sound, propext
* `Verif.C54.sample_no_panic`: Classical.choice, Quot.sound, propext
* `Verif.C54.finding_verse`: Classical.choice, Quot.sound, propext
* `Verif.C54.finding_email`: Classical.choice, Quot.sound, propext
* `Verif.C54.finding_email_first`: Classical.choice, Quot.sound, propext
* `Verif.C54.finding_manpage`: Classical.choice, Quot.sound, propext
* `Verif.C54.finding_empty`: Classical.choice, Quot.sound, propext

## C55

* `Verif.C55.renders`: Classical.choice, Quot.sound, propext
* `Verif.C55.no_failure`: Classical.choice, Quot.sound, propext
* `Verif.C55.sample_no_fail`: Classical.choice, Quot.sound, propext
* `Verif.C55.sample_ranked`: Classical.choice, Quot.sound, propext
* `Verif.C55.finding_toc`: Classical.choice, Quot.sound, propext
* `Verif.C55.finding_icons`: Classical.choice, Quot.sound, propext
* `Verif.C55.finding_labeled`: Classical.choice, Quot.sound, propext
* `Verif.C55.finding_source`: Classical.choice, Quot.sound, propext
* `Verif.C55.finding_title`: Classical.choice, Quot.sound, propext
* `Verif.C55.finding_reftext`: Classical.choice, Quot.sound, propext

## C56

* `Verif.C56.order_irrelevant`: Classical.choice, Quot.sound, propext
* `Verif.C56.loops_order_irrelevant`: Classical.choice, Quot.sound, propext
* `Verif.C56.finding_inline_order`: Classical.choice, Quot.sound, propext
* `Verif.C56.finding_leak`: Classical.choice, Quot.sound, propext

## C57

* `Verif.C57.no_panic`: Classical.choice, Quot.sound, propext
* `Verif.C57.no_panic_fragment`: Classical.choice, Quot.sound, propext
* `Verif.C57.sample_safe`: Classical.choice, Quot.sound, propext
* `Verif.C57.finding_empty_title`: Classical.choice, Quot.sound, propext
* `Verif.C57.finding_email`: Classical.choice, Quot.sound, propext
* `Verif.C57.finding_email_first`: Classical.choice, Quot.sound, propext
* `Verif.C57.finding_no_columns`: Classical.choice, Quot.sound, propext
* `Verif.C57.finding_one_row`: Classical.choice, Quot.sound, propext
* `Verif.C57.finding_title_fails`: Classical.choice, Quot.sound, propext

## C58

* `Verif.C58.left_alone`: Classical.choice, Quot.sound, propext
* `Verif.C58.no_other`: Classical.choice, Quot.sound, propext
* `Verif.C58.pieces_text_of`: propext
* `Verif.C58.pieces_one`: propext
* `Verif.C58.pieces_kinds`: propext
* `Verif.C58.passthrough_content`: Classical.choice, Quot.sound, propext
* `Verif.C58.verbatim_content`: Classical.choice, Quot.sound, propext
* `Verif.C58.finding_escaped_apostrophe`: Classical.choice, Quot.sound, propext
* `Verif.C58.finding_place_holder`: Classical.choice, Quot.sound, propext

## C59

* `Verif.C59.split_into_paragraphs`: Classical.choice, Quot.sound, propext
* `Verif.C59.paragraphs`: Classical.choice, Quot.sound, propext
* `Verif.C59.split_preprocessed`: Classical.choice, Quot.sound, propext
* `Verif.C59.paragraphs_preprocessed`: Classical.choice, Quot.sound, propext
* `Verif.C59.substituted`: Classical.choice, Quot.sound, propext
* `Verif.C59.left_as_they_are`: Classical.choice, Quot.sound, propext
* `Verif.C59.loopV_ends`: Classical.choice, Quot.sound, propext
* `Verif.C59.sample_good`: Classical.choice, Quot.sound, propext
* `Verif.C59.world_grammatical`: Classical.choice, Quot.sound, propext

## C60

* `Verif.C60.text_to_page`: Classical.choice, Quot.sound, propext
* `Verif.C60.page_of`: Classical.choice, Quot.sound, propext
* `Verif.C60.templates`: Classical.choice, Quot.sound, propext
* `Verif.C60.sample_good`: Classical.choice, Quot.sound, propext
* `Verif.C60.sample_plain`: Classical.choice, Quot.sound, propext
* `Verif.C60.plainCfg_article`: Classical.choice, Quot.sound, propext

## C61

* `Verif.C61.one_result`: propext
* `Verif.C61.ends`: Quot.sound, propext
* `Verif.C61.others_unchanged`: propext
* `Verif.C61.table_cells`: propext
* `Verif.C61.block_content`: propext
* `Verif.C61.fragment_error`: propext
* `Verif.C61.reader_shrinks`: Quot.sound, propext
* `Verif.C61.finding_cells`: Classical.choice, Quot.sound, propext

## C62

* `Verif.C62.text_to_page`: Classical.choice, Quot.sound, propext
* `Verif.C62.split_into_blocks`: Classical.choice, Quot.sound, propext
* `Verif.C62.split_preprocessed`: Classical.choice, Quot.sound, propext
* `Verif.C62.blocks_preprocessed`: Classical.choice, Quot.sound, propext
* `Verif.C62.elements_rule`: Classical.choice, Quot.sound, propext
* `Verif.C62.refine_block`: Classical.choice, Quot.sound, propext
* `Verif.C62.substituted_block`: Classical.choice, Quot.sound, propext
* `Verif.C62.filter_document`: propext
* `Verif.C62.rendered`: Classical.choice, Quot.sound, propext
* `Verif.C62.sample_good`: Classical.choice, Quot.sound, propext
* `Verif.C62.sample_plain`: Classical.choice, Quot.sound, propext
* `Verif.C62.reader_reads`: Classical.choice, Quot.sound, propext
* `Verif.C62.finding_open_block`: Classical.choice, Quot.sound, propext
* `Verif.C62.other_blocks`: Classical.choice, Quot.sound, propext

## C63

* `Verif.C63.text_to_page`: Classical.choice, Quot.sound, propext
* `Verif.C63.split_into_sections`: Classical.choice, Quot.sound, propext
* `Verif.C63.split_preprocessed`: Classical.choice, Quot.sound, propext
* `Verif.C63.sample_good`: Classical.choice, Quot.sound, propext
* `Verif.C63.sample_plain`: Classical.choice, Quot.sound, propext
* `Verif.C63.sem_place`: Quot.sound, propext
* `Verif.Nested.tree_nest`: Quot.sound, propext

## C64

* `Verif.C64.list_to_page`: Classical.choice, Quot.sound, propext
* `Verif.C64.list_fragment`: Classical.choice, Quot.sound, propext
* `Verif.C64.arrange_list`: Classical.choice, Quot.sound, propext
* `Verif.C64.list_shows`: Classical.choice, Quot.sound, propext
* `Verif.C64.sample_ok`: Classical.choice, Quot.sound, propext
* `Verif.C64.sample_lines`: Classical.choice, Quot.sound, propext
* `Verif.C64.sample_plain`: Classical.choice, Quot.sound, propext
* `Verif.C64.finding_two_digits`: Classical.choice, Quot.sound, propext
* `Verif.C63.text_to_page`: Classical.choice, Quot.sound, propext
* `Verif.C63.sem_list`: Quot.sound, propext

## C65

* `Verif.C65.text_to_page`: Classical.choice, Quot.sound, propext
* `Verif.C65.parsed`: Classical.choice, Quot.sound, propext
* `Verif.C65.substituted`: Classical.choice, Quot.sound, propext
* `Verif.C65.unambiguous`: Classical.choice, Quot.sound, propext
* `Verif.C65.draws_show`: Classical.choice, Quot.sound, propext
* `Verif.C65.sign_shown`: Classical.choice, Quot.sound, propext
* `Verif.C65.named_shown`: Classical.choice, Quot.sound, propext
* `Verif.C65.opens_nothing`: Quot.sound, propext
* `Verif.C65.closes_nothing`: Quot.sound, propext
* `Verif.C65.sample_page`: Classical.choice, Quot.sound, propext
* `Verif.C65.sample_good`: Classical.choice, Quot.sound, propext
* `Verif.C65.sample_content`: Classical.choice, Quot.sound, propext
* `Verif.C65.world_spoken`: Classical.choice, Quot.sound, propext
* `Verif.C65.sem_inl`: Quot.sound, propext
* `Verif.C65.finding_closing_byte`: Classical.choice, Quot.sound, propext
* `Verif.C65.finding_opening_byte`: Classical.choice, Quot.sound, propext
* `Verif.C65.finding_apostrophe_byte`: Classical.choice, Quot.sound, propext
* `Verif.C65.finding_script_raw`: Classical.choice, Quot.sound, propext
* `Verif.C65.finding_two_semicolons`: Classical.choice, Quot.sound, propext

## C66

* `Verif.C66.text_to_page`: Classical.choice, Quot.sound, propext
* `Verif.C66.content_parts`: Classical.choice, Quot.sound, propext
* `Verif.C66.sample_source`: Classical.choice, Quot.sound, propext
* `Verif.C66.sample_ok`: Classical.choice, Quot.sound, propext
* `Verif.C66.sample_lines`: Classical.choice, Quot.sound, propext
* `Verif.C66.sample_plain`: Classical.choice, Quot.sound, propext
* `Verif.C66.wholeCfg_plain`: Classical.choice, Quot.sound, propext
* `Verif.C66.sem_head`: Quot.sound, propext
* `Verif.C66.finding_one_digit`: Classical.choice, Quot.sound, propext
* `Verif.C66.two_digits`: Classical.choice, Quot.sound, propext
* `Verif.C66.finding_name_raw`: Classical.choice, Quot.sound, propext

## C67

* `Verif.C67.text_to_page`: Classical.choice, Quot.sound, propext
* `Verif.C67.items_parsed`: Classical.choice, Quot.sound, propext
* `Verif.C67.stage`: Classical.choice, Quot.sound, propext
* `Verif.C67.page_of`: Classical.choice, Quot.sound, propext
* `Verif.C67.sample_to_page`: Classical.choice, Quot.sound, propext
* `Verif.C67.sample_good`: Classical.choice, Quot.sound, propext
* `Verif.C67.sample_fits`: Classical.choice, Quot.sound, propext
* `Verif.C67.sample_source`: Classical.choice, Quot.sound, propext
* `Verif.C67.sample_page`: Classical.choice, Quot.sound, propext
* `Verif.C67.sem_code`: Classical.choice, Quot.sound, propext
* `Verif.C67.world_grammatical`: Classical.choice, Quot.sound, propext
* `Verif.C67.finding_hidden_start`: Classical.choice, Quot.sound, propext
* `Verif.C67.finding_value_escape`: Classical.choice, Quot.sound, propext
* `Verif.C67.empty_value`: Classical.choice, Quot.sound, propext
* `Verif.C67.finding_empty_value`: Classical.choice, Quot.sound, propext

## C68

* `Verif.C68.text_to_page`: Classical.choice, Quot.sound, propext
* `Verif.C68.rendered`: Classical.choice, Quot.sound, propext
* `Verif.C68.fold_grown`: Classical.choice, Quot.sound, propext
* `Verif.C68.shows`: Classical.choice, Quot.sound, propext
* `Verif.C68.recorded`: Classical.choice, Quot.sound, propext
* `Verif.C68.free_fresh`: Classical.choice, Quot.sound, propext
* `Verif.C68.sample_to_page`: Classical.choice, Quot.sound, propext
* `Verif.C68.sample_good`: Classical.choice, Quot.sound, propext
* `Verif.C68.sample_gapless`: Classical.choice, Quot.sound, propext
* `Verif.C68.finding_case`: Classical.choice, Quot.sound, propext

## C69

* `Verif.C69.text_to_page`: Classical.choice, Quot.sound, propext
* `Verif.C69.outlined_to_page`: Classical.choice, Quot.sound, propext
* `Verif.C69.stages_of`: Classical.choice, Quot.sound, propext
* `Verif.C69.tree_shows`: Classical.choice, Quot.sound, propext
* `Verif.C69.back_tree`: Quot.sound, propext
* `Verif.C69.aggregated`: Classical.choice, Quot.sound, propext
* `Verif.C69.not_numbered`: Classical.choice, Quot.sound, propext
* `Verif.C69.world_grammatical`: Classical.choice, Quot.sound, propext
* `Verif.C69.sample_to_page`: Classical.choice, Quot.sound, propext
* `Verif.C69.sample_outlined`: Classical.choice, Quot.sound, propext
* `Verif.C69.sample_good`: Classical.choice, Quot.sound, propext
* `Verif.C69.sample_ready`: Classical.choice, Quot.sound, propext

## C70

* `Verif.C65.exactly_ref`: Classical.choice, Quot.sound, propext
* `Verif.C65.exactly_macro`: Classical.choice, Quot.sound, propext
* `Verif.C65.ref_shows`: Classical.choice, Quot.sound, propext
* `Verif.C69.text_to_page`: Classical.choice, Quot.sound, propext
* `Verif.C69.fixed`: Classical.choice, Quot.sound, propext
* `Verif.C69.looked_up`: Classical.choice, Quot.sound, propext
* `Verif.C69.labelled`: Classical.choice, Quot.sound, propext
* `Verif.C70.by_identifier`: Classical.choice, Quot.sound, propext
* `Verif.C70.by_title`: Classical.choice, Quot.sound, propext
* `Verif.C70.with_label`: Classical.choice, Quot.sound, propext
* `Verif.C70.leads`: Classical.choice, Quot.sound, propext
* `Verif.C70.first_anchor`: Classical.choice, Quot.sound, propext
* `Verif.C69.sample_to_page`: Classical.choice, Quot.sound, propext
* `Verif.C70.finding_lower_case`: Classical.choice, Quot.sound, propext
* `Verif.C70.finding_space`: Classical.choice, Quot.sound, propext
* `Verif.C70.finding_short`: Classical.choice, Quot.sound, propext

## C71

* `Verif.C71.chosen_remain`: Classical.choice, Quot.sound, propext
* `Verif.C71.text_to_page`: Classical.choice, Quot.sound, propext
* `Verif.C71.outlined_to_page`: Classical.choice, Quot.sound, propext
* `Verif.C71.headed_to_page`: Classical.choice, Quot.sound, propext
* `Verif.C71.referenced_to_page`: Classical.choice, Quot.sound, propext
* `Verif.C71.parts_amount`: Classical.choice, Quot.sound, propext
* `Verif.C71.step_condition`: Classical.choice, Quot.sound, propext
* `Verif.C71.step_end`: Classical.choice, Quot.sound, propext
* `Verif.C71.parts_ok`: Classical.choice, Quot.sound, propext
* `Verif.C71.parts_written`: Classical.choice, Quot.sound, propext
* `Verif.C71.sample_to_page`: Classical.choice, Quot.sound, propext
* `Verif.C71.declared_ok`: Classical.choice, Quot.sound, propext
* `Verif.C71.declared_written`: Classical.choice, Quot.sound, propext
* `Verif.C71.finding_hidden_declaration`: Classical.choice, Quot.sound, propext

## C72

* `Verif.C72.inclusions_replaced`: Classical.choice, Quot.sound, propext
* `Verif.C72.text_to_page`: Classical.choice, Quot.sound, propext
* `Verif.C72.outlined_to_page`: Classical.choice, Quot.sound, propext
* `Verif.C72.headed_to_page`: Classical.choice, Quot.sound, propext
* `Verif.C72.referenced_to_page`: Classical.choice, Quot.sound, propext
* `Verif.C72.parts_amount`: Classical.choice, Quot.sound, propext
* `Verif.C72.yields_inclusion`: Classical.choice, Quot.sound, propext
* `Verif.C72.inclusion_read`: Classical.choice, Quot.sound, propext
* `Verif.C72.step_inclusion`: Classical.choice, Quot.sound, propext
* `Verif.C72.step_title`: Classical.choice, Quot.sound, propext
* `Verif.C72.include_file`: Classical.choice, Quot.sound, propext
* `Verif.C72.include_plain`: Classical.choice, Quot.sound, propext
* `Verif.C72.docParts_ok`: Classical.choice, Quot.sound, propext
* `Verif.C72.files_written`: Classical.choice, Quot.sound, propext
* `Verif.C72.sample_to_page`: Classical.choice, Quot.sound, propext
* `Verif.C72.version_ok`: Classical.choice, Quot.sound, propext
* `Verif.C72.finding_included_declaration`: Classical.choice, Quot.sound, propext
* `Verif.C72.finding_blank_lines`: Classical.choice, Quot.sound, propext

## C73

* `Verif.C72.read_picked`: Classical.choice, Quot.sound, propext
* `Verif.C72.read_tags`: Classical.choice, Quot.sound, propext
* `Verif.C72.inclusions_replaced`: Classical.choice, Quot.sound, propext
* `Verif.C72.text_to_page`: Classical.choice, Quot.sound, propext
* `Verif.C72.yields_attributes`: Classical.choice, Quot.sound, propext
* `Verif.C72.yields_named`: Classical.choice, Quot.sound, propext
* `Verif.C73.region_contained`: Classical.choice, Quot.sound, propext
* `Verif.C73.range_contained`: Classical.choice, Quot.sound, propext
* `Verif.C73.code_contained`: Classical.choice, Quot.sound, propext
* `Verif.C73.more_contained`: Classical.choice, Quot.sound, propext
* `Verif.C73.setup_contained`: Classical.choice, Quot.sound, propext
* `Verif.C73.docParts_ok`: Classical.choice, Quot.sound, propext
* `Verif.C73.files_written`: Classical.choice, Quot.sound, propext
* `Verif.C73.sample_to_page`: Classical.choice, Quot.sound, propext

## C74

* `Verif.C74.leads`: Classical.choice, Quot.sound, propext
* `Verif.C74.only_one`: Classical.choice, Quot.sound, propext
* `Verif.C74.none_found`: Classical.choice, Quot.sound, propext
* `Verif.C74.section_above`: Classical.choice, Quot.sound, propext
* `Verif.C74.shows_text`: Classical.choice, Quot.sound, propext
* `Verif.C74.shows_unknown`: Classical.choice, Quot.sound, propext
* `Verif.C74.shows_markup`: Classical.choice, Quot.sound, propext
* `Verif.C74.sample_ok`: Classical.choice, Quot.sound, propext
* `Verif.C74.sample_names`: Classical.choice, Quot.sound, propext
* `Verif.C74.sample_shows`: Classical.choice, Quot.sound, propext
* `Verif.C74.finding_image`: Classical.choice, Quot.sound, propext
* `Verif.C74.finding_taken`: Classical.choice, Quot.sound, propext
* `Verif.C74.taken_without`: Classical.choice, Quot.sound, propext

## C75

* `Verif.C75.which`: Classical.choice, Quot.sound, propext
* `Verif.C75.one_each`: Classical.choice, Quot.sound, propext
* `Verif.C75.adds_up`: Classical.choice, Quot.sound, propext
* `Verif.C75.near_share`: Classical.choice, Quot.sound, propext
* `Verif.C75.exact`: Classical.choice, Quot.sound, propext
* `Verif.C75.as_written`: Classical.choice, Quot.sound, propext
* `Verif.C75.none_written`: Classical.choice, Quot.sound, propext
* `Verif.C75.sixDigits_between`: Classical.choice, Quot.sound, propext
* `Verif.C75.sixDigits_exact`: Classical.choice, Quot.sound, propext
* `Verif.C75.trunc_truncates`: Classical.choice, Quot.sound, propext
* `Verif.C75.sample_weighted`: Classical.choice, Quot.sound, propext
* `Verif.C75.finding_two_to_one`: Classical.choice, Quot.sound, propext
* `Verif.C75.finding_nan`: Classical.choice, Quot.sound, propext
* `Verif.C75.finding_over`: Classical.choice, Quot.sound, propext

## C76

* `Verif.C76.src_any`: Classical.choice, Quot.sound, propext
* `Verif.C76.src_first`: Classical.choice, Quot.sound, propext
* `Verif.C76.roles_shown`: propext
* `Verif.C76.image_roles`: Classical.choice, Quot.sound, propext
* `Verif.C76.image_title`: propext
* `Verif.C76.block_written`: Classical.choice, Quot.sound, propext
* `Verif.C76.inline_written`: Classical.choice, Quot.sound, propext
* `Verif.C76.shown_first`: Classical.choice, Quot.sound, propext
* `Verif.C76.images`: Classical.choice, Quot.sound, propext
* `Verif.C76.left_alone`: none
* `Verif.C76.again_same`: Classical.choice, Quot.sound, propext
* `Verif.C76.draws_both`: Classical.choice, Quot.sound, propext
* `Verif.C76.sample_bare`: Classical.choice, Quot.sound, propext
* `Verif.C76.sample_shown`: Classical.choice, Quot.sound, propext
* `Verif.C76.finding_twice`: Classical.choice, Quot.sound, propext
* `Verif.C76.finding_section_title`: Classical.choice, Quot.sound, propext
* `Verif.C76.figure_first`: Classical.choice, Quot.sound, propext
* `Verif.C76.caption_numbered`: Classical.choice, Quot.sound, propext
* `Verif.C76.caption_own`: Classical.choice, Quot.sound, propext
* `Verif.C76.figures_numbered`: Classical.choice, Quot.sound, propext
* `Verif.C76.sample_figures`: Classical.choice, Quot.sound, propext

## C77

* `Verif.C77.cell_written`: Classical.choice, Quot.sound, propext
* `Verif.C77.headerCell_written`: Classical.choice, Quot.sound, propext
* `Verif.C77.footerCell_written`: Classical.choice, Quot.sound, propext
* `Verif.C77.blocks_written`: Classical.choice, Quot.sound, propext
* `Verif.C77.tableCell_written`: Classical.choice, Quot.sound, propext
* `Verif.C77.rowCells_written`: Classical.choice, Quot.sound, propext
* `Verif.C77.rows_written`: Classical.choice, Quot.sound, propext
* `Verif.C77.header_edge`: Classical.choice, Quot.sound, propext
* `Verif.C77.footer_edge`: Classical.choice, Quot.sound, propext
* `Verif.C77.columns_are`: Classical.choice, Quot.sound, propext
* `Verif.C77.trimmed_eq`: Classical.choice, Quot.sound, propext
* `Verif.C77.percent_eq`: Classical.choice, Quot.sound, propext
* `Verif.C77.caption_numbered`: Classical.choice, Quot.sound, propext
* `Verif.C77.caption_own`: Classical.choice, Quot.sound, propext
* `Verif.C77.caption_none`: Classical.choice, Quot.sound, propext
* `Verif.C77.table_written`: Classical.choice, Quot.sound, propext
* `Verif.C77.table_to_page`: Classical.choice, Quot.sound, propext
* `Verif.C77.element_to_page`: Classical.choice, Quot.sound, propext
* `Verif.C77.boxes_both`: Classical.choice, Quot.sound, propext
* `Verif.C77.sample_simple`: Classical.choice, Quot.sound, propext
* `Verif.C77.sample_fits`: Classical.choice, Quot.sound, propext
* `Verif.C77.sample_to_page`: Classical.choice, Quot.sound, propext
* `Verif.C77.finding_negative`: Classical.choice, Quot.sound, propext
* `Verif.C52.finding_header_only`: Classical.choice, Quot.sound, propext

## C78

* `Verif.C78.link_written`: Classical.choice, Quot.sound, propext
* `Verif.C78.roles_given`: Classical.choice, Quot.sound, propext
* `Verif.C78.bare_classes`: Classical.choice, Quot.sound, propext
* `Verif.C78.label_shown`: Classical.choice, Quot.sound, propext
* `Verif.C78.link_to_page`: Classical.choice, Quot.sound, propext
* `Verif.C78.leads`: Classical.choice, Quot.sound, propext
* `Verif.C78.another_window`: Classical.choice, Quot.sound, propext
* `Verif.C78.ext_of`: Classical.choice, Quot.sound, propext
* `Verif.C78.other_document`: Classical.choice, Quot.sound, propext
* `Verif.C78.ext_none`: Classical.choice, Quot.sound, propext
* `Verif.C78.this_document`: Classical.choice, Quot.sound, propext
* `Verif.C78.templates_both`: Classical.choice, Quot.sound, propext
* `Verif.C78.sample_stated`: Classical.choice, Quot.sound, propext
* `Verif.C78.sample_shown`: Classical.choice, Quot.sound, propext
* `Verif.C78.sample_other`: Classical.choice, Quot.sound, propext
* `Verif.C78.sample_here`: Classical.choice, Quot.sound, propext
* `Verif.C78.finding_part`: Classical.choice, Quot.sound, propext
* `Verif.C78.finding_quote`: Classical.choice, Quot.sound, propext
* `Verif.C78.finding_window`: Classical.choice, Quot.sound, propext
* `Verif.C78.finding_mail`: Classical.choice, Quot.sound, propext
* `Verif.C78.finding_empty`: Classical.choice, Quot.sound, propext

