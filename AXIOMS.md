# Axioms per theorem

Printed by `#print axioms`; written by `tools/gen_axioms.py`.

| property | theorem | axioms |
|---|---|---|
| C01 | Telefacts.C01_xmlns_resolves | propext, Classical.choice, Quot.sound |
| C02 | Telefacts.C02_one_prefix_per_namespace | propext, Classical.choice, Quot.sound |
| C03 | Telefacts.C03_injective_partial | propext, Classical.choice, Quot.sound |
| C03 | Telefacts.C03_injective_fails | propext, Classical.choice, Quot.sound |
| C03 | Telefacts.C03_given | propext, Classical.choice, Quot.sound |
| C03 | Telefacts.C03_exact | propext, Classical.choice, Quot.sound |
| C04 | Telefacts.C04_fresh_prefix | propext, Quot.sound |
| C04 | Telefacts.C04_provider_panics_iff | propext, Classical.choice, Quot.sound |
| C05 | Telefacts.C05_provideXmlName | propext, Classical.choice, Quot.sound |
| C06 | Telefacts.C06_provideName | propext, Classical.choice, Quot.sound |
| C07 | Telefacts.C07_names_agree_iff | propext, Classical.choice, Quot.sound |
| C08 | Telefacts.C08_inside_partial | propext, Classical.choice, Quot.sound |
| C08 | Telefacts.C08_fails | propext, Classical.choice, Quot.sound |
| C08 | Telefacts.C08_fails_url | propext, Classical.choice, Quot.sound |
| C08 | Telefacts.C08_exact | propext, Classical.choice, Quot.sound |
| C08 | Telefacts.C08_anywhere_fails | propext, Classical.choice, Quot.sound |
| C09 | Telefacts.C09_same_file_iff | propext, Classical.choice, Quot.sound |
| C10 | Telefacts.C10_discoverGlobalFile | propext, Classical.choice, Quot.sound |
| C11 | Telefacts.C11_terminates_iff | propext, Classical.choice, Quot.sound |
| C12 | Telefacts.C12_collects_reachable | propext, Classical.choice, Quot.sound |
| C13 | Telefacts.C13_schedule_independent | propext, Classical.choice, Quot.sound |
| C14 | Telefacts.C14_one_instance | propext, Classical.choice, Quot.sound |
| C15 | Telefacts.C15_existing_untouched | propext, Quot.sound |
| C15 | Telefacts.C15_id_was_unused | propext, Quot.sound |
| C15 | Telefacts.C15_ids_distinct | propext, Quot.sound |
| C15 | Telefacts.C15_key_id | propext, Quot.sound |
| C15 | Telefacts.C15_second_call | propext, Quot.sound |
| C16 | Telefacts.C16_created_has_metadata | propext, Quot.sound |
| C16 | Telefacts.C16_crash_states | propext, Quot.sound |
| C16 | Telefacts.C16_crash_without_metadata | propext, Classical.choice, Quot.sound |
| C16 | Telefacts.C16_key_lost | propext, Quot.sound |
| C17 | Telefacts.C17_crash_states | propext, Quot.sound |
| C17 | Telefacts.C17_success | propext, Quot.sound |
| C18 | Telefacts.C18_only_image_sources | propext, Classical.choice, Quot.sound |
| C19 | Telefacts.C19_presentation | propext, Classical.choice, Quot.sound |
| C19 | Telefacts.C19_definition | propext, Classical.choice, Quot.sound |
| C19 | Telefacts.C19_calculation | propext, Classical.choice, Quot.sound |
| C20 | Telefacts.C20_presentation | propext, Classical.choice, Quot.sound |
| C20 | Telefacts.C20_definition | propext, Classical.choice, Quot.sound |
| C20 | Telefacts.C20_calculation | propext, Classical.choice, Quot.sound |
| C21 | Telefacts.C21_flags_partial | propext, Classical.choice, Quot.sound |
| C21 | Telefacts.C21_fails | propext, Quot.sound |
| C21 | Telefacts.C21_flags | propext, Quot.sound |
| C21 | Telefacts.C21_exact | propext, Quot.sound |
| C22 | Telefacts.C22_facts | propext, Classical.choice, Quot.sound |
| C23 | Telefacts.C23_exact | propext, Classical.choice, Quot.sound |
| C23 | Telefacts.C23_precision_partial | propext, Classical.choice, Quot.sound |
| C23 | Telefacts.C23_fails | propext, Classical.choice, Quot.sound |
| C24 | Telefacts.C24_contexts | propext, Classical.choice, Quot.sound |
| C24 | Telefacts.C24_typed_fails | propext, Classical.choice, Quot.sound |
| C25 | Telefacts.C25_arcs_partial | propext, Classical.choice, Quot.sound |
| C25 | Telefacts.C25_unknown | propext, Classical.choice, Quot.sound |
| C25 | Telefacts.C25_dimension | propext, Classical.choice, Quot.sound |
| C25 | Telefacts.C25_panics | propext, Classical.choice, Quot.sound |
| C25 | Telefacts.C25_fails | propext, Classical.choice, Quot.sound |
| C25 | Telefacts.C25_exact | propext, Classical.choice, Quot.sound |
| C26 | Telefacts.C26_measurement_partial | propext, Quot.sound |
| C26 | Telefacts.C26_fails | propext, Quot.sound |
| C26 | Telefacts.C26_exact | propext, Quot.sound |
| C26 | Telefacts.C26_all_fails | propext, Quot.sound |
| C27 | Telefacts.C27_registry | propext, Classical.choice, Quot.sound |
| C27 | Telefacts.C27_file | propext, Classical.choice, Quot.sound |
| C28 | Telefacts.C28_round_trip | propext, Classical.choice, Quot.sound |
| C29 | Telefacts.C29_find_fact | propext, Classical.choice, Quot.sound |
| C30 | Telefacts.C30_footnotes_partial | propext, Classical.choice, Quot.sound |
| C30 | Telefacts.C30_fails | propext, Classical.choice, Quot.sound |
| C30 | Telefacts.C30_exact | propext, Classical.choice, Quot.sound |
| C31 | Telefacts.C31_document_partial | propext, Classical.choice, Quot.sound |
| C31 | Telefacts.C31_succeeds | propext, Classical.choice, Quot.sound |
| C31 | Telefacts.C31_fails | propext, Classical.choice, Quot.sound |
| C31 | Telefacts.C31_exact | propext, Classical.choice, Quot.sound |
| C32 | Telefacts.C32_subjects | propext, Classical.choice, Quot.sound |
| C33 | Telefacts.C33_relationship_sets | propext, Classical.choice, Quot.sound |
| C34 | Telefacts.C34_slugs_resolve | propext, Classical.choice, Quot.sound |
| C35 | Telefacts.C35_slugs_differ_partial | propext, Classical.choice, Quot.sound |
| C35 | Telefacts.C35_fails | propext, Classical.choice, Quot.sound |
| C35 | Telefacts.C35_all_fails | propext, Classical.choice, Quot.sound |
| C35 | Telefacts.C35_endless_fails | propext, Classical.choice, Quot.sound |
| C36 | Telefacts.C36_slug_shape | propext, Classical.choice, Quot.sound |
| C37 | Telefacts.C37_columns | propext, Classical.choice, Quot.sound |
| C37 | Telefacts.C37_entity | propext, Classical.choice, Quot.sound |
| C38 | Telefacts.C38_no_panic_partial | propext, Classical.choice, Quot.sound |
| C38 | Telefacts.C38_fails | propext, Classical.choice, Quot.sound |
| C39 | Telefacts.C39_sorted | propext, Classical.choice, Quot.sound |
| C39 | Telefacts.C39_columns | propext, Classical.choice, Quot.sound |
| C40 | Telefacts.C40_quadrant | propext, Classical.choice, Quot.sound |
| C40 | Telefacts.C40_found | propext, Quot.sound |
| C41 | Telefacts.C41_numbers_partial | propext, Classical.choice, Quot.sound |
| C41 | Telefacts.C41_single_partial | propext, Classical.choice, Quot.sound |
| C41 | Telefacts.C41_count_partial | propext, Classical.choice, Quot.sound |
| C41 | Telefacts.C41_noted_partial | propext, Classical.choice, Quot.sound |
| C41 | Telefacts.C41_fails | propext |
| C41 | Telefacts.C41_exact | propext, Classical.choice, Quot.sound |
| C42 | Telefacts.C42_grid | propext, Classical.choice, Quot.sound |
| C42 | Telefacts.C42_empty | propext, Classical.choice, Quot.sound |
| C43 | Telefacts.C43_explicit_partial | propext, Classical.choice, Quot.sound |
| C43 | Telefacts.C43_order_partial | propext, Classical.choice, Quot.sound |
| C43 | Telefacts.C43_fails | propext, Classical.choice, Quot.sound |
| C43 | Telefacts.C43_unknown_fails | propext, Classical.choice, Quot.sound |
| C43 | Telefacts.C43_exact | propext, Classical.choice, Quot.sound |
| C44 | Telefacts.C44_one_partial | propext, Classical.choice, Quot.sound |
| C44 | Telefacts.C44_fails | propext, Classical.choice, Quot.sound |
| C44 | Telefacts.C44_two_fails | propext, Classical.choice, Quot.sound |
| C45 | Telefacts.C45_rows | propext, Classical.choice, Quot.sound |
| C45 | Telefacts.C45_none | propext, Classical.choice, Quot.sound |
| C46 | Telefacts.C46_items_partial | propext, Classical.choice, Quot.sound |
| C46 | Telefacts.C46_order_partial | propext, Classical.choice, Quot.sound |
| C46 | Telefacts.C46_link_partial | propext, Classical.choice, Quot.sound |
| C46 | Telefacts.C46_fails | propext, Classical.choice, Quot.sound |
| C46 | Telefacts.C46_exact | propext, Classical.choice, Quot.sound |
| C47 | Telefacts.C47_graph | propext, Classical.choice, Quot.sound |
| C47 | Telefacts.C47_order | propext, Classical.choice, Quot.sound |
| C48 | Telefacts.C48_default_partial | propext, Classical.choice, Quot.sound |
| C48 | Telefacts.C48_fails | propext, Classical.choice, Quot.sound |
| C48 | Telefacts.C48_exact | propext, Classical.choice, Quot.sound |
| C49 | Telefacts.C49_labels | propext, Classical.choice, Quot.sound |
| C50 | Telefacts.C50_english_partial | propext, Classical.choice, Quot.sound |
| C50 | Telefacts.C50_fails | propext, Classical.choice, Quot.sound |
| C50 | Telefacts.C50_exact | propext, Classical.choice, Quot.sound |
| C51 | Telefacts.C51_offered_partial | propext, Classical.choice, Quot.sound |
| C51 | Telefacts.C51_grid_partial | propext, Classical.choice, Quot.sound |
| C51 | Telefacts.C51_fails | propext, Classical.choice, Quot.sound |
| C51 | Telefacts.C51_typed_fails | propext, Classical.choice, Quot.sound |
| C52 | Telefacts.C52_languages_partial | propext, Classical.choice, Quot.sound |
| C52 | Telefacts.C52_renderable_partial | propext, Classical.choice, Quot.sound |
| C52 | Telefacts.C52_same_partial | propext, Classical.choice, Quot.sound |
| C52 | Telefacts.C52_fails | propext |
| C52 | Telefacts.C52_any_fails | propext, Quot.sound |
| C52 | Telefacts.C52_depends_fails | propext, Quot.sound |
| C53 | Telefacts.C53_months | propext, Classical.choice, Quot.sound |
| C54 | Telefacts.C54_headers | propext, Classical.choice, Quot.sound |
| C55 | Telefacts.C55_english | propext, Classical.choice, Quot.sound |
| C56 | Telefacts.C56_missing_nil | propext, Classical.choice, Quot.sound |
| C56 | Telefacts.C56_entries | propext, Classical.choice, Quot.sound |
| C56 | Telefacts.C56_verbatim | propext, Classical.choice, Quot.sound |
| C57 | Telefacts.C57_no_panic | propext, Classical.choice, Quot.sound |
| C57 | Telefacts.C57_balanced | propext, Classical.choice, Quot.sound |
| C57 | Telefacts.C57_never_overclosed | propext, Classical.choice, Quot.sound |
| C58 | Telefacts.C58_whitelist | propext, Classical.choice, Quot.sound |
| C58 | Telefacts.C58_breaks | propext, Classical.choice, Quot.sound |
| C58 | Telefacts.C58_no_breaks_in_tables_partial | propext, Classical.choice, Quot.sound |
| C58 | Telefacts.C58_fails_stray | propext, Classical.choice, Quot.sound |
| C58 | Telefacts.C58_fails_text | propext, Classical.choice, Quot.sound |
| C59 | Telefacts.C59_renders_partial | propext, Classical.choice, Quot.sound |
| C59 | Telefacts.C59_exact | propext, Classical.choice, Quot.sound |
| C59 | Telefacts.C59_error | propext, Classical.choice, Quot.sound |
| C59 | Telefacts.C59_fails | propext, Classical.choice, Quot.sound |
| C60 | Telefacts.C60_transparent | propext, Classical.choice, Quot.sound |
| C60 | Telefacts.C60_deterministic | propext, Classical.choice, Quot.sound |
| C60 | Telefacts.C60_answers | propext, Classical.choice, Quot.sound |
| C60 | Telefacts.C60_every | propext, Classical.choice, Quot.sound |
| C61 | Telefacts.C61_partial | propext, Classical.choice, Quot.sound |
| C61 | Telefacts.C61_fails | propext, Classical.choice, Quot.sound |
| C61 | Telefacts.C61_fails_panic | propext, Classical.choice, Quot.sound |
| C61 | Telefacts.C61_all_fails | propext, Classical.choice, Quot.sound |
| C61 | Telefacts.C61_all_fails_panic | propext, Classical.choice, Quot.sound |
| C62 | Telefacts.C62_keys_disjoint | propext, Classical.choice, Quot.sound |
| C62 | Telefacts.C62_fails | propext, Classical.choice, Quot.sound |
| C62 | Telefacts.C62_all_fails | propext, Classical.choice, Quot.sound |
| C62 | Telefacts.C62_endless_fails | propext, Classical.choice, Quot.sound |
| C63 | Telefacts.C63_locks_released | propext, Classical.choice, Quot.sound |
| C63 | Telefacts.C63_fails | propext, Classical.choice, Quot.sound |
| C63 | Telefacts.C63_all_fails | propext, Classical.choice, Quot.sound |
| C64 | Telefacts.C64_published_stable | propext, Classical.choice, Quot.sound |
| C65 | Telefacts.C65_catalog | propext, Classical.choice, Quot.sound |
| C65 | Telefacts.C65_renderable | propext, Classical.choice, Quot.sound |
| C65 | Telefacts.C65_expressable | propext, Classical.choice, Quot.sound |
| C66 | Telefacts.C66_content_type | propext, Classical.choice, Quot.sound |
| C67 | Telefacts.C67_lookup_iff | propext, Classical.choice, Quot.sound |
| C68 | Telefacts.C68_global_transparent | propext, Classical.choice, Quot.sound |
| C69 | Telefacts.C69_sorted | propext, Classical.choice, Quot.sound |
| C69 | Telefacts.C69_listed | propext, Classical.choice, Quot.sound |
| C69 | Telefacts.C69_complete | propext, Classical.choice, Quot.sound |
| C70 | Telefacts.C70_partition | propext, Quot.sound |
| C71 | Telefacts.C71_label_links | propext, Quot.sound |
| C72 | Telefacts.C72_role_refs | propext, Quot.sound |
| C73 | Telefacts.C73_concepts | propext, Classical.choice, Quot.sound |
| C74 | Telefacts.C74_role_types_partial | propext, Classical.choice, Quot.sound |
| C74 | Telefacts.C74_fails | propext, Classical.choice, Quot.sound |
| C74 | Telefacts.C74_exact | propext, Classical.choice, Quot.sound |
| C75 | Telefacts.C75_name_query | propext, Classical.choice, Quot.sound |
| C75 | Telefacts.C75_exact | propext, Classical.choice, Quot.sound |
| C76 | Telefacts.C76_entity_query | propext, Quot.sound |
| C77 | Telefacts.C77_units | propext, Classical.choice, Quot.sound |
| C78 | Telefacts.C78_footnote_links | propext, Classical.choice, Quot.sound |
| C79 | Telefacts.C79_networks | propext, Classical.choice, Quot.sound |
| C80 | Telefacts.C80_locator | propext, Classical.choice, Quot.sound |
| C81 | Telefacts.C81_all_partial | propext, Classical.choice, Quot.sound |
| C81 | Telefacts.C81_fails | propext, Classical.choice, Quot.sound |
| C81 | Telefacts.C81_first_fails | propext, Classical.choice, Quot.sound |
| C82 | Telefacts.C82_last_partial | propext, Classical.choice, Quot.sound |
| C82 | Telefacts.C82_fails | propext, Classical.choice, Quot.sound |
| C82 | Telefacts.C82_exact | propext, Classical.choice, Quot.sound |
| C82 | Telefacts.C82_uniform_partial | propext, Classical.choice, Quot.sound |
| C83 | Telefacts.C83_one_partial | propext, Classical.choice, Quot.sound |
| C83 | Telefacts.C83_fails | propext, Classical.choice, Quot.sound |
| C83 | Telefacts.C83_exact | propext, Classical.choice, Quot.sound |
| C84 | Telefacts.C84_default_partial | propext, Classical.choice, Quot.sound |
| C84 | Telefacts.C84_fails | propext, Classical.choice, Quot.sound |
| C84 | Telefacts.C84_exact | propext, Classical.choice, Quot.sound |
| C85 | Telefacts.C85_roots | propext, Classical.choice, Quot.sound |
| C86 | Telefacts.C86_dimensions_partial | propext, Classical.choice, Quot.sound |
| C86 | Telefacts.C86_fails | propext, Classical.choice, Quot.sound |
| C86 | Telefacts.C86_exact | propext, Classical.choice, Quot.sound |
| C86 | Telefacts.C86_further_fails | propext, Classical.choice, Quot.sound |
| C87 | Telefacts.C87_numeric | propext, Classical.choice, Quot.sound |
| C87 | Telefacts.C87_not_a_number | propext, Classical.choice, Quot.sound |
| C87 | Telefacts.C87_english_unlabelled | propext, Classical.choice, Quot.sound |
| C88 | Telefacts.C88_expression | propext, Classical.choice, Quot.sound |
| C88 | Telefacts.C88_nothing | propext, Classical.choice, Quot.sound |
| C89 | Telefacts.C89_period | propext, Classical.choice, Quot.sound |
| C90 | Telefacts.C90_no_panic_partial | propext, Classical.choice, Quot.sound |
| C90 | Telefacts.C90_fails_no_document | propext, Classical.choice, Quot.sound |
| C90 | Telefacts.C90_fails_instance | propext, Classical.choice, Quot.sound |
| C91 | Telefacts.C91_rows_partial | propext, Classical.choice, Quot.sound |
| C91 | Telefacts.C91_fails | propext, Classical.choice, Quot.sound |
| C91 | Telefacts.C91_other_fails | propext, Classical.choice, Quot.sound |
| C92 | Telefacts.C92_presentation | propext, Classical.choice, Quot.sound |
| C93 | Telefacts.C93_calculation | propext, Classical.choice, Quot.sound |
| C93 | Telefacts.C93_definition | propext, Classical.choice, Quot.sound |
| C94 | Telefacts.C94_shown_partial | propext, Classical.choice, Quot.sound |
| C94 | Telefacts.C94_fails | propext, Classical.choice, Quot.sound |
| C94 | Telefacts.C94_exact | propext, Classical.choice, Quot.sound |
| C95 | Telefacts.C95_discovered | propext, Classical.choice, Quot.sound |
| C95 | Telefacts.C95_right | propext, Classical.choice, Quot.sound |
| C96 | Telefacts.C96_languages_partial | propext, Classical.choice, Quot.sound |
| C96 | Telefacts.C96_exact | propext, Classical.choice, Quot.sound |
| C96 | Telefacts.C96_fails | propext, Classical.choice, Quot.sound |
| C97 | Telefacts.C97_headers | propext, Classical.choice, Quot.sound |
| C98 | Telefacts.C98_unlabelled | propext, Classical.choice, Quot.sound |
| C99 | Telefacts.C99_instance | propext, Quot.sound |
| C99 | Telefacts.C99_schema | propext, Quot.sound |
| C99 | Telefacts.C99_linkbase | propext, Quot.sound |
| C99 | Telefacts.C99_registry | propext, Quot.sound |
| C100 | Telefacts.C100_exact | propext, Classical.choice, Quot.sound |
| C100 | Telefacts.C100_kept_partial | propext, Classical.choice, Quot.sound |
| C100 | Telefacts.C100_fails | propext, Classical.choice, Quot.sound |
| C101 | Telefacts.C101_succeeds | propext, Classical.choice, Quot.sound |
| C101 | Telefacts.C101_entries | propext, Classical.choice, Quot.sound |
| C101 | Telefacts.C101_disk | propext, Classical.choice, Quot.sound |
| C102 | Telefacts.C102_shown | propext, Classical.choice, Quot.sound |
| C103 | Telefacts.C103_catalog | propext, Classical.choice, Quot.sound |
| C103 | Telefacts.C103_facts | propext, Classical.choice, Quot.sound |
| C103 | Telefacts.C103_renderable | propext, Classical.choice, Quot.sound |
| C103 | Telefacts.C103_other | propext, Classical.choice, Quot.sound |
| C104 | Telefacts.C104_directory | propext, Classical.choice, Quot.sound |
| C104 | Telefacts.C104_absolute | propext, Classical.choice, Quot.sound |
| C105 | Telefacts.C105_file | propext, Classical.choice, Quot.sound |
| C105 | Telefacts.C105_only_own_files_partial | propext, Classical.choice, Quot.sound |
| C105 | Telefacts.C105_fails | propext, Classical.choice, Quot.sound |
| C105 | Telefacts.C105_out_fails | propext, Classical.choice, Quot.sound |
| C106 | Telefacts.C106_base64 | propext, Classical.choice, Quot.sound |
| C106 | Telefacts.C106_images | propext, Classical.choice, Quot.sound |
| C106 | Telefacts.C106_shown | propext, Classical.choice, Quot.sound |
| C107 | Telefacts.C107_decodes | propext, Classical.choice, Quot.sound |
| C107 | Telefacts.C107_known_partial | propext, Classical.choice, Quot.sound |
| C107 | Telefacts.C107_exact | propext, Classical.choice, Quot.sound |
| C107 | Telefacts.C107_fails | propext, Classical.choice, Quot.sound |
| C108 | Telefacts.C108_subjects | propext, Classical.choice, Quot.sound |
| C108 | Telefacts.C108_relationship_sets | propext, Classical.choice, Quot.sound |
| C108 | Telefacts.C108_networks | propext, Classical.choice, Quot.sound |
| C108 | Telefacts.C108_document | propext, Classical.choice, Quot.sound |
| C109 | Telefacts.C109_reads_back | propext, Classical.choice, Quot.sound |
| C109 | Telefacts.C109_tame | propext, Classical.choice, Quot.sound |
| C109 | Telefacts.C109_reader | propext, Classical.choice, Quot.sound |
| C110 | Telefacts.C110_order | propext, Classical.choice, Quot.sound |
| C110 | Telefacts.C110_contents | propext, Classical.choice, Quot.sound |
| C110 | Telefacts.C110_deterministic | propext, Classical.choice, Quot.sound |
| C110 | Telefacts.C110_reload | propext, Classical.choice, Quot.sound |
| C110 | Telefacts.C110_loadable | propext, Classical.choice, Quot.sound |
| C111 | Telefacts.C111_metadata | propext, Classical.choice, Quot.sound |
| C111 | Telefacts.C111_truncated | propext, Classical.choice, Quot.sound |
| C111 | Telefacts.C111_round_trip | propext, Classical.choice, Quot.sound |
| C111 | Telefacts.C111_crash | propext, Classical.choice, Quot.sound |
| C112 | Telefacts.C112_accepted | propext, Classical.choice, Quot.sound |
| C112 | Telefacts.C112_query | propext, Classical.choice, Quot.sound |
| C113 | Telefacts.C113_valid | propext, Classical.choice, Quot.sound |
| C113 | Telefacts.C113_parts | propext, Classical.choice, Quot.sound |
| C114 | Telefacts.C114_named_partial | propext, Classical.choice, Quot.sound |
| C114 | Telefacts.C114_fails | propext, Classical.choice, Quot.sound |
| C115 | Telefacts.C115_same_file | propext, Classical.choice, Quot.sound |
| C115 | Telefacts.C115_inside | propext, Classical.choice, Quot.sound |
| C116 | Telefacts.C116_renderable | propext, Classical.choice, Quot.sound |
| C117 | Telefacts.C117_expression | propext, Classical.choice, Quot.sound |
| C118 | Telefacts.C118_served | propext, Classical.choice, Quot.sound |
| C119 | Telefacts.C119_tree | propext, Classical.choice, Quot.sound |
| C119 | Telefacts.C119_unique | propext, Classical.choice, Quot.sound |
| C119 | Telefacts.C119_inside | propext, Classical.choice, Quot.sound |
| C119 | Telefacts.C119_declaration | propext, Classical.choice, Quot.sound |
| C119 | Telefacts.C119_declaration_unclosed | propext, Classical.choice, Quot.sound |
| C120 | Telefacts.C120_partial | propext, Classical.choice, Quot.sound |
| C120 | Telefacts.C120_exact | propext, Classical.choice, Quot.sound |
| C120 | Telefacts.C120_fails | propext, Classical.choice, Quot.sound |
| C120 | Telefacts.C120_after_fails | propext, Classical.choice, Quot.sound |
| C121 | Telefacts.C121_ends_partial | propext, Classical.choice, Quot.sound |
| C121 | Telefacts.C121_tokens | propext, Classical.choice, Quot.sound |
| C121 | Telefacts.C121_fails | propext, Classical.choice, Quot.sound |
| C121 | Telefacts.C121_all_fails | propext, Classical.choice, Quot.sound |
| C122 | Telefacts.C122_text_partial | propext, Classical.choice, Quot.sound |
| C122 | Telefacts.C122_exact | propext, Classical.choice, Quot.sound |
| C122 | Telefacts.C122_fails | propext, Classical.choice, Quot.sound |
| C123 | Telefacts.C123_text | propext, Classical.choice, Quot.sound |
| C124 | Telefacts.C124_catalog_same | propext, Classical.choice, Quot.sound |
| C124 | Telefacts.C124_catalog | propext, Classical.choice, Quot.sound |
| C124 | Telefacts.C124_follow | propext, Classical.choice, Quot.sound |
| C124 | Telefacts.C124_fact | propext, Classical.choice, Quot.sound |
| C124 | Telefacts.C124_served | propext, Classical.choice, Quot.sound |
| C125 | Telefacts.C125_same | propext, Classical.choice, Quot.sound |
| C125 | Telefacts.C125_follow | propext, Classical.choice, Quot.sound |
| C125 | Telefacts.C125_served | propext, Classical.choice, Quot.sound |
| C125 | Telefacts.C125_fact | propext, Classical.choice, Quot.sound |
| C126 | Telefacts.C126_partial | propext, Classical.choice, Quot.sound |
| C126 | Telefacts.C126_exact | propext, Classical.choice, Quot.sound |
| C126 | Telefacts.C126_fails | propext, Classical.choice, Quot.sound |
| C127 | Telefacts.C127_own_partial | propext, Classical.choice, Quot.sound |
| C127 | Telefacts.C127_fails | propext, Classical.choice, Quot.sound |
| C127 | Telefacts.C127_exact | propext, Classical.choice, Quot.sound |
| C128 | Telefacts.C128_labels_partial | propext, Classical.choice, Quot.sound |
| C128 | Telefacts.C128_fails | propext, Classical.choice, Quot.sound |
| C129 | Telefacts.C129_own_partial | propext, Classical.choice, Quot.sound |
| C129 | Telefacts.C129_fails | propext, Classical.choice, Quot.sound |
| C129 | Telefacts.C129_exact | propext, Classical.choice, Quot.sound |
| C130 | Telefacts.C130_usable_partial | propext, Classical.choice, Quot.sound |
| C130 | Telefacts.C130_fails | propext, Classical.choice, Quot.sound |
| C131 | Telefacts.C131_ends_partial | propext, Classical.choice, Quot.sound |
| C131 | Telefacts.C131_fails | propext, Classical.choice, Quot.sound |
| C132 | Telefacts.C132_arcs | propext, Classical.choice, Quot.sound |
| C132 | Telefacts.C132_rows | propext, Classical.choice, Quot.sound |
| C132 | Telefacts.forest_exists | propext, Quot.sound |
| C133 | Telefacts.C133_fact | propext, Classical.choice, Quot.sound |
| C133 | Telefacts.C133_tagged | propext, Classical.choice, Quot.sound |
| C133 | Telefacts.C133_served | propext, Classical.choice, Quot.sound |
| C133 | Telefacts.C133_http | propext, Classical.choice, Quot.sound |
| C134 | Telefacts.C134_exact | propext, Classical.choice, Quot.sound |
| C134 | Telefacts.C134_labels_partial | propext, Quot.sound |
| C134 | Telefacts.C134_partial | propext, Classical.choice, Quot.sound |
| C134 | Telefacts.C134_fails | propext, Quot.sound |
| C135 | Telefacts.C135_document | propext, Classical.choice, Quot.sound |
| C135 | Telefacts.C135_same | propext, Classical.choice, Quot.sound |
| C135 | Telefacts.C135_served | propext, Classical.choice, Quot.sound |
| C135 | Telefacts.C135_only | propext, Classical.choice, Quot.sound |
| C135 | Telefacts.C135_http | propext, Classical.choice, Quot.sound |
| C136 | Telefacts.C136_one_partial | propext, Classical.choice, Quot.sound |
| C136 | Telefacts.C136_fails | propext, Classical.choice, Quot.sound |
| C136 | Telefacts.C136_witness | propext, Classical.choice, Quot.sound |
| C136 | Telefacts.C136_exact | propext, Classical.choice, Quot.sound |
| C137 | Telefacts.C137_roles_partial | propext, Classical.choice, Quot.sound |
| C137 | Telefacts.C137_exact | propext, Classical.choice, Quot.sound |
| C137 | Telefacts.C137_fails | propext, Classical.choice, Quot.sound |
| C137 | Telefacts.C137_fails_instance | propext, Classical.choice, Quot.sound |
| C137 | Telefacts.C137_witness | propext, Classical.choice, Quot.sound |
| C138 | Telefacts.C138_kept_partial | propext, Classical.choice, Quot.sound |
| C138 | Telefacts.C138_exact | propext, Classical.choice, Quot.sound |
| C138 | Telefacts.C138_fails | propext, Classical.choice, Quot.sound |
| C138 | Telefacts.C138_fails_prefix | propext, Classical.choice, Quot.sound |
| C138 | Telefacts.C138_witness | propext, Classical.choice, Quot.sound |
| C139 | Telefacts.C139_order_partial | propext, Classical.choice, Quot.sound |
| C139 | Telefacts.C139_fails | propext, Classical.choice, Quot.sound |
| C139 | Telefacts.C139_witness | propext, Classical.choice, Quot.sound |
| C139 | Telefacts.C139_exact | propext, Classical.choice, Quot.sound |
| C140 | Telefacts.C140_arcs | propext, Classical.choice, Quot.sound |
| C140 | Telefacts.C140_items | propext, Classical.choice, Quot.sound |
| C141 | Telefacts.C141_months_partial | propext, Classical.choice, Quot.sound |
| C141 | Telefacts.C141_fails | propext, Classical.choice, Quot.sound |
| C141 | Telefacts.C141_exact | propext, Classical.choice, Quot.sound |
| C142 | Telefacts.C142_exact | propext, Classical.choice, Quot.sound |
| C142 | Telefacts.C142_partial | propext, Classical.choice, Quot.sound |
| C142 | Telefacts.C142_fails | propext, Classical.choice, Quot.sound |
| C143 | Telefacts.C143_number | propext, Classical.choice, Quot.sound |
| C143 | Telefacts.C143_other | propext, Classical.choice, Quot.sound |
| C143 | Telefacts.C143_order_partial | propext, Classical.choice, Quot.sound |
| C143 | Telefacts.C143_separated_partial | propext, Classical.choice, Quot.sound |
| C143 | Telefacts.C143_fails | propext, Classical.choice, Quot.sound |
| C144 | Telefacts.C144_weight_partial | propext, Classical.choice, Quot.sound |
| C144 | Telefacts.C144_nearest_partial | propext, Classical.choice, Quot.sound |
| C144 | Telefacts.C144_fails | propext, Classical.choice, Quot.sound |
| C145 | Telefacts.C145_shown_partial | propext, Classical.choice, Quot.sound |
| C145 | Telefacts.C145_fails | propext, Classical.choice, Quot.sound |
| C146 | Telefacts.C146_labels | propext, Classical.choice, Quot.sound |
| C146 | Telefacts.C146_shown | propext, Classical.choice, Quot.sound |
| C147 | Telefacts.C147_published_fails | propext, Classical.choice, Quot.sound |
| C147 | Telefacts.C147_located_partial | propext, Classical.choice, Quot.sound |
| C148 | Telefacts.C148_several_files_fails | propext, Classical.choice, Quot.sound |
| C148 | Telefacts.C147_located_partial | propext, Classical.choice, Quot.sound |
| C149 | Telefacts.C149_respelled_fails | propext, Classical.choice, Quot.sound |
| C149 | Telefacts.C149_row_partial | propext, Classical.choice, Quot.sound |
| C150 | Telefacts.C150_alike_fails | propext, Classical.choice, Quot.sound |
| C150 | Telefacts.C150_once_partial | propext, Classical.choice, Quot.sound |
| C151 | Telefacts.C151_published_fails | propext, Classical.choice, Quot.sound |
| C151 | Telefacts.C151_local_partial | propext, Classical.choice, Quot.sound |
| C152 | Telefacts.C152_measure_partial | propext, Classical.choice, Quot.sound |
| C152 | Telefacts.C152_file_partial | propext, Classical.choice, Quot.sound |
| C152 | Telefacts.C152_none_partial | propext, Classical.choice, Quot.sound |
| C152 | Telefacts.C152_divide_fails | propext, Classical.choice, Quot.sound |
| C153 | Telefacts.C153_partial | propext, Classical.choice, Quot.sound |
| C153 | Telefacts.C153_single_partial | propext, Classical.choice, Quot.sound |
| C153 | Telefacts.C153_fails | propext, Classical.choice, Quot.sound |
| C154 | Telefacts.C154_disk_partial | propext, Classical.choice, Quot.sound |
| C154 | Telefacts.C154_isolated_partial | propext, Classical.choice, Quot.sound |
| C154 | Telefacts.C154_loading_partial | propext, Classical.choice, Quot.sound |
| C154 | Telefacts.C154_rendering_partial | propext, Classical.choice, Quot.sound |
| C154 | Telefacts.C154_astray_fails | propext, Classical.choice, Quot.sound |
| C154 | Telefacts.C154_fails | propext, Classical.choice, Quot.sound |
| C154 | Telefacts.C154_document_fails | propext, Classical.choice, Quot.sound |
| C155 | Telefacts.C155_served | propext, Classical.choice, Quot.sound |
| C155 | Telefacts.C155_unusable | propext, Classical.choice, Quot.sound |
| C155 | Telefacts.C155_main | propext, Classical.choice, Quot.sound |
| C155 | Telefacts.C155_fails | propext, Classical.choice, Quot.sound |
| C155 | Telefacts.C155_panics | propext, Classical.choice, Quot.sound |
| C156 | Telefacts.C156_close_partial | propext, Classical.choice, Quot.sound |
| C156 | Telefacts.C156_long_partial | propext, Classical.choice, Quot.sound |
| C156 | Telefacts.C156_whole | propext, Classical.choice, Quot.sound |
| C156 | Telefacts.C156_accuracy | propext, Classical.choice, Quot.sound |
| C156 | Telefacts.C156_fails | propext, Classical.choice, Quot.sound |
| C156 | Telefacts.C156_accuracy_fails | propext, Classical.choice, Quot.sound |
| C157 | Telefacts.C157_exact | propext, Classical.choice, Quot.sound |
| C157 | Telefacts.C157_default | propext, Classical.choice, Quot.sound |
| C157 | Telefacts.C157_variables | propext, Classical.choice, Quot.sound |
| C158 | Telefacts.C158_kept | propext, Classical.choice, Quot.sound |
| C158 | Telefacts.C158_folders_partial | propext, Classical.choice, Quot.sound |
| C158 | Telefacts.C158_grows_fails | propext, Classical.choice, Quot.sound |
| C158 | Telefacts.C158_server_fails | propext, Classical.choice, Quot.sound |
| C159 | Telefacts.C159_table_partial | propext, Classical.choice, Quot.sound |
| C159 | Telefacts.C159_nested_fails | propext, Classical.choice, Quot.sound |
| C159 | Telefacts.C159_rows_fails | propext, Classical.choice, Quot.sound |
| C160 | Telefacts.C160_linear_partial | propext, Classical.choice, Quot.sound |
| C160 | Telefacts.C160_fails | propext, Classical.choice, Quot.sound |
| C160 | Telefacts.C160_bounds | propext, Classical.choice, Quot.sound |
| C161 | Telefacts.C161_exact | propext, Classical.choice, Quot.sound |
| C161 | Telefacts.C161_partial | propext, Classical.choice, Quot.sound |
| C161 | Telefacts.C161_fails | propext, Classical.choice, Quot.sound |
| C161 | Telefacts.C161_forever_fails | propext, Classical.choice, Quot.sound |
| C162 | Telefacts.C162_loads | propext, Classical.choice, Quot.sound |
| C162 | Telefacts.C162_exact | propext, Classical.choice, Quot.sound |
| C162 | Telefacts.C162_once_partial | propext, Classical.choice, Quot.sound |
| C162 | Telefacts.C162_fails | propext, Classical.choice, Quot.sound |
| C163 | Telefacts.C163_exact | propext, Classical.choice, Quot.sound |
| C163 | Telefacts.C163_direct_partial | propext, Classical.choice, Quot.sound |
| C163 | Telefacts.C163_unread_fails | propext, Classical.choice, Quot.sound |
| C163 | Telefacts.C163_fails | propext, Classical.choice, Quot.sound |
| C164 | Telefacts.C164_prefixes | propext, Classical.choice, Quot.sound |
| C164 | Telefacts.C164_answers | propext, Classical.choice, Quot.sound |
| C165 | Telefacts.C165_order_partial | propext, Classical.choice, Quot.sound |
| C165 | Telefacts.C165_exact | propext, Classical.choice, Quot.sound |
| C165 | Telefacts.C165_fails | propext, Classical.choice, Quot.sound |
| C166 | Telefacts.C166_root_partial | propext, Classical.choice, Quot.sound |
| C166 | Telefacts.C166_fails | propext, Classical.choice, Quot.sound |
| C166 | Telefacts.C166_witness | propext, Classical.choice, Quot.sound |
| C167 | Telefacts.C167_agree | propext, Classical.choice, Quot.sound |
| C168 | Telefacts.C168_answers | propext, Classical.choice, Quot.sound |
| C168 | Telefacts.C168_served | propext, Classical.choice, Quot.sound |
| C169 | Telefacts.C169_answers_partial | propext, Classical.choice, Quot.sound |
| C169 | Telefacts.C169_served_partial | propext, Classical.choice, Quot.sound |
| C169 | Telefacts.C169_image | propext, Classical.choice, Quot.sound |
| C169 | Telefacts.C169_fails | propext, Classical.choice, Quot.sound |
| C169 | Telefacts.C169_panic_fails | propext, Classical.choice, Quot.sound |
| C170 | Telefacts.C170_slugs | propext, Classical.choice, Quot.sound |
| C170 | Telefacts.C170_leads | propext, Classical.choice, Quot.sound |
| C170 | Telefacts.C170_keys | propext, Classical.choice, Quot.sound |
| C171 | Telefacts.C171_calculation | propext, Classical.choice, Quot.sound |
| C171 | Telefacts.C171_calculation_only | propext, Classical.choice, Quot.sound |
| C171 | Telefacts.C171_presentation | propext, Classical.choice, Quot.sound |
| C171 | Telefacts.C171_presentation_only | propext, Classical.choice, Quot.sound |
| C171 | Telefacts.C171_definition | propext, Classical.choice, Quot.sound |
| C171 | Telefacts.C171_definition_only | propext, Classical.choice, Quot.sound |
| C172 | Telefacts.C172_stale_fails | propext, Classical.choice, Quot.sound |
| C172 | Telefacts.C172_old_fails | propext, Classical.choice, Quot.sound |
| C172 | Telefacts.C172_broken_fails | propext, Classical.choice, Quot.sound |
| C172 | Telefacts.C172_new_partial | propext, Classical.choice, Quot.sound |
| C172 | Telefacts.C172_dry | propext, Classical.choice, Quot.sound |
| C172 | Telefacts.C172_served_fails | propext, Classical.choice, Quot.sound |
| C172 | Telefacts.C172_served_partial | propext, Classical.choice, Quot.sound |
| C173 | Telefacts.C173_partial | propext, Classical.choice, Quot.sound |
| C173 | Telefacts.C173_served_partial | propext, Classical.choice, Quot.sound |
| C173 | Telefacts.C173_catalog_partial | propext, Classical.choice, Quot.sound |
| C173 | Telefacts.C173_mixed_fails | propext, Classical.choice, Quot.sound |
| C174 | Telefacts.C174_discover_maps | propext, Quot.sound |
| C174 | Telefacts.C174_discover_refines | propext, Quot.sound |
| C174 | Telefacts.C174_discover_orders | propext, Quot.sound |
| C174 | Telefacts.C174_decode_maps | propext, Classical.choice, Quot.sound |
| C174 | Telefacts.C174_hydrate_maps | propext, Classical.choice, Quot.sound |
| C175 | Telefacts.C175_decode_fails | propext, Classical.choice, Quot.sound |
| C175 | Telefacts.C175_render_fails | propext, Classical.choice, Quot.sound |
| C175 | Telefacts.C175_render_exact | propext, Classical.choice, Quot.sound |
| C175 | Telefacts.C175_hydrate_exact | propext, Classical.choice, Quot.sound |
| C175 | Telefacts.C175_partial | propext, Quot.sound |
| C176 | Telefacts.C176_expression_partial | propext, Classical.choice, Quot.sound |
| C176 | Telefacts.C176_label | propext, Classical.choice, Quot.sound |
| C176 | Telefacts.C176_label_fails | propext, Classical.choice, Quot.sound |
| C176 | Telefacts.C176_renderable_partial | propext, Classical.choice, Quot.sound |
| C176 | Telefacts.C176_first_fails | propext, Classical.choice, Quot.sound |
| C176 | Telefacts.C176_fails | propext, Classical.choice, Quot.sound |
| C177 | Telefacts.C177_catalog | propext, Classical.choice, Quot.sound |
| C177 | Telefacts.C177_expression_partial | propext, Classical.choice, Quot.sound |
| C177 | Telefacts.C177_renderable_partial | propext, Classical.choice, Quot.sound |
| C177 | Telefacts.C177_determined_partial | propext, Classical.choice, Quot.sound |
| C177 | Telefacts.C177_fails | propext, Classical.choice, Quot.sound |
| C178 | Telefacts.C178_exact | propext, Classical.choice, Quot.sound |
| C178 | Telefacts.C178_executions | propext, Classical.choice, Quot.sound |
| C178 | Telefacts.C178_fails | propext, Classical.choice, Quot.sound |
| C179 | Telefacts.C179_catalog | propext, Classical.choice, Quot.sound |
| C179 | Telefacts.C179_request | propext, Classical.choice, Quot.sound |
