{
 "claims": [
  {
   "property": "C01",
   "status": "proved",
   "theorems": [
    "Verif.c01_total",
    "Verif.c01_total_custom",
    "Verif.c01_nesting_bounded",
    "Verif.c01_recursive_equation",
    "Verif.c01_unnamed_letter_raises",
    "Verif.c01_incomplete_data_raises",
    "Verif.c01_recursion_limit"
   ],
   "note": ""
  },
  {
   "property": "C02",
   "status": "proved",
   "theorems": [
    "Verif.c02_same_tags",
    "Verif.c02_same_list",
    "Verif.c02_same_tags_custom",
    "Verif.c02_custom_disagreement"
   ],
   "note": ""
  },
  {
   "property": "C03",
   "status": "proved",
   "theorems": [
    "Verif.c03_parse_spells",
    "Verif.c03_russian"
   ],
   "note": ""
  },
  {
   "property": "C04",
   "status": "proved",
   "theorems": [
    "Verif.c04_is_known",
    "Verif.c04_default_substs",
    "Verif.c04_strict"
   ],
   "note": ""
  },
  {
   "property": "C05",
   "status": "proved",
   "theorems": [
    "Verif.c05_lookup",
    "Verif.c05_lookup_default",
    "Verif.c05_target_matches_itself",
    "Verif.c05_default_targets"
   ],
   "note": ""
  },
  {
   "property": "C06",
   "status": "proved",
   "theorems": [
    "Verif.c06_parse_first_group",
    "Verif.c06_tag_first_group",
    "Verif.c06_known_word_not_predicted"
   ],
   "note": ""
  },
  {
   "property": "C07",
   "status": "proved",
   "theorems": [
    "Verif.c07_parse",
    "Verif.c07_tag",
    "Verif.c07_tag_default"
   ],
   "note": ""
  },
  {
   "property": "C08",
   "status": "proved",
   "theorems": [
    "Verif.c08_parse_keys",
    "Verif.c08_parse_paradigms",
    "Verif.c08_tag",
    "Verif.c08_tag_default"
   ],
   "note": ""
  },
  {
   "property": "C09",
   "status": "proved",
   "theorems": [
    "Verif.c09_normal_forms"
   ],
   "note": ""
  },
  {
   "property": "C10",
   "status": "proved",
   "theorems": [
    "Verif.c10_unkn_alone",
    "Verif.c10_default"
   ],
   "note": ""
  },
  {
   "property": "C11",
   "status": "proved",
   "theorems": [
    "Verif.c11_with_data",
    "Verif.c11_without_data",
    "Verif.c11_no_estimator",
    "Verif.c11_not_always_sorted"
   ],
   "note": ""
  },
  {
   "property": "C12",
   "status": "proved",
   "theorems": [
    "Verif.c12_between_0_and_1",
    "Verif.c12_positive"
   ],
   "note": ""
  },
  {
   "property": "C13",
   "status": "proved",
   "theorems": [
    "Verif.c13_same_lexeme",
    "Verif.c13_same_lexeme_no_hyphen",
    "Verif.c13_same_lexeme_compounds",
    "Verif.c13_lexeme_exists"
   ],
   "note": ""
  },
  {
   "property": "C14",
   "status": "proved",
   "theorems": [
    "Verif.c14_member",
    "Verif.c14_member_known",
    "Verif.c14_overlap_defect",
    "Verif.c14_compound_defect"
   ],
   "note": ""
  },
  {
   "property": "C15",
   "status": "proved",
   "theorems": [
    "Verif.c15_first_form",
    "Verif.c15_spelling",
    "Verif.c15_compound_defect"
   ],
   "note": ""
  },
  {
   "property": "C16",
   "status": "proved",
   "theorems": [
    "Verif.c16_same_normal_form"
   ],
   "note": ""
  },
  {
   "property": "C17",
   "status": "proved",
   "theorems": [
    "Verif.c17_inflect",
    "Verif.c17_similarity_exact"
   ],
   "note": ""
  },
  {
   "property": "C18",
   "status": "proved",
   "theorems": [
    "Verif.c18_unknown_grammeme",
    "Verif.c18_value_error"
   ],
   "note": ""
  },
  {
   "property": "C19",
   "status": "proved",
   "theorems": [
    "Verif.c19_identity",
    "Verif.c19_twice"
   ],
   "note": ""
  },
  {
   "property": "C20",
   "status": "proved",
   "theorems": [
    "Verif.c20_classes",
    "Verif.c20_mod_100",
    "Verif.c20_noun_direct",
    "Verif.c20_noun_oblique",
    "Verif.c20_adjective",
    "Verif.c20_other",
    "Verif.c20_make_agree",
    "Verif.c20_negative",
    "Verif.c20_caseless_noun",
    "Verif.c20_adjective_loses_case"
   ],
   "note": ""
  },
  {
   "property": "C21",
   "status": "proved",
   "theorems": [
    "Verif.c21_analyses",
    "Verif.c21_first_name",
    "Verif.c21_patronymic"
   ],
   "note": ""
  },
  {
   "property": "C22",
   "status": "proved",
   "theorems": [
    "Verif.c22_contains",
    "Verif.c22_contains_set",
    "Verif.c22_alike"
   ],
   "note": ""
  },
  {
   "property": "C23",
   "status": "proved",
   "theorems": [
    "Verif.c23_parts",
    "Verif.c23_construct",
    "Verif.c23_eq",
    "Verif.c23_order",
    "Verif.c23_pickle"
   ],
   "note": ""
  },
  {
   "property": "C24",
   "status": "proved",
   "theorems": [
    "Verif.c24_value",
    "Verif.c24_order_irrelevant",
    "Verif.c24_error"
   ],
   "note": ""
  },
  {
   "property": "C25",
   "status": "proved",
   "theorems": [
    "Verif.c25_inverse",
    "Verif.c25_places",
    "Verif.c25_places_lat",
    "Verif.c25_grammemes_cyr",
    "Verif.c25_ambiguous"
   ],
   "note": ""
  },
  {
   "property": "C26",
   "status": "proved",
   "theorems": [
    "Verif.c26_last_load",
    "Verif.c26_leak_monotone",
    "Verif.c26_extra_exact",
    "Verif.c26_incompatible",
    "Verif.c26_reload",
    "Verif.c26_reload_changes",
    "Verif.c26_leaks",
    "Verif.c26_stale"
   ],
   "note": ""
  },
  {
   "property": "C27",
   "status": "proved",
   "theorems": [
    "Verif.c27_attribute",
    "Verif.c27_comparison",
    "Verif.c27_eq_iff_contains"
   ],
   "note": ""
  },
  {
   "property": "C28",
   "status": "proved",
   "theorems": [
    "Verif.c28_tables",
    "Verif.c28_lossless"
   ],
   "note": ""
  },
  {
   "property": "C29",
   "status": "proved",
   "theorems": [
    "Verif.c29_tables",
    "Verif.c29_invents_nothing"
   ],
   "note": ""
  },
  {
   "property": "C30",
   "status": "proved",
   "theorems": [
    "Verif.c30_sound",
    "Verif.c30_failures"
   ],
   "note": ""
  },
  {
   "property": "C31",
   "status": "proved",
   "theorems": [
    "Verif.c31_hang_adequate",
    "Verif.c31_join",
    "Verif.c31_unknown",
    "Verif.c31_excluded",
    "Verif.c31_cycle_loses",
    "Verif.c31_cycle_hangs"
   ],
   "note": ""
  },
  {
   "property": "C32",
   "status": "proved",
   "theorems": [
    "Verif.c32_meaning",
    "Verif.c32_grammemes",
    "Verif.c32_unifies",
    "Verif.c32_reintroduces",
    "Verif.c32_drop"
   ],
   "note": ""
  },
  {
   "property": "C33",
   "status": "proved",
   "theorems": [
    "Verif.c33_inverse",
    "Verif.c33_total",
    "Verif.c33_prefixes",
    "Verif.c33_stem",
    "Verif.c33_empty",
    "Verif.c33_unique",
    "Verif.c33_exact"
   ],
   "note": ""
  },
  {
   "property": "C34",
   "status": "proved",
   "theorems": [
    "Verif.c34_longest",
    "Verif.c34_empty",
    "Verif.c34_first"
   ],
   "note": ""
  },
  {
   "property": "C35",
   "status": "proved",
   "theorems": [
    "Verif.c35_spec",
    "Verif.c35_top",
    "Verif.c35_sublist"
   ],
   "note": ""
  },
  {
   "property": "C36",
   "status": "proved",
   "theorems": [
    "Verif.c36_save_fails_iff",
    "Verif.c36_size",
    "Verif.c36_bytes",
    "Verif.c36_round_trip",
    "Verif.c36_injective",
    "Verif.c36_other_machine",
    "Verif.c36_truncated"
   ],
   "note": ""
  },
  {
   "property": "C37",
   "status": "proved",
   "theorems": [
    "Verif.c37_accepted_iff",
    "Verif.c37_rejected"
   ],
   "note": ""
  },
  {
   "property": "C38",
   "status": "proved",
   "theorems": [
    "Verif.c38_update",
    "Verif.c38_killed"
   ],
   "note": ""
  },
  {
   "property": "C39",
   "status": "proved",
   "theorems": [
    "Verif.c39_keys_distinct",
    "Verif.c39_stored",
    "Verif.c39_not_stored",
    "Verif.c39_nonzero",
    "Verif.c39_collision"
   ],
   "note": ""
  },
  {
   "property": "C40",
   "status": "proved",
   "theorems": [
    "Verif.c40_word_splits_mem",
    "Verif.c40_word_splits_sorted"
   ],
   "note": ""
  },
  {
   "property": "C41",
   "status": "proved",
   "theorems": [
    "Verif.c41_enumerates",
    "Verif.c41_agrees_with_parse",
    "Verif.c41_in_its_lexeme"
   ],
   "note": ""
  },
  {
   "property": "C42",
   "status": "proved",
   "theorems": [
    "Verif.c42_prefixes",
    "Verif.c42_is_prefixed",
    "Verif.c42_splits_mem",
    "Verif.c42_splits_longest_first",
    "Verif.c42_splits_strict",
    "Verif.c42_splits_order_irrelevant",
    "Verif.c42_default_nodup"
   ],
   "note": ""
  },
  {
   "property": "C43",
   "status": "proved",
   "theorems": [
    "Verif.c43_tokens",
    "Verif.c43_lossless",
    "Verif.c43_shape",
    "Verif.c43_stable"
   ],
   "note": ""
  },
  {
   "property": "C44",
   "status": "proved",
   "theorems": [
    "Verif.c44_memo",
    "Verif.c44_cli",
    "Verif.c44_lru"
   ],
   "note": ""
  },
  {
   "property": "C45",
   "status": "proved",
   "theorems": [
    "Verif.c45_roman",
    "Verif.c45_injective",
    "Verif.c45_empty",
    "Verif.c45_newline_defect"
   ],
   "note": ""
  },
  {
   "property": "C46",
   "status": "proved",
   "theorems": [
    "Verif.c46_is_latin",
    "Verif.c46_is_latin_total",
    "Verif.c46_is_punctuation",
    "Verif.c46_disjoint"
   ],
   "note": ""
  },
  {
   "property": "C47",
   "status": "proved",
   "theorems": [
    "Verif.c47_same_up_to_case",
    "Verif.c47_hyphens",
    "Verif.c47_parts",
    "Verif.c47_whole",
    "Verif.c47_lower_example",
    "Verif.c47_idempotent",
    "Verif.c47_self",
    "Verif.c47_demo_laws",
    "Verif.c47_inner_capitals"
   ],
   "note": ""
  },
  {
   "property": "C48",
   "status": "proved",
   "theorems": [
    "Verif.c48_copy",
    "Verif.c48_same_process",
    "Verif.c48_substitutes_lost",
    "Verif.c48_estimator_lost"
   ],
   "note": ""
  },
  {
   "property": "C49",
   "status": "proved",
   "theorems": [
    "Verif.c49_dictionary",
    "Verif.c49_explicit_path",
    "Verif.c49_env_var",
    "Verif.c49_language",
    "Verif.c49_config",
    "Verif.c49_estimator",
    "Verif.c49_env_language",
    "Verif.c49_constructible"
   ],
   "note": ""
  },
  {
   "property": "C50",
   "status": "proved",
   "theorems": [
    "Verif.c50_serializable",
    "Verif.c50_all",
    "Verif.c50_same_answers",
    "Verif.c50_no_deadlock",
    "Verif.c50_terminates",
    "Verif.c50_lock_released",
    "Verif.c50_reader_fails",
    "Verif.c50_parse_fails",
    "Verif.c50_reader_safe"
   ],
   "note": ""
  },
  {
   "property": "C51",
   "status": "proved",
   "theorems": [
    "Verif.c51_transparent",
    "Verif.c51_no_blocking",
    "Verif.c51_is_latin",
    "Verif.c51_memo",
    "Verif.c51_grammemes_cyr",
    "Verif.c51_cyr_repr",
    "Verif.c51_cyr_stale",
    "Verif.c51_poisoned"
   ],
   "note": ""
  },
  {
   "property": "C52",
   "status": "proved",
   "theorems": [
    "Verif.c52_should_parse",
    "Verif.c52_answers"
   ],
   "note": ""
  },
  {
   "property": "C53",
   "status": "proved",
   "theorems": [
    "Verif.c53_parse",
    "Verif.c53_tag",
    "Verif.c53_default_initials",
    "Verif.c53_case_can_matter"
   ],
   "note": ""
  },
  {
   "property": "C54",
   "status": "proved",
   "theorems": [
    "Verif.c54_values",
    "Verif.c54_calls",
    "Verif.c54_cache"
   ],
   "note": ""
  },
  {
   "property": "C55",
   "status": "proved",
   "theorems": [
    "Verif.c55_forms",
    "Verif.c55_tag",
    "Verif.c55_deleted",
    "Verif.c55_one_base",
    "Verif.c55_kept",
    "Verif.c55_document",
    "Verif.c55_library_independent",
    "Verif.c55_accepted",
    "Verif.c55_version",
    "Verif.c55_demo"
   ],
   "note": ""
  },
  {
   "property": "C56",
   "status": "proved",
   "theorems": [
    "Verif.c56_round_trip",
    "Verif.c56_compile_save_load"
   ],
   "note": ""
  },
  {
   "property": "C57",
   "status": "proved",
   "theorems": [
    "Verif.c57_killed_fresh",
    "Verif.c57_no_torn_file",
    "Verif.c57_overwrite_mixes"
   ],
   "note": ""
  },
  {
   "property": "C58",
   "status": "proved",
   "theorems": [
    "Verif.c58_chunks",
    "Verif.c58_tokens",
    "Verif.c58_line",
    "Verif.c58_lemmas",
    "Verif.c58_lemma_table",
    "Verif.c58_items",
    "Verif.c58_threshold"
   ],
   "note": ""
  },
  {
   "property": "C59",
   "status": "proved",
   "theorems": [
    "Verif.c59_longest_ending",
    "Verif.c59_all_predictions",
    "Verif.c59_default",
    "Verif.c59_score"
   ],
   "note": ""
  },
  {
   "property": "C60",
   "status": "proved",
   "theorems": [
    "Verif.c60_prefix_sound",
    "Verif.c60_known_prefix_complete",
    "Verif.c60_unknown_prefix_complete",
    "Verif.c60_ru",
    "Verif.c60_uk"
   ],
   "note": ""
  },
  {
   "property": "C61",
   "status": "proved",
   "theorems": [
    "Verif.c61_particle_sound",
    "Verif.c61_particle_complete",
    "Verif.c61_adverb_sound",
    "Verif.c61_adverb_alone",
    "Verif.c61_default_particles"
   ],
   "note": ""
  },
  {
   "property": "C62",
   "status": "proved",
   "theorems": [
    "Verif.c62_scores"
   ],
   "note": ""
  },
  {
   "property": "C63",
   "status": "proved",
   "theorems": [
    "Verif.c63_entries",
    "Verif.c63_probability",
    "Verif.c63_monotone",
    "Verif.c63_sum",
    "Verif.c63_scores",
    "Verif.c63_demo",
    "Verif.c63_scores_not_distribution"
   ],
   "note": ""
  },
  {
   "property": "C64",
   "status": "proved",
   "theorems": [
    "Verif.c64_translation",
    "Verif.c64_is_lat2cyr",
    "Verif.c64_save_effect",
    "Verif.c64_ext_load",
    "Verif.c64_unloadable",
    "Verif.c64_ext_corrupts",
    "Verif.c64_ext_again",
    "Verif.c64_confusion",
    "Verif.c64_alias_leak",
    "Verif.c64_victim"
   ],
   "note": ""
  },
  {
   "property": "C65",
   "status": "proved",
   "theorems": [
    "Verif.c65_forms_found",
    "Verif.c65_invents_nothing",
    "Verif.c65_answers",
    "Verif.c65_no_overwrite",
    "Verif.c65_failure_keeps",
    "Verif.c65_retry_silent",
    "Verif.c65_failed_save"
   ],
   "note": ""
  },
  {
   "property": "C66",
   "status": "proved",
   "theorems": [
    "Verif.c66_tables",
    "Verif.c66_extractable",
    "Verif.c66_guess",
    "Verif.c66_short_word"
   ],
   "note": ""
  },
  {
   "property": "C67",
   "status": "proved",
   "theorems": [
    "Verif.c67_compile_iff",
    "Verif.c67_parsed_iff",
    "Verif.c67_save_iff",
    "Verif.c67_convert_iff",
    "Verif.c67_unsaved"
   ],
   "note": ""
  },
  {
   "property": "C68",
   "status": "proved",
   "theorems": [
    "Verif.c68_success",
    "Verif.c68_failure",
    "Verif.c68_no_token_fails",
    "Verif.c68_score_alone",
    "Verif.c68_language",
    "Verif.c68_meta",
    "Verif.c68_dictionary_language"
   ],
   "note": ""
  },
  {
   "property": "C69",
   "status": "proved",
   "theorems": [
    "Verif.c69_construct",
    "Verif.c69_clone",
    "Verif.c69_new_analyzer",
    "Verif.c69_later",
    "Verif.c69_unchanged",
    "Verif.c69_given_unchanged",
    "Verif.c69_repr",
    "Verif.c69_repr_text",
    "Verif.c69_default_units",
    "Verif.c69_particles"
   ],
   "note": ""
  },
  {
   "property": "C70",
   "status": "proved",
   "theorems": [
    "Verif.c70_extension",
    "Verif.c70_same",
    "Verif.c70_default",
    "Verif.c70_empty_prefix_recurses",
    "Verif.c70_empty_skip"
   ],
   "note": ""
  },
  {
   "property": "C71",
   "status": "proved",
   "theorems": [
    "Verif.c71_ru",
    "Verif.c71_uk"
   ],
   "note": ""
  },
  {
   "property": "C72",
   "status": "proved",
   "theorems": [
    "Verif.c72_closed",
    "Verif.c72_inflected",
    "Verif.c72_normal_form",
    "Verif.c72_predicted_not_closed"
   ],
   "note": ""
  },
  {
   "property": "C73",
   "status": "proved",
   "theorems": [
    "Verif.c73_same_analyses",
    "Verif.c73_total",
    "Verif.c73_between_0_and_1",
    "Verif.c73_sum_is_one",
    "Verif.c73_with_data",
    "Verif.c73_same_normalized",
    "Verif.c73_same_lexeme",
    "Verif.c73_similarity_order",
    "Verif.c73_inflect_best",
    "Verif.c73_condition",
    "Verif.c73_ties_can_differ",
    "Verif.c73_sum_not_exact"
   ],
   "note": ""
  },
  {
   "property": "C74",
   "status": "proved",
   "theorems": [
    "Verif.c74_spellings",
    "Verif.c74_ru",
    "Verif.c74_uk",
    "Verif.c74_orders_differ"
   ],
   "note": ""
  },
  {
   "property": "C75",
   "status": "proved",
   "theorems": [
    "Verif.c75_value",
    "Verif.c75_disjoint",
    "Verif.c75_same",
    "Verif.c75_compare",
    "Verif.c75_in",
    "Verif.c75_not_words",
    "Verif.c75_rare",
    "Verif.c75_unknown",
    "Verif.c75_productive"
   ],
   "note": ""
  },
  {
   "property": "C76",
   "status": "proved",
   "theorems": [
    "Verif.c76_no_extension",
    "Verif.c76_no_prefixes",
    "Verif.c76_is_conversion",
    "Verif.c76_success_iff",
    "Verif.c76_prefixes",
    "Verif.c76_shipped_prefixes",
    "Verif.c76_metadata"
   ],
   "note": ""
  },
  {
   "property": "C77",
   "status": "proved",
   "theorems": [
    "Verif.c77_lists",
    "Verif.c77_capitals_unused",
    "Verif.c77_removed_prefix",
    "Verif.c77_lists_extension",
    "Verif.c77_shipped"
   ],
   "note": ""
  },
  {
   "property": "C78",
   "status": "proved",
   "theorems": [
    "Verif.c78_pieces",
    "Verif.c78_words",
    "Verif.c78_depth",
    "Verif.c78_exponential",
    "Verif.c78_no_nested_calls"
   ],
   "note": ""
  },
  {
   "property": "C79",
   "status": "proved",
   "theorems": [
    "Verif.c79_exact",
    "Verif.c79_known",
    "Verif.c79_local",
    "Verif.c79_added",
    "Verif.c79_predictions_change"
   ],
   "note": ""
  },
  {
   "property": "C80",
   "status": "proved",
   "theorems": [
    "Verif.c80_lower_stable",
    "Verif.c80_lowers_capitals",
    "Verif.c80_named",
    "Verif.c80_total",
    "Verif.c80_interpreter",
    "Verif.c80_tangut"
   ],
   "note": ""
  },
  {
   "property": "C81",
   "status": "proved",
   "theorems": [
    "Verif.c81_int",
    "Verif.c81_float",
    "Verif.c81_real",
    "Verif.c81_analysis",
    "Verif.c81_long",
    "Verif.c81_special"
   ],
   "note": ""
  },
  {
   "property": "C82",
   "status": "proved",
   "theorems": [
    "Verif.c82_case_laws",
    "Verif.c82_restore",
    "Verif.c82_idempotent",
    "Verif.c82_self",
    "Verif.c82_case_of_example",
    "Verif.c82_exceptions"
   ],
   "note": ""
  },
  {
   "property": "C83",
   "status": "proved",
   "theorems": [
    "Verif.c83_spaces",
    "Verif.c83_tokens",
    "Verif.c83_cut",
    "Verif.c83_alone",
    "Verif.c83_split",
    "Verif.c83_mark",
    "Verif.c83_text"
   ],
   "note": ""
  },
  {
   "property": "C84",
   "status": "proved",
   "theorems": [
    "Verif.c84_reach",
    "Verif.c84_unreachable",
    "Verif.c84_there_and_back"
   ],
   "note": ""
  },
  {
   "property": "C85",
   "status": "proved",
   "theorems": [
    "Verif.c85_end_to_end"
   ],
   "note": ""
  },
  {
   "property": "C86",
   "status": "proved",
   "theorems": [
    "Verif.c86_whole",
    "Verif.c86_real",
    "Verif.c86_fraction",
    "Verif.c86_plus",
    "Verif.c86_roman"
   ],
   "note": ""
  },
  {
   "property": "C87",
   "status": "proved",
   "theorems": [
    "Verif.c87_estimate",
    "Verif.c87_stored",
    "Verif.c87_scores",
    "Verif.c87_truncated"
   ],
   "note": ""
  },
  {
   "property": "C88",
   "status": "proved",
   "theorems": [
    "Verif.c88_failure",
    "Verif.c88_after",
    "Verif.c88_again",
    "Verif.c88_killed",
    "Verif.c88_recover",
    "Verif.c88_metadata",
    "Verif.c88_scores",
    "Verif.c88_succeeds",
    "Verif.c88_succeeds_healthy"
   ],
   "note": ""
  },
  {
   "property": "C89",
   "status": "proved",
   "theorems": [
    "Verif.c89_chain",
    "Verif.c89_inflect"
   ],
   "note": ""
  },
  {
   "property": "C90",
   "status": "proved",
   "theorems": [
    "Verif.c90_inflect",
    "Verif.c90_attributes",
    "Verif.c90_agree",
    "Verif.c90_two_genders",
    "Verif.c90_largest",
    "Verif.c90_suffixes"
   ],
   "note": ""
  },
  {
   "property": "C91",
   "status": "proved",
   "theorems": [
    "Verif.c91_with",
    "Verif.c91_exact",
    "Verif.c91_without",
    "Verif.c91_default",
    "Verif.c91_objects"
   ],
   "note": ""
  },
  {
   "property": "C92",
   "status": "proved",
   "theorems": [
    "Verif.c92_round_trip",
    "Verif.c92_injective",
    "Verif.c92_cut",
    "Verif.c92_value_error",
    "Verif.c92_fuel",
    "Verif.c92_cut_number",
    "Verif.c92_longer",
    "Verif.c92_folder",
    "Verif.c92_killed",
    "Verif.c92_save_writable",
    "Verif.c92_save_load",
    "Verif.c92_killed_fresh",
    "Verif.c92_no_torn_file",
    "Verif.c92_update_writable",
    "Verif.c92_update_killed"
   ],
   "note": ""
  },
  {
   "property": "C93",
   "status": "proved",
   "theorems": [
    "Verif.c93_never_fails",
    "Verif.c93_agree"
   ],
   "note": ""
  },
  {
   "property": "C94",
   "status": "proved",
   "theorems": [
    "Verif.c94_in_set",
    "Verif.c94_inflect",
    "Verif.c94_two_values",
    "Verif.c94_switch",
    "Verif.c94_agree",
    "Verif.c94_collision"
   ],
   "note": ""
  },
  {
   "property": "C95",
   "status": "proved",
   "theorems": [
    "Verif.c95_possible",
    "Verif.c95_tag",
    "Verif.c95_known"
   ],
   "note": ""
  },
  {
   "property": "C96",
   "status": "proved",
   "theorems": [
    "Verif.c96_answers",
    "Verif.c96_methods",
    "Verif.c96_grown"
   ],
   "note": ""
  },
  {
   "property": "C97",
   "status": "proved",
   "theorems": [
    "Verif.c97_no_repeats",
    "Verif.c97_stacks",
    "Verif.c97_configured",
    "Verif.c97_needs_distinct"
   ],
   "note": ""
  },
  {
   "property": "C98",
   "status": "proved",
   "theorems": [
    "Verif.c98_recorded",
    "Verif.c98_bound",
    "Verif.c98_peelings",
    "Verif.c98_exponential",
    "Verif.c98_cpython",
    "Verif.c98_direct",
    "Verif.c98_predicted",
    "Verif.c98_known"
   ],
   "note": ""
  },
  {
   "property": "C99",
   "status": "proved",
   "theorems": [
    "Verif.c99_ru",
    "Verif.c99_uk",
    "Verif.c99_known_ru",
    "Verif.c99_uniform_ru",
    "Verif.c99_cpython",
    "Verif.c99_prefixed_not_sorted"
   ],
   "note": ""
  },
  {
   "property": "C100",
   "status": "proved",
   "theorems": [
    "Verif.c100_same",
    "Verif.c100_normal",
    "Verif.c100_exact",
    "Verif.c100_inflect",
    "Verif.c100_moderate",
    "Verif.c100_underflow"
   ],
   "note": ""
  },
  {
   "property": "C101",
   "status": "proved",
   "theorems": [
    "Verif.c101_document",
    "Verif.c101_twins"
   ],
   "note": ""
  },
  {
   "property": "C102",
   "status": "proved",
   "theorems": [
    "Verif.c102_situation",
    "Verif.c102_no_read_ahead",
    "Verif.c102_progress",
    "Verif.c102_end_of_input",
    "Verif.c102_endless",
    "Verif.c102_failed_output",
    "Verif.c102_batch"
   ],
   "note": ""
  },
  {
   "property": "C103",
   "status": "proved",
   "theorems": [
    "Verif.c103_accuracy",
    "Verif.c103_no_data",
    "Verif.c103_binary64",
    "Verif.c103_format",
    "Verif.c103_negative",
    "Verif.c103_format_mono",
    "Verif.c103_printed",
    "Verif.c103_thousandth"
   ],
   "note": ""
  },
  {
   "property": "C104",
   "status": "proved",
   "theorems": [
    "Verif.c104_lemma_table",
    "Verif.c104_items",
    "Verif.c104_same_lines",
    "Verif.c104_same_lemmas",
    "Verif.c104_lemma_order",
    "Verif.c104_ties_can_differ"
   ],
   "note": ""
  },
  {
   "property": "C105",
   "status": "proved",
   "theorems": [
    "Verif.c105_plain",
    "Verif.c105_general",
    "Verif.c105_linear",
    "Verif.c105_polynomial",
    "Verif.c105_few_plain",
    "Verif.c105_few",
    "Verif.c105_moderate_plain",
    "Verif.c105_moderate",
    "Verif.c105_accuracy"
   ],
   "note": ""
  },
  {
   "property": "C106",
   "status": "proved",
   "theorems": [
    "Verif.c106_same_order",
    "Verif.c106_first",
    "Verif.c106_floats",
    "Verif.c106_tag_possible",
    "Verif.c106_needed"
   ],
   "note": ""
  },
  {
   "property": "C107",
   "status": "proved",
   "theorems": [
    "Verif.c107_whole",
    "Verif.c107_value",
    "Verif.c107_fraction",
    "Verif.c107_special",
    "Verif.c107_genitive",
    "Verif.c107_decimal",
    "Verif.c107_decimal_negative",
    "Verif.c107_decimal_invalid",
    "Verif.c107_decimal_differs"
   ],
   "note": ""
  },
  {
   "property": "C108",
   "status": "proved",
   "theorems": [
    "Verif.c108_layout",
    "Verif.c108_forms",
    "Verif.c108_not_sorted",
    "Verif.c108_build"
   ],
   "note": ""
  },
  {
   "property": "C109",
   "status": "proved",
   "theorems": [
    "Verif.c109_same_lexeme",
    "Verif.c109_same_lexeme_compounds",
    "Verif.c109_member",
    "Verif.c109_never_fails",
    "Verif.c109_chain",
    "Verif.c109_is_known",
    "Verif.c109_iter",
    "Verif.c109_iter_lexeme",
    "Verif.c109_no_units",
    "Verif.c109_between_0_and_1",
    "Verif.c109_order",
    "Verif.c109_pattern_refused",
    "Verif.c109_exact",
    "Verif.c109_same_known",
    "Verif.c109_closed",
    "Verif.c109_normal_form",
    "Verif.c109_nested",
    "Verif.c109_empty_prefix"
   ],
   "note": ""
  },
  {
   "property": "C110",
   "status": "proved",
   "theorems": [
    "Verif.c110_library_units",
    "Verif.c110_terminates",
    "Verif.c110_total",
    "Verif.c110_first_group",
    "Verif.c110_never_empty",
    "Verif.c110_local",
    "Verif.c110_same_tags",
    "Verif.c110_shape",
    "Verif.c110_endless"
   ],
   "note": ""
  },
  {
   "property": "C111",
   "status": "proved",
   "theorems": [
    "Verif.c111_library",
    "Verif.c111_lexeme",
    "Verif.c111_same_lexeme",
    "Verif.c111_same_lexeme_compounds",
    "Verif.c111_member",
    "Verif.c111_inflect",
    "Verif.c111_never_fails",
    "Verif.c111_inherited_defect",
    "Verif.c111_empty_suffix_defect"
   ],
   "note": ""
  },
  {
   "property": "C112",
   "status": "proved",
   "theorems": [
    "Verif.c112_text",
    "Verif.c112_bytes",
    "Verif.c112_refused",
    "Verif.c112_encoded",
    "Verif.c112_one_value",
    "Verif.c112_written",
    "Verif.c112_layout",
    "Verif.c112_utf8",
    "Verif.c112_string",
    "Verif.c112_last_wins"
   ],
   "note": ""
  },
  {
   "property": "C113",
   "status": "proved",
   "theorems": [
    "Verif.c113_new",
    "Verif.c113_letters",
    "Verif.c113_pattern",
    "Verif.c113_prefixes",
    "Verif.c113_cli_analyzer",
    "Verif.c113_cli_input",
    "Verif.c113_cli_options",
    "Verif.c113_lemma",
    "Verif.c113_ids",
    "Verif.c113_link_end"
   ],
   "note": ""
  },
  {
   "property": "C114",
   "status": "proved",
   "theorems": [
    "Verif.c114_class",
    "Verif.c114_made",
    "Verif.c114_methods",
    "Verif.c114_chain",
    "Verif.c114_foreign",
    "Verif.c114_tuples",
    "Verif.c114_unbound",
    "Verif.c114_inherited",
    "Verif.c114_copy",
    "Verif.c114_equal",
    "Verif.c114_never_fails",
    "Verif.c114_by_name"
   ],
   "note": ""
  },
  {
   "property": "C115",
   "status": "proved",
   "theorems": [
    "Verif.c115_same",
    "Verif.c115_exact",
    "Verif.c115_silent",
    "Verif.c115_failing",
    "Verif.c115_old",
    "Verif.c115_not_a_language"
   ],
   "note": ""
  },
  {
   "property": "C116",
   "status": "proved",
   "theorems": [
    "Verif.c116_tags",
    "Verif.c116_others",
    "Verif.c116_equal",
    "Verif.c116_order",
    "Verif.c116_ties",
    "Verif.c116_iter",
    "Verif.c116_sort_fails"
   ],
   "note": ""
  }
 ]
}