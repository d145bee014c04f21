{
 "claims": [
  {
   "property": "C01",
   "status": "proved",
   "theorems": [
    "Swc.C01_eval_recursive_scope",
    "Swc.C01_eval_exact",
    "Swc.C01_eval_release",
    "Swc.C01_eval_debug"
   ],
   "note": ""
  },
  {
   "property": "C02",
   "status": "proved",
   "theorems": [
    "Swc.C02_err_names_unbound",
    "Swc.C02_err_iff_release",
    "Swc.C02_debug",
    "Swc.C02_free_vars_empty"
   ],
   "note": ""
  },
  {
   "property": "C03",
   "status": "proved",
   "theorems": [
    "Swc.C03_partition",
    "Swc.C03_sorted"
   ],
   "note": ""
  },
  {
   "property": "C04",
   "status": "proved",
   "theorems": [
    "Swc.C04_substitute_eval",
    "Swc.C04_substitute_value",
    "Swc.C04_substitute_vars",
    "Swc.C04_substitute_absent",
    "Swc.C04_into_value",
    "Swc.C04_into_vars"
   ],
   "note": ""
  },
  {
   "property": "C05",
   "status": "proved",
   "theorems": [
    "Swc.C05_scope_refines_map",
    "Swc.C05_as_vec",
    "Swc.C05_extensional"
   ],
   "note": ""
  },
  {
   "property": "C06",
   "status": "proved",
   "theorems": [
    "Swc.C06_fuel_irrelevant",
    "Swc.C06_acyclic_terminates",
    "Swc.C06_cyclic_no_value",
    "Swc.C06_diverges_iff"
   ],
   "note": ""
  },
  {
   "property": "C07",
   "status": "proved",
   "theorems": [
    "Swc.C07_monotone",
    "Swc.C07_eval_monotone"
   ],
   "note": ""
  },
  {
   "property": "C08",
   "status": "proved",
   "theorems": [
    "Swc.C08_chromatic_eval_agrees",
    "Swc.C08_converse_false"
   ],
   "note": ""
  },
  {
   "property": "C09",
   "status": "proved",
   "theorems": [
    "Swc.C09_simplify_total",
    "Swc.C09_simplify_vars",
    "Swc.C09_simplify_value"
   ],
   "note": ""
  },
  {
   "property": "C10",
   "status": "proved",
   "theorems": [
    "Swc.C10_splice_add",
    "Swc.C10_splice_add_vars"
   ],
   "note": ""
  },
  {
   "property": "C11",
   "status": "proved",
   "theorems": [
    "Swc.C11_into_chromatic_same",
    "Swc.C11_into_chromatic_other",
    "Swc.C11_bare_variable_leaks"
   ],
   "note": ""
  },
  {
   "property": "C12",
   "status": "proved",
   "theorems": [
    "Swc.C12_text",
    "Swc.C12_unique",
    "Swc.C12_read",
    "Swc.C12_alike",
    "Swc.C12_near",
    "Swc.C12_abbreviated",
    "Swc.C12_display_faithful",
    "Swc.C12_display_faithful_no_zero",
    "Swc.C12_always_readable",
    "Swc.C12_none_is_zero",
    "Swc.C12_vanishing_product_misprinted",
    "Swc.C12_brackets_lost"
   ],
   "note": ""
  },
  {
   "property": "C13",
   "status": "proved",
   "theorems": [
    "Swc.C13_fmt_scalar",
    "Swc.C13_fmt_time",
    "Swc.C13_fmt_proof",
    "Swc.C13_fmt_value"
   ],
   "note": ""
  },
  {
   "property": "C14",
   "status": "proved",
   "theorems": [
    "Swc.C14_fmt_equation"
   ],
   "note": ""
  },
  {
   "property": "C15",
   "status": "proved",
   "theorems": [
    "Swc.C15_flags_iff",
    "Swc.C15_message",
    "Swc.C15_value_factor_not_flagged"
   ],
   "note": ""
  },
  {
   "property": "C16",
   "status": "proved",
   "theorems": [
    "Swc.C16_sign_never_opposite",
    "Swc.C16_sign_exact",
    "Swc.C16_sign_lost_above"
   ],
   "note": ""
  },
  {
   "property": "C17",
   "status": "proved",
   "theorems": [
    "Swc.C17_monotone_new",
    "Swc.C17_antitone_old",
    "Swc.C17_monotone_ratio"
   ],
   "note": ""
  },
  {
   "property": "C18",
   "status": "proved",
   "theorems": [
    "Swc.C18_same",
    "Swc.C18_to_zero",
    "Swc.C18_from_zero",
    "Swc.C18_zero_zero",
    "Swc.C18_finite"
   ],
   "note": ""
  },
  {
   "property": "C19",
   "status": "proved",
   "theorems": [
    "Swc.C19_accurate"
   ],
   "note": ""
  },
  {
   "property": "C20",
   "status": "proved",
   "theorems": [
    "Swc.C20_scopes_are_corners"
   ],
   "note": ""
  },
  {
   "property": "C21",
   "status": "proved",
   "theorems": [
    "Swc.C21_result_order_irrelevant",
    "Swc.C21_scopes_order_irrelevant"
   ],
   "note": ""
  },
  {
   "property": "C22",
   "status": "proved",
   "theorems": [
    "Swc.C22_exact_never_guesses",
    "Swc.C22_exact_missing_is_error",
    "Swc.C22_guess_total"
   ],
   "note": ""
  },
  {
   "property": "C23",
   "status": "proved",
   "theorems": [
    "Swc.C23_instances_in_hull"
   ],
   "note": ""
  },
  {
   "property": "C24",
   "status": "proved",
   "theorems": [
    "Swc.C24_worst_case",
    "Swc.C24_worst_case_numeric",
    "Swc.C24_false_without_affinity",
    "Swc.C24_false_with_zero_old"
   ],
   "note": ""
  },
  {
   "property": "C25",
   "status": "proved",
   "theorems": [
    "Swc.C25_reported_is_corner",
    "Swc.C25_maximal",
    "Swc.C25_single_version_first",
    "Swc.C25_single_version_low",
    "Swc.C25_added_not_worst"
   ],
   "note": ""
  },
  {
   "property": "C26",
   "status": "proved",
   "theorems": [
    "Swc.C26_total_release",
    "Swc.C26_total_debug"
   ],
   "note": ""
  },
  {
   "property": "C27",
   "status": "proved",
   "theorems": [
    "Swc.C27_kinds",
    "Swc.C27_costed_time"
   ],
   "note": ""
  },
  {
   "property": "C28",
   "status": "proved",
   "theorems": [
    "Swc.C28_unchanged_same_value",
    "Swc.C28_false_with_underscores"
   ],
   "note": ""
  },
  {
   "property": "C29",
   "status": "proved",
   "theorems": [
    "Swc.C29_same_corners",
    "Swc.C29_swap_at_corner",
    "Swc.C29_swap_result"
   ],
   "note": ""
  },
  {
   "property": "C30",
   "status": "proved",
   "theorems": [
    "Swc.C30_storage_constants",
    "Swc.C30_proof_ignores_storage"
   ],
   "note": ""
  },
  {
   "property": "C31",
   "status": "proved",
   "theorems": [
    "Swc.C31_reported_point",
    "Swc.C31_single_point"
   ],
   "note": ""
  },
  {
   "property": "C32",
   "status": "proved",
   "theorems": [
    "Swc.C32_exactly_once",
    "Swc.C32_total"
   ],
   "note": ""
  },
  {
   "property": "C33",
   "status": "proved",
   "theorems": [
    "Swc.C33_right_pair",
    "Swc.C33_local"
   ],
   "note": ""
  },
  {
   "property": "C34",
   "status": "proved",
   "theorems": [
    "Swc.C34_order_irrelevant"
   ],
   "note": ""
  },
  {
   "property": "C35",
   "status": "proved",
   "theorems": [
    "Swc.C35_self_unchanged",
    "Swc.C35_self_filtered"
   ],
   "note": ""
  },
  {
   "property": "C36",
   "status": "proved",
   "theorems": [
    "Swc.C36_keeps_exactly",
    "Swc.C36_keeps_errors",
    "Swc.C36_idempotent",
    "Swc.C36_threshold_monotone"
   ],
   "note": ""
  },
  {
   "property": "C37",
   "status": "proved",
   "theorems": [
    "Swc.C37_any_merge_sort",
    "Swc.C37_sort_changes",
    "Swc.C37_errors_reversed",
    "Swc.C37_determined",
    "Swc.C37_part",
    "Swc.C37_worst_last",
    "Swc.C37_errors_not_stable"
   ],
   "note": ""
  },
  {
   "property": "C38",
   "status": "proved",
   "theorems": [
    "Swc.C38_listed",
    "Swc.C38_limit",
    "Swc.C38_else_error",
    "Swc.C38_duplicates_count"
   ],
   "note": ""
  },
  {
   "property": "C39",
   "status": "proved",
   "theorems": [
    "Swc.C39_dotdot_refused",
    "Swc.C39_below_repo"
   ],
   "note": ""
  },
  {
   "property": "C40",
   "status": "proved",
   "theorems": [
    "Swc.C40_web",
    "Swc.C40_no_fetch"
   ],
   "note": ""
  },
  {
   "property": "C41",
   "status": "proved",
   "theorems": [
    "Swc.C41_compare_commits"
   ],
   "note": ""
  },
  {
   "property": "C42",
   "status": "proved",
   "theorems": [
    "Swc.C42_checkout_ok",
    "Swc.C42_checkout_err",
    "Swc.C42_checkout_no_panic",
    "Swc.C42_old_fails",
    "Swc.C42_new_fails",
    "Swc.C42_decided"
   ],
   "note": ""
  },
  {
   "property": "C43",
   "status": "proved",
   "theorems": [
    "Swc.C43_weight",
    "Swc.C43_legacy",
    "Swc.C43_weight_saturating",
    "Swc.C43_legacy_saturating",
    "Swc.C43_false_unanchored",
    "Swc.C43_trailing_comma_ignored"
   ],
   "note": ""
  },
  {
   "property": "C44",
   "status": "proved",
   "theorems": [
    "Swc.C44_weight_accepted",
    "Swc.C44_legacy_accepted",
    "Swc.C44_template",
    "Swc.C44_template1",
    "Swc.C44_literal_factor_refused"
   ],
   "note": ""
  },
  {
   "property": "C45",
   "status": "proved",
   "theorems": [
    "Swc.C45_content",
    "Swc.C45_names",
    "Swc.C45_found",
    "Swc.C45_not_found"
   ],
   "note": ""
  },
  {
   "property": "C46",
   "status": "proved",
   "theorems": [
    "Swc.C46_eligible",
    "Swc.C46_method"
   ],
   "note": ""
  },
  {
   "property": "C47",
   "status": "proved",
   "theorems": [
    "Swc.C47_found",
    "Swc.C47_only",
    "Swc.C47_none",
    "Swc.C47_range",
    "Swc.C47_bad_range",
    "Swc.C47_ignored",
    "Swc.C47_generated_line",
    "Swc.C47_last_wins",
    "Swc.C47_error"
   ],
   "note": ""
  },
  {
   "property": "C48",
   "status": "proved",
   "theorems": [
    "Swc.C48_annotated",
    "Swc.C48_annotated_one",
    "Swc.C48_different",
    "Swc.C48_underscore_ignored",
    "Swc.C48_underscore_clash"
   ],
   "note": ""
  },
  {
   "property": "C49",
   "status": "proved",
   "theorems": [
    "Swc.C49_all",
    "Swc.C49_first_error",
    "Swc.C49_ignore",
    "Swc.C49_no_difference",
    "Swc.C49_panic",
    "Swc.C49_panic_exists",
    "Swc.C49_no_panic",
    "Swc.C49_big_literal"
   ],
   "note": ""
  },
  {
   "property": "C50",
   "status": "proved",
   "theorems": [
    "Swc.C50_content",
    "Swc.C50_value",
    "Swc.C50_accepted",
    "Swc.C50_first_well_formed",
    "Swc.C50_no_panic",
    "Swc.C50_false_refused",
    "Swc.C50_false_path"
   ],
   "note": ""
  },
  {
   "property": "C51",
   "status": "proved",
   "theorems": [
    "Swc.C51_content",
    "Swc.C51_first_well_formed",
    "Swc.C51_binary_value",
    "Swc.C51_binary_proof",
    "Swc.C51_weight_value",
    "Swc.C51_old_template",
    "Swc.C51_new_template",
    "Swc.C51_false_literal"
   ],
   "note": ""
  },
  {
   "property": "C52",
   "status": "proved",
   "theorems": [
    "Swc.C52_priority",
    "Swc.C52_no_error",
    "Swc.C52_unreadable",
    "Swc.C52_disjoint"
   ],
   "note": ""
  },
  {
   "property": "C53",
   "status": "proved",
   "theorems": [
    "Swc.C53_display_injective",
    "Swc.C53_relocation",
    "Swc.C53_outside",
    "Swc.C53_injective",
    "Swc.C53_file_name",
    "Swc.C53_collision"
   ],
   "note": ""
  },
  {
   "property": "C54",
   "status": "proved",
   "theorems": [
    "Swc.C54_cached",
    "Swc.C54_not_cached",
    "Swc.C54_errors_not_cached",
    "Swc.C54_not_repeated",
    "Swc.C54_served",
    "Swc.C54_poisoned_forever",
    "Swc.C54_computes",
    "Swc.C54_example",
    "Swc.C54_poison_possible"
   ],
   "note": ""
  },
  {
   "property": "C55",
   "status": "proved",
   "theorems": [
    "Swc.C55_exclusive",
    "Swc.C55_one_at_a_time",
    "Swc.C55_no_listing",
    "Swc.C55_result",
    "Swc.C55_from_start"
   ],
   "note": ""
  },
  {
   "property": "C56",
   "status": "proved",
   "theorems": [
    "Swc.C56_progress",
    "Swc.C56_terminates",
    "Swc.C56_no_infinite_run",
    "Swc.C56_all_finish"
   ],
   "note": ""
  },
  {
   "property": "C57",
   "status": "proved",
   "theorems": [
    "Swc.C57_reports_are_computed",
    "Swc.C57_added_top",
    "Swc.C57_monotone",
    "Swc.C57_removed_bottom",
    "Swc.C57_removed_needs_computed",
    "Swc.C57_distinguishes",
    "Swc.C57_around_unchanged",
    "Swc.C57_capped"
   ],
   "note": ""
  },
  {
   "property": "C58",
   "status": "proved",
   "theorems": [
    "Swc.C58_key",
    "Swc.C58_text",
    "Swc.C58_added_removed",
    "Swc.C58_around_unchanged",
    "Swc.C58_kinds",
    "Swc.C58_false_above",
    "Swc.C58_panic_above",
    "Swc.C58_release_total"
   ],
   "note": ""
  },
  {
   "property": "C59",
   "status": "proved",
   "theorems": [
    "Swc.C59_cli_colour",
    "Swc.C59_cli_text",
    "Swc.C59_no_escape",
    "Swc.C59_cli_direction",
    "Swc.C59_cli_exact",
    "Swc.C59_web_percent",
    "Swc.C59_web_kinds",
    "Swc.C59_web_direction",
    "Swc.C59_web_exact"
   ],
   "note": ""
  },
  {
   "property": "C60",
   "status": "proved",
   "theorems": [
    "Swc.C60_csv",
    "Swc.C60_false_with_terms",
    "Swc.C60_strip_ignored"
   ],
   "note": ""
  },
  {
   "property": "C61",
   "status": "proved",
   "theorems": [
    "Swc.C61_table",
    "Swc.C61_count",
    "Swc.C61_panic_bad_regex",
    "Swc.C61_empty",
    "Swc.C61_csv_silent",
    "Swc.C61_unsupported",
    "Swc.C61_compare"
   ],
   "note": ""
  },
  {
   "property": "C62",
   "status": "proved",
   "theorems": [
    "Swc.C62_exact",
    "Swc.C62_trim",
    "Swc.C62_line",
    "Swc.C62_panics_iff",
    "Swc.C62_well_formed",
    "Swc.C62_no_panic",
    "Swc.C62_false_nested",
    "Swc.C62_panic_nested",
    "Swc.C62_answer",
    "Swc.C62_answer_error",
    "Swc.C62_answer_panic"
   ],
   "note": ""
  },
  {
   "property": "C63",
   "status": "proved",
   "theorems": [
    "Swc.C63_org_iff",
    "Swc.C63_github",
    "Swc.C63_ok_iff",
    "Swc.C63_clean",
    "Swc.C63_other_host"
   ],
   "note": ""
  },
  {
   "property": "C64",
   "status": "proved",
   "theorems": [
    "Swc.C64_method",
    "Swc.C64_dimension",
    "Swc.C64_change",
    "Swc.C64_format",
    "Swc.C64_stripping",
    "Swc.C64_web_method",
    "Swc.C64_web_unit",
    "Swc.C64_cli_method",
    "Swc.C64_cli_format",
    "Swc.C64_cli_weight_refused",
    "Swc.C64_cli_unit",
    "Swc.C64_cli_change"
   ],
   "note": ""
  },
  {
   "property": "C65",
   "status": "proved",
   "theorems": [
    "Swc.C65_version",
    "Swc.C65_shown",
    "Swc.C65_unencoded",
    "Swc.C65_encoded",
    "Swc.C65_reflects"
   ],
   "note": ""
  },
  {
   "property": "C66",
   "status": "proved",
   "theorems": [
    "Swc.C66_starts_iff",
    "Swc.C66_repos"
   ],
   "note": ""
  },
  {
   "property": "C67",
   "status": "proved",
   "theorems": [
    "Swc.C67_cli",
    "Swc.C67_web"
   ],
   "note": ""
  },
  {
   "property": "C68",
   "status": "proved",
   "theorems": [
    "Swc.C68_source_worst_case",
    "Swc.C68_commits_worst_case"
   ],
   "note": ""
  },
  {
   "property": "C69",
   "status": "proved",
   "theorems": [
    "Swc.C69_spelled",
    "Swc.C69_serialized",
    "Swc.C69_args",
    "Swc.C69_query"
   ],
   "note": ""
  },
  {
   "property": "C70",
   "status": "proved",
   "theorems": [
    "Swc.C70_control",
    "Swc.C70_lists",
    "Swc.C70_false_entities"
   ],
   "note": ""
  },
  {
   "property": "C71",
   "status": "proved",
   "theorems": [
    "Swc.C71_start_page",
    "Swc.C71_start_page_exact",
    "Swc.C71_merge_request",
    "Swc.C71_false_plus",
    "Swc.C71_false_hash",
    "Swc.C71_false_default",
    "Swc.C71_false_case"
   ],
   "note": ""
  },
  {
   "property": "C72",
   "status": "proved",
   "theorems": [
    "Swc.C72_controls",
    "Swc.C72_repo",
    "Swc.C72_false_blank"
   ],
   "note": ""
  },
  {
   "property": "C73",
   "status": "proved",
   "theorems": [
    "Swc.C73_false_escape",
    "Swc.C73_false_message",
    "Swc.C73_rows",
    "Swc.C73_messages",
    "Swc.C73_counts",
    "Swc.C73_total"
   ],
   "note": ""
  },
  {
   "property": "C74",
   "status": "proved",
   "theorems": [
    "Swc.C74_error_page",
    "Swc.C74_response"
   ],
   "note": ""
  },
  {
   "property": "C75",
   "status": "proved",
   "theorems": [
    "Swc.C75_start_list",
    "Swc.C75_merge_request_list",
    "Swc.C75_false_blank"
   ],
   "note": ""
  },
  {
   "property": "C76",
   "status": "proved",
   "theorems": [
    "Swc.C76_files",
    "Swc.C76_files_error",
    "Swc.C76_commits",
    "Swc.C76_parse",
    "Swc.C76_false_count"
   ],
   "note": ""
  },
  {
   "property": "C77",
   "status": "proved",
   "theorems": [
    "Swc.C77_commands",
    "Swc.C77_server",
    "Swc.C77_false_option"
   ],
   "note": ""
  },
  {
   "property": "C78",
   "status": "proved",
   "theorems": [
    "Swc.C78_relocation"
   ],
   "note": ""
  },
  {
   "property": "C79",
   "status": "proved",
   "theorems": [
    "Swc.C79_weight_file",
    "Swc.C79_layout",
    "Swc.C79_every"
   ],
   "note": ""
  },
  {
   "property": "C80",
   "status": "proved",
   "theorems": [
    "Swc.C80_files",
    "Swc.C80_commits",
    "Swc.C80_false_nanos"
   ],
   "note": ""
  },
  {
   "property": "C81",
   "status": "proved",
   "theorems": [
    "Swc.C81_db_file",
    "Swc.C81_overhead_file"
   ],
   "note": ""
  },
  {
   "property": "C82",
   "status": "proved",
   "theorems": [
    "Swc.C82_request_page",
    "Swc.C82_example"
   ],
   "note": ""
  },
  {
   "property": "C83",
   "status": "proved",
   "theorems": [
    "Swc.C83_selected",
    "Swc.C83_compare",
    "Swc.C83_options",
    "Swc.C83_answer",
    "Swc.C83_forgets",
    "Swc.C83_race",
    "Swc.C83_failed",
    "Swc.C83_null",
    "Swc.C83_select",
    "Swc.C83_fetch",
    "Swc.C83_pick"
   ],
   "note": ""
  },
  {
   "property": "C84",
   "status": "proved",
   "theorems": [
    "Swc.C84_query",
    "Swc.C84_asked",
    "Swc.C84_json",
    "Swc.C84_read",
    "Swc.C84_listed",
    "Swc.C84_references",
    "Swc.C84_page",
    "Swc.C84_example"
   ],
   "note": ""
  },
  {
   "property": "C85",
   "status": "proved",
   "theorems": [
    "Swc.C85_rows",
    "Swc.C85_deleted",
    "Swc.C85_click",
    "Swc.C85_throws",
    "Swc.C85_select",
    "Swc.C85_default",
    "Swc.C85_false_space",
    "Swc.C85_cells",
    "Swc.C85_false_title",
    "Swc.C85_false_markup"
   ],
   "note": ""
  },
  {
   "property": "C86",
   "status": "proved",
   "theorems": [
    "Swc.C86_values",
    "Swc.C86_files",
    "Swc.C86_commits",
    "Swc.C86_parse",
    "Swc.C86_server",
    "Swc.C86_order",
    "Swc.C86_revisions",
    "Swc.C86_file_lists",
    "Swc.C86_false_formats",
    "Swc.C86_false_parse"
   ],
   "note": ""
  },
  {
   "property": "C87",
   "status": "proved",
   "theorems": [
    "Swc.C87_commits",
    "Swc.C87_answer",
    "Swc.C87_request",
    "Swc.C87_rows",
    "Swc.C87_nothing_missing",
    "Swc.C87_served",
    "Swc.C87_button",
    "Swc.C87_example"
   ],
   "note": ""
  },
  {
   "property": "C88",
   "status": "proved",
   "theorems": [
    "Swc.C88_refusal",
    "Swc.C88_report"
   ],
   "note": ""
  },
  {
   "property": "C89",
   "status": "proved",
   "theorems": [
    "Swc.C89_static",
    "Swc.C89_route",
    "Swc.C89_nowhere",
    "Swc.C89_once",
    "Swc.C89_kept",
    "Swc.C89_done",
    "Swc.C89_settled",
    "Swc.C89_settles",
    "Swc.C89_starts",
    "Swc.C89_serves",
    "Swc.C89_below",
    "Swc.C89_not_found",
    "Swc.C89_compare",
    "Swc.C89_report",
    "Swc.C89_branches",
    "Swc.C89_start_page",
    "Swc.C89_merge_request_page",
    "Swc.C89_version",
    "Swc.C89_plain",
    "Swc.C89_button",
    "Swc.C89_error_links",
    "Swc.C89_examples",
    "Swc.C89_default",
    "Swc.C89_example_unknown",
    "Swc.C89_example"
   ],
   "note": ""
  },
  {
   "property": "C90",
   "status": "proved",
   "theorems": [
    "Swc.C90_parsed",
    "Swc.C90_reported",
    "Swc.C90_benign",
    "Swc.C90_generated",
    "Swc.C90_answers",
    "Swc.C90_page",
    "Swc.C90_alive",
    "Swc.C90_settled",
    "Swc.C90_answered",
    "Swc.C90_responds",
    "Swc.C90_finishes",
    "Swc.C90_eventually",
    "Swc.C90_silenced",
    "Swc.C90_example"
   ],
   "note": ""
  },
  {
   "property": "C91",
   "status": "proved",
   "theorems": [
    "Swc.C91_served",
    "Swc.C91_click",
    "Swc.C91_example"
   ],
   "note": ""
  },
  {
   "property": "C92",
   "status": "proved",
   "theorems": [
    "Swc.C92_displays",
    "Swc.C92_commits",
    "Swc.C92_files",
    "Swc.C92_rows",
    "Swc.C92_lines",
    "Swc.C92_nothing",
    "Swc.C92_page",
    "Swc.C92_ends",
    "Swc.C92_safe",
    "Swc.C92_false_counts"
   ],
   "note": ""
  },
  {
   "property": "C93",
   "status": "proved",
   "theorems": [
    "Swc.C93_right",
    "Swc.C93_everyone",
    "Swc.C93_button",
    "Swc.C93_control",
    "Swc.C93_merge_request",
    "Swc.C93_example"
   ],
   "note": ""
  },
  {
   "property": "C94",
   "status": "proved",
   "theorems": [
    "Swc.C94_edit",
    "Swc.C94_choices",
    "Swc.C94_false_empty",
    "Swc.C94_false_threshold",
    "Swc.C94_session",
    "Swc.C94_visit",
    "Swc.C94_table",
    "Swc.C94_clicks",
    "Swc.C94_anchor",
    "Swc.C94_false_anchor"
   ],
   "note": ""
  },
  {
   "property": "C95",
   "status": "proved",
   "theorems": [
    "Swc.C95_element",
    "Swc.C95_session",
    "Swc.C95_pages",
    "Swc.C95_false_restored"
   ],
   "note": ""
  },
  {
   "property": "C96",
   "status": "proved",
   "theorems": [
    "Swc.C96_result",
    "Swc.C96_false_table",
    "Swc.C96_start",
    "Swc.C96_false_fetch",
    "Swc.C96_merge_requests",
    "Swc.C96_error"
   ],
   "note": ""
  },
  {
   "property": "C97",
   "status": "proved",
   "theorems": [
    "Swc.C97_buttons",
    "Swc.C97_one_step",
    "Swc.C97_reach",
    "Swc.C97_shown",
    "Swc.C97_waits",
    "Swc.C97_options",
    "Swc.C97_false_failed",
    "Swc.C97_false_hidden",
    "Swc.C97_false_summary"
   ],
   "note": ""
  },
  {
   "property": "C98",
   "status": "proved",
   "theorems": [
    "Swc.C98_found",
    "Swc.C98_refused",
    "Swc.C98_lists",
    "Swc.C98_inside",
    "Swc.C98_false_climb",
    "Swc.C98_sdk",
    "Swc.C98_names",
    "Swc.C98_false_dotted",
    "Swc.C98_compared",
    "Swc.C98_false_brackets",
    "Swc.C98_false_twice",
    "Swc.C98_false_directory",
    "Swc.C98_once",
    "Swc.C98_limit",
    "Swc.C98_sdk_limit"
   ],
   "note": ""
  },
  {
   "property": "C99",
   "status": "proved",
   "theorems": [
    "Swc.C99_checkout",
    "Swc.C99_files",
    "Swc.C99_revisions",
    "Swc.C99_quiet",
    "Swc.C99_comparable",
    "Swc.C99_button",
    "Swc.C99_example",
    "Swc.C99_unforced",
    "Swc.C99_first",
    "Swc.C99_false_newest",
    "Swc.C99_false_path",
    "Swc.C99_false_moved",
    "Swc.C99_false_tag_new",
    "Swc.C99_all_tags",
    "Swc.C99_false_tag",
    "Swc.C99_false_poison",
    "Swc.C99_false_poison_compare"
   ],
   "note": ""
  },
  {
   "property": "C100",
   "status": "proved",
   "theorems": [
    "Swc.C100_quoted",
    "Swc.C100_read_back",
    "Swc.C100_checkout",
    "Swc.C100_listing",
    "Swc.C100_file",
    "Swc.C100_filter",
    "Swc.C100_why",
    "Swc.C100_said",
    "Swc.C100_iff",
    "Swc.C100_page",
    "Swc.C100_served",
    "Swc.C100_example"
   ],
   "note": ""
  },
  {
   "property": "C101",
   "status": "proved",
   "theorems": [
    "Swc.C101_inside",
    "Swc.C101_read",
    "Swc.C101_false_listed",
    "Swc.C101_false_text",
    "Swc.C101_false_page",
    "Swc.C101_example"
   ],
   "note": ""
  },
  {
   "property": "C102",
   "status": "proved",
   "theorems": [
    "Swc.C102_exact",
    "Swc.C102_exact_back",
    "Swc.C102_worst",
    "Swc.C102_no_room",
    "Swc.C102_constant",
    "Swc.C102_added",
    "Swc.C102_report"
   ],
   "note": ""
  },
  {
   "property": "C103",
   "status": "proved",
   "theorems": [
    "Swc.C103_chain",
    "Swc.C103_unchanged",
    "Swc.C103_false_ranges",
    "Swc.C103_false_worst",
    "Swc.C103_false_threshold"
   ],
   "note": ""
  },
  {
   "property": "C104",
   "status": "proved",
   "theorems": [
    "Swc.C104_base",
    "Swc.C104_false_base",
    "Swc.C104_false_threshold",
    "Swc.C104_points",
    "Swc.C104_order",
    "Swc.C104_false_order",
    "Swc.C104_files_line"
   ],
   "note": ""
  },
  {
   "property": "C105",
   "status": "proved",
   "theorems": [
    "Swc.C105_refused",
    "Swc.C105_renamed",
    "Swc.C105_kind",
    "Swc.C105_false_one_sided",
    "Swc.C105_false_rename"
   ],
   "note": ""
  },
  {
   "property": "C106",
   "status": "proved",
   "theorems": [
    "Swc.C106_files_crash",
    "Swc.C106_crash",
    "Swc.C106_exit",
    "Swc.C106_misread",
    "Swc.C106_files_why",
    "Swc.C106_files_said",
    "Swc.C106_why",
    "Swc.C106_said",
    "Swc.C106_words",
    "Swc.C106_printed",
    "Swc.C106_status",
    "Swc.C106_false_gate",
    "Swc.C106_start",
    "Swc.C106_server",
    "Swc.C106_false_directory"
   ],
   "note": ""
  },
  {
   "property": "C107",
   "status": "proved",
   "theorems": [
    "Swc.C107_names",
    "Swc.C107_succeeds",
    "Swc.C107_report",
    "Swc.C107_commits",
    "Swc.C107_table"
   ],
   "note": ""
  },
  {
   "property": "C108",
   "status": "proved",
   "theorems": [
    "Swc.C108_crash",
    "Swc.C108_crash_iff",
    "Swc.C108_number",
    "Swc.C108_number_fatal",
    "Swc.C108_weight",
    "Swc.C108_weight_fatal",
    "Swc.C108_body",
    "Swc.C108_body_fatal",
    "Swc.C108_attribute",
    "Swc.C108_ranges",
    "Swc.C108_function",
    "Swc.C108_function_fatal",
    "Swc.C108_file",
    "Swc.C108_file_fatal",
    "Swc.C108_file_refused",
    "Swc.C108_file_ends",
    "Swc.C108_strict",
    "Swc.C108_lenient",
    "Swc.C108_lenient_result",
    "Swc.C108_trichotomy",
    "Swc.C108_exclusive"
   ],
   "note": ""
  },
  {
   "property": "C109",
   "status": "proved",
   "theorems": [
    "Swc.C109_runs",
    "Swc.C109_commits",
    "Swc.C109_revision",
    "Swc.C109_work",
    "Swc.C109_steps",
    "Swc.C109_kept",
    "Swc.C109_grows",
    "Swc.C109_false_limit"
   ],
   "note": ""
  },
  {
   "property": "C110",
   "status": "proved",
   "theorems": [
    "Swc.C110_sum",
    "Swc.C110_sum_fatal",
    "Swc.C110_db",
    "Swc.C110_db_fatal",
    "Swc.C110_value",
    "Swc.C110_value_fatal",
    "Swc.C110_overhead",
    "Swc.C110_overhead_fatal",
    "Swc.C110_storage",
    "Swc.C110_overheads",
    "Swc.C110_kind",
    "Swc.C110_kind_fatal",
    "Swc.C110_kind_ends"
   ],
   "note": ""
  },
  {
   "property": "C111",
   "status": "proved",
   "theorems": [
    "Swc.C111_computed",
    "Swc.C111_poisoned",
    "Swc.C111_last",
    "Swc.C111_unanswered",
    "Swc.C111_who",
    "Swc.C111_compare",
    "Swc.C111_branches",
    "Swc.C111_example",
    "Swc.C111_example_branches"
   ],
   "note": ""
  },
  {
   "property": "C112",
   "status": "proved",
   "theorems": [
    "Swc.C112_served",
    "Swc.C112_settled",
    "Swc.C112_answered",
    "Swc.C112_runs",
    "Swc.C112_site_runs",
    "Swc.C112_starved",
    "Swc.C112_starved_all"
   ],
   "note": ""
  },
  {
   "property": "C113",
   "status": "proved",
   "theorems": [
    "Swc.C113_refines",
    "Swc.C113_limit",
    "Swc.C113_exclusive",
    "Swc.C113_own",
    "Swc.C113_progress",
    "Swc.C113_terminates",
    "Swc.C113_looked_at",
    "Swc.C113_settled",
    "Swc.C113_answered",
    "Swc.C113_queued",
    "Swc.C113_full",
    "Swc.C113_fills",
    "Swc.C113_runs",
    "Swc.C113_example"
   ],
   "note": ""
  },
  {
   "property": "C114",
   "status": "proved",
   "theorems": [
    "Swc.C114_read",
    "Swc.C114_count",
    "Swc.C114_injective",
    "Swc.C114_width",
    "Swc.C114_aligned",
    "Swc.C114_seen",
    "Swc.C114_ragged",
    "Swc.C114_tool",
    "Swc.C114_notice",
    "Swc.C114_verbose",
    "Swc.C114_csv_end",
    "Swc.C114_stdout",
    "Swc.C114_parse",
    "Swc.C114_coloured",
    "Swc.C114_false_bar"
   ],
   "note": ""
  },
  {
   "property": "C115",
   "status": "proved",
   "theorems": [
    "Swc.C115_evals",
    "Swc.C115_exact",
    "Swc.C115_unique",
    "Swc.C115_doubling",
    "Swc.C115_points",
    "Swc.C115_reached",
    "Swc.C115_source",
    "Swc.C115_no_limit",
    "Swc.C115_pieces",
    "Swc.C115_linear",
    "Swc.C115_each",
    "Swc.C115_bounded",
    "Swc.C115_whole"
   ],
   "note": ""
  },
  {
   "property": "C116",
   "status": "proved",
   "theorems": [
    "Swc.C116_lines",
    "Swc.C116_button",
    "Swc.C116_double_click",
    "Swc.C116_useless",
    "Swc.C116_no_request",
    "Swc.C116_useful"
   ],
   "note": ""
  },
  {
   "property": "C117",
   "status": "proved",
   "theorems": [
    "Swc.C117_shown",
    "Swc.C117_newest",
    "Swc.C117_oldest",
    "Swc.C117_exactly",
    "Swc.C117_texts",
    "Swc.C117_american",
    "Swc.C117_not_newest"
   ],
   "note": ""
  },
  {
   "property": "C118",
   "status": "proved",
   "theorems": [
    "Swc.C118_unlisted",
    "Swc.C118_added",
    "Swc.C118_silence",
    "Swc.C118_commits",
    "Swc.C118_files",
    "Swc.C118_alarm",
    "Swc.C118_chain",
    "Swc.C118_page",
    "Swc.C118_savings",
    "Swc.C118_elsewhere",
    "Swc.C118_drift"
   ],
   "note": ""
  },
  {
   "property": "C119",
   "status": "proved",
   "theorems": [
    "Swc.C119_header",
    "Swc.C119_answered",
    "Swc.C119_badge",
    "Swc.C119_version",
    "Swc.C119_passed",
    "Swc.C119_deployment",
    "Swc.C119_unsaid",
    "Swc.C119_rollback"
   ],
   "note": ""
  },
  {
   "property": "C120",
   "status": "proved",
   "theorems": [
    "Swc.C120_describe",
    "Swc.C120_version",
    "Swc.C120_check",
    "Swc.C120_request",
    "Swc.C120_unknown",
    "Swc.C120_semver",
    "Swc.C120_valid",
    "Swc.C120_dirty",
    "Swc.C120_asserted"
   ],
   "note": ""
  },
  {
   "property": "C121",
   "status": "proved",
   "theorems": [
    "Swc.C121_entries",
    "Swc.C121_part_succeeds",
    "Swc.C121_whole_succeeds",
    "Swc.C121_report",
    "Swc.C121_together",
    "Swc.C121_read",
    "Swc.C121_command",
    "Swc.C121_commits",
    "Swc.C121_false_directories"
   ],
   "note": ""
  },
  {
   "property": "C122",
   "status": "proved",
   "theorems": [
    "Swc.C122_rank_new",
    "Swc.C122_rank_old",
    "Swc.C122_slower",
    "Swc.C122_cheaper",
    "Swc.C122_more_work",
    "Swc.C122_more_work_debug",
    "Swc.C122_false_overflow",
    "Swc.C122_report",
    "Swc.C122_one_point",
    "Swc.C122_stays",
    "Swc.C122_new_components",
    "Swc.C122_any_work"
   ],
   "note": ""
  },
  {
   "property": "C123",
   "status": "proved",
   "theorems": [
    "Swc.C123_ratio",
    "Swc.C123_scaled",
    "Swc.C123_units",
    "Swc.C123_false_large"
   ],
   "note": ""
  },
  {
   "property": "C124",
   "status": "proved",
   "theorems": [
    "Swc.C124_increase",
    "Swc.C124_decrease",
    "Swc.C124_dilutes",
    "Swc.C124_same_work"
   ],
   "note": ""
  }
 ]
}