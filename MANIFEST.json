{
 "claims": [
  {
   "property": "C01",
   "status": "proved",
   "theorems": [
    "Cafebabe.C01_header",
    "Cafebabe.C01_bad_magic"
   ],
   "note": ""
  },
  {
   "property": "C02",
   "status": "proved",
   "theorems": [
    "Cafebabe.C02_extension",
    "Cafebabe.C02_truncation"
   ],
   "note": ""
  },
  {
   "property": "C03",
   "status": "proved",
   "theorems": [
    "Cafebabe.C03_accepts_iff_grammar",
    "Cafebabe.C03_unambiguous",
    "Cafebabe.C03_one_outcome"
   ],
   "note": ""
  },
  {
   "property": "C04",
   "status": "proved",
   "theorems": [
    "Cafebabe.C04_returns",
    "Cafebabe.C04_depth_linear",
    "Cafebabe.C04_accepted"
   ],
   "note": "Unconditional termination is false of the code (C05); proved under exactly the excluded case of C05, with the recursion budget linear in the input."
  },
  {
   "property": "C05",
   "status": "proved",
   "theorems": [
    "Cafebabe.C05_hangs_iff",
    "Cafebabe.C05_endless_iff_cycle",
    "Cafebabe.C05_cyclic_hangs",
    "Cafebabe.C05_accepted_no_cycle"
   ],
   "note": "Finding: the expected rejection is false of the code; the hang is characterised exactly."
  },
  {
   "property": "C06",
   "status": "proved",
   "theorems": [
    "Cafebabe.C06_panics_iff",
    "Cafebabe.C06_release_iff",
    "Cafebabe.C06_outcomes",
    "Cafebabe.C06_inputs",
    "Cafebabe.C06_panic_causes",
    "Cafebabe.C06_release",
    "Cafebabe.C06_release_decodable",
    "Cafebabe.C06_witnesses"
   ],
   "note": "Finding: panic freedom is false; proved: the complete list of reachable panics, with witnesses for each."
  },
  {
   "property": "C07",
   "status": "proved",
   "theorems": [
    "Cafebabe.C07_modes_agree",
    "Cafebabe.C07_differ"
   ],
   "note": "Agreement whenever the debug build does not panic with overflow, plus a witness that it is needed."
  },
  {
   "property": "C08",
   "status": "proved",
   "theorems": [
    "Cafebabe.C08_slots",
    "Cafebabe.C08_overflow_shape",
    "Cafebabe.C08_debug_panics",
    "Cafebabe.C08_release_reads_on",
    "Cafebabe.C08_witness"
   ],
   "note": "Finding: u16 slot counter overflow; both sides proved with a witness."
  },
  {
   "property": "C09",
   "status": "proved",
   "theorems": [
    "Cafebabe.C09_well_typed",
    "Cafebabe.C09_resolved"
   ],
   "note": ""
  },
  {
   "property": "C10",
   "status": "proved",
   "theorems": [
    "Cafebabe.C10_short_paths",
    "Cafebabe.C10_acyclic"
   ],
   "note": ""
  },
  {
   "property": "C11",
   "status": "proved",
   "theorems": [
    "Cafebabe.C11_version_gate",
    "Cafebabe.C11_versions",
    "Cafebabe.C11_bad_tag"
   ],
   "note": ""
  },
  {
   "property": "C12",
   "status": "proved",
   "theorems": [
    "Cafebabe.C12_handles",
    "Cafebabe.C12_kind_byte"
   ],
   "note": ""
  },
  {
   "property": "C13",
   "status": "proved",
   "theorems": [
    "Cafebabe.C13_names",
    "Cafebabe.C13_never_rejected",
    "Cafebabe.C13_reader"
   ],
   "note": ""
  },
  {
   "property": "C14",
   "status": "proved",
   "theorems": [
    "Cafebabe.C14_nth",
    "Cafebabe.C14_item_unique",
    "Cafebabe.C14_slots"
   ],
   "note": ""
  },
  {
   "property": "C15",
   "status": "proved",
   "theorems": [
    "Cafebabe.C15_panics_iff",
    "Cafebabe.C15_total",
    "Cafebabe.C15_decodable",
    "Cafebabe.C15_witness"
   ],
   "note": "Finding: iteration can panic; the panicking entries are characterised exactly."
  },
  {
   "property": "C16",
   "status": "proved",
   "theorems": [
    "Cafebabe.C16_names",
    "Cafebabe.C16_layout"
   ],
   "note": ""
  },
  {
   "property": "C17",
   "status": "proved",
   "theorems": [
    "Cafebabe.C17_decides",
    "Cafebabe.C17_accepts_names",
    "Cafebabe.C17_false"
   ],
   "note": "Finding: try_from accepts \"\" and \"a/\"; the accepted set is characterised exactly."
  },
  {
   "property": "C18",
   "status": "proved",
   "theorems": [
    "Cafebabe.C18_fields",
    "Cafebabe.C18_duplicate_rejected"
   ],
   "note": ""
  },
  {
   "property": "C19",
   "status": "proved",
   "theorems": [
    "Cafebabe.C19_methods",
    "Cafebabe.C19_duplicate_rejected"
   ],
   "note": ""
  },
  {
   "property": "C20",
   "status": "proved",
   "theorems": [
    "Cafebabe.C20_module",
    "Cafebabe.C20_old_version_rejected",
    "Cafebabe.C20_other_flag_rejected"
   ],
   "note": ""
  },
  {
   "property": "C21",
   "status": "proved",
   "theorems": [
    "Cafebabe.C21_constants",
    "Cafebabe.C21_instructions"
   ],
   "note": ""
  },
  {
   "property": "C22",
   "status": "proved",
   "theorems": [
    "Cafebabe.C22_exact_length",
    "Cafebabe.C22_inside_code",
    "Cafebabe.C22_inside_record",
    "Cafebabe.C22_wrong_length_refused",
    "Cafebabe.C22_past_end_refused"
   ],
   "note": ""
  },
  {
   "property": "C23",
   "status": "proved",
   "theorems": [
    "Cafebabe.C23_verbatim",
    "Cafebabe.C23_only_unknown",
    "Cafebabe.C23_content_irrelevant"
   ],
   "note": ""
  },
  {
   "property": "C24",
   "status": "proved",
   "theorems": [
    "Cafebabe.C24_decoded",
    "Cafebabe.C24_accepted",
    "Cafebabe.C24_refused",
    "Cafebabe.C24_bad_index_refused"
   ],
   "note": ""
  },
  {
   "property": "C25",
   "status": "proved",
   "theorems": [
    "Cafebabe.C25_decoded",
    "Cafebabe.C25_frame_exact",
    "Cafebabe.C25_reserved_refused",
    "Cafebabe.C25_unknown_tag_refused"
   ],
   "note": ""
  },
  {
   "property": "C26",
   "status": "proved",
   "theorems": [
    "Cafebabe.C26_annotations",
    "Cafebabe.C26_parameter_annotations",
    "Cafebabe.C26_type_annotations",
    "Cafebabe.C26_default",
    "Cafebabe.C26_value_exact",
    "Cafebabe.C26_unknown_tag_refused",
    "Cafebabe.C26_unknown_target_refused",
    "Cafebabe.C26_unknown_path_kind_refused"
   ],
   "note": ""
  },
  {
   "property": "C27",
   "status": "proved",
   "theorems": [
    "Cafebabe.C27_lower_bound",
    "Cafebabe.C27_too_small",
    "Cafebabe.C27_upper_bound",
    "Cafebabe.C27_accepted",
    "Cafebabe.C27_unbounded"
   ],
   "note": ""
  },
  {
   "property": "C28",
   "status": "proved",
   "theorems": [
    "Cafebabe.C28_partition",
    "Cafebabe.C28_offsets"
   ],
   "note": ""
  },
  {
   "property": "C29",
   "status": "proved",
   "theorems": [
    "Cafebabe.C29_sorted",
    "Cafebabe.C29_index",
    "Cafebabe.C29_returns"
   ],
   "note": ""
  },
  {
   "property": "C30",
   "status": "proved",
   "theorems": [
    "Cafebabe.C30_targets",
    "Cafebabe.C30_refused"
   ],
   "note": ""
  },
  {
   "property": "C31",
   "status": "proved",
   "theorems": [
    "Cafebabe.C31_instruction",
    "Cafebabe.C31_unambiguous",
    "Cafebabe.C31_decoded",
    "Cafebabe.C31_accepted",
    "Cafebabe.C31_refused",
    "Cafebabe.C31_unassigned_refused"
   ],
   "note": ""
  },
  {
   "property": "C32",
   "status": "proved",
   "theorems": [
    "Cafebabe.C32_jumps",
    "Cafebabe.C32_checked",
    "Cafebabe.C32_false_in_release",
    "Cafebabe.C32_panics_in_debug"
   ],
   "note": "Finding: false in release builds for one (low, high) pair; proved for all others."
  },
  {
   "property": "C33",
   "status": "proved",
   "theorems": [
    "Cafebabe.C33_option",
    "Cafebabe.C33_only_code",
    "Cafebabe.C33_default"
   ],
   "note": ""
  },
  {
   "property": "C34",
   "status": "proved",
   "theorems": [
    "Cafebabe.C34_display_parses",
    "Cafebabe.C34_display_prefix",
    "Cafebabe.C34_accepted",
    "Cafebabe.C34_checked",
    "Cafebabe.C34_false",
    "Cafebabe.C34_false_in_file"
   ],
   "note": "Finding: Display(parse s) = s fails outside pool validation; the prefix and round-trip claims are proved."
  },
  {
   "property": "C35",
   "status": "proved",
   "theorems": [
    "Cafebabe.C35_decides"
   ],
   "note": ""
  },
  {
   "property": "C36",
   "status": "proved",
   "theorems": [
    "Cafebabe.C36_never_panics",
    "Cafebabe.C36_never_panics_inside",
    "Cafebabe.C36_dimensions",
    "Cafebabe.C36_too_many"
   ],
   "note": ""
  },
  {
   "property": "C37",
   "status": "proved",
   "theorems": [
    "Cafebabe.C37_decides"
   ],
   "note": ""
  },
  {
   "property": "C38",
   "status": "proved",
   "theorems": [
    "Cafebabe.C38_slots",
    "Cafebabe.C38_constants",
    "Cafebabe.C38_values",
    "Cafebabe.C38_operands",
    "Cafebabe.C38_branches",
    "Cafebabe.C38_tableswitch",
    "Cafebabe.C38_lookupswitch"
   ],
   "note": ""
  },
  {
   "property": "C39",
   "status": "proved",
   "theorems": [
    "Cafebabe.C39_shown",
    "Cafebabe.C39_utf8",
    "Cafebabe.C39_string",
    "Cafebabe.C39_source_debug"
   ],
   "note": ""
  },
  {
   "property": "C40",
   "status": "proved",
   "theorems": [
    "Cafebabe.C40_class",
    "Cafebabe.C40_fields",
    "Cafebabe.C40_methods",
    "Cafebabe.C40_inner_classes",
    "Cafebabe.C40_method_parameters",
    "Cafebabe.C40_module",
    "Cafebabe.C40_parameter_flag_refused",
    "Cafebabe.C40_module_flag_refused",
    "Cafebabe.C40_requires_flag_refused",
    "Cafebabe.C40_exports_flag_refused",
    "Cafebabe.C40_opens_flag_refused"
   ],
   "note": ""
  },
  {
   "property": "C41",
   "status": "proved",
   "theorems": [
    "Cafebabe.C41_no_relock",
    "Cafebabe.C41_no_deadlock",
    "Cafebabe.C41_bounded",
    "Cafebabe.C41_finishes",
    "Cafebabe.C41_answers",
    "Cafebabe.C41_panics",
    "Cafebabe.C41_clean",
    "Cafebabe.C41_iteration",
    "Cafebabe.C41_contention"
   ],
   "note": ""
  },
  {
   "property": "C42",
   "status": "proved",
   "theorems": [
    "Cafebabe.C42_display",
    "Cafebabe.C42_wrap",
    "Cafebabe.C42_wraps",
    "Cafebabe.C42_reader"
   ],
   "note": ""
  },
  {
   "property": "C43",
   "status": "proved",
   "theorems": [
    "Cafebabe.C43_decoded",
    "Cafebabe.C43_accepted",
    "Cafebabe.C43_refused",
    "Cafebabe.C43_code_too_long_refused"
   ],
   "note": ""
  },
  {
   "property": "C44",
   "status": "proved",
   "theorems": [
    "Cafebabe.C44_requests",
    "Cafebabe.C44_bound",
    "Cafebabe.C44_valid",
    "Cafebabe.C44_proportional",
    "Cafebabe.C44_accepted",
    "Cafebabe.C44_tableswitch",
    "Cafebabe.C44_lookupswitch",
    "Cafebabe.C44_refused"
   ],
   "note": "Finding: memory requested is not proportional to the input for refused code; it is for accepted code."
  },
  {
   "property": "C45",
   "status": "proved",
   "theorems": [
    "Cafebabe.C45_moved",
    "Cafebabe.C45_instruction",
    "Cafebabe.C45_embedded",
    "Cafebabe.C45_bytecode",
    "Cafebabe.C45_field_order",
    "Cafebabe.C45_method_order",
    "Cafebabe.C45_attribute_order"
   ],
   "note": ""
  },
  {
   "property": "C46",
   "status": "proved",
   "theorems": [
    "Cafebabe.C46_small_reads",
    "Cafebabe.C46_cases",
    "Cafebabe.C46_same",
    "Cafebabe.C46_64_bit",
    "Cafebabe.C46_accepts",
    "Cafebabe.C46_panics",
    "Cafebabe.C46_after_every_class",
    "Cafebabe.C46_witness",
    "Cafebabe.C46_capacity"
   ],
   "note": "Finding: panics on 32-bit targets; the inputs where targets can differ are characterised, acceptance is proved target independent."
  },
  {
   "property": "C47",
   "status": "proved",
   "theorems": [
    "Cafebabe.C47_lookups",
    "Cafebabe.C47_parts",
    "Cafebabe.C47_next",
    "Cafebabe.C47_validation",
    "Cafebabe.C47_deadlock_iff",
    "Cafebabe.C47_format",
    "Cafebabe.C47_format_unique",
    "Cafebabe.C47_hanging_inputs"
   ],
   "note": ""
  },
  {
   "property": "C48",
   "status": "proved",
   "theorems": [
    "Cafebabe.C48_removal",
    "Cafebabe.C48_unknown_attributes",
    "Cafebabe.C48_insertion",
    "Cafebabe.C48_insert_unknown"
   ],
   "note": ""
  },
  {
   "property": "C49",
   "status": "proved",
   "theorems": [
    "Cafebabe.C49_contexts_differ",
    "Cafebabe.C49_every_error",
    "Cafebabe.C49_place_iff",
    "Cafebabe.C49_one_place",
    "Cafebabe.C49_text",
    "Cafebabe.C49_field",
    "Cafebabe.C49_witnesses"
   ],
   "note": ""
  },
  {
   "property": "C50",
   "status": "proved",
   "theorems": [
    "Cafebabe.C50_renumbered",
    "Cafebabe.C50_appended"
   ],
   "note": ""
  },
  {
   "property": "C51",
   "status": "proved",
   "theorems": [
    "Cafebabe.C51_size",
    "Cafebabe.C51_parameters",
    "Cafebabe.C51_amplified"
   ],
   "note": ""
  },
  {
   "property": "C52",
   "status": "proved",
   "theorems": [
    "Cafebabe.C52_version",
    "Cafebabe.C52_later"
   ],
   "note": ""
  },
  {
   "property": "C53",
   "status": "proved",
   "theorems": [
    "Cafebabe.C53_tuned",
    "Cafebabe.C53_zero"
   ],
   "note": ""
  },
  {
   "property": "C54",
   "status": "proved",
   "theorems": [
    "Cafebabe.C54_truncated",
    "Cafebabe.C54_extra",
    "Cafebabe.C54_final",
    "Cafebabe.C54_hopeless",
    "Cafebabe.C54_panics",
    "Cafebabe.C54_hangs"
   ],
   "note": ""
  },
  {
   "property": "C55",
   "status": "proved",
   "theorems": [
    "Cafebabe.C55_trail",
    "Cafebabe.C55_names_differ",
    "Cafebabe.C55_number",
    "Cafebabe.C55_name",
    "Cafebabe.C55_inside_code",
    "Cafebabe.C55_bytecode",
    "Cafebabe.C55_inside_record",
    "Cafebabe.C55_length",
    "Cafebabe.C55_witnesses"
   ],
   "note": ""
  },
  {
   "property": "C56",
   "status": "proved",
   "theorems": [
    "Cafebabe.C56_targets",
    "Cafebabe.C56_code",
    "Cafebabe.C56_invoke",
    "Cafebabe.C56_frames",
    "Cafebabe.C56_targets_witness",
    "Cafebabe.C56_frames_witness",
    "Cafebabe.C56_invoke_witness"
   ],
   "note": ""
  },
  {
   "property": "C57",
   "status": "proved",
   "theorems": [
    "Cafebabe.C57_read",
    "Cafebabe.C57_same_bytes",
    "Cafebabe.C57_copied",
    "Cafebabe.C57_known_everywhere",
    "Cafebabe.C57_unknown_everywhere",
    "Cafebabe.C57_witnesses"
   ],
   "note": ""
  },
  {
   "property": "C58",
   "status": "proved",
   "theorems": [
    "Cafebabe.C58_text",
    "Cafebabe.C58_spellings",
    "Cafebabe.C58_two_spellings",
    "Cafebabe.C58_string",
    "Cafebabe.C58_shown",
    "Cafebabe.C58_size",
    "Cafebabe.C58_class_name",
    "Cafebabe.C58_witnesses"
   ],
   "note": ""
  },
  {
   "property": "C59",
   "status": "proved",
   "theorems": [
    "Cafebabe.C59_shown",
    "Cafebabe.C59_reference",
    "Cafebabe.C59_types",
    "Cafebabe.C59_utf8",
    "Cafebabe.C59_modules",
    "Cafebabe.C59_checked",
    "Cafebabe.C59_unchecked"
   ],
   "note": ""
  },
  {
   "property": "C60",
   "status": "proved",
   "theorems": [
    "Cafebabe.C60_same_constant",
    "Cafebabe.C60_constant",
    "Cafebabe.C60_java",
    "Cafebabe.C60_same_descriptor",
    "Cafebabe.C60_borrowed",
    "Cafebabe.C60_copied",
    "Cafebabe.C60_shown",
    "Cafebabe.C60_copies",
    "Cafebabe.C60_amplification"
   ],
   "note": ""
  },
  {
   "property": "C61",
   "status": "proved",
   "theorems": [
    "Cafebabe.C61_same_text",
    "Cafebabe.C61_same_pool",
    "Cafebabe.C61_text",
    "Cafebabe.C61_prefix",
    "Cafebabe.C61_pool",
    "Cafebabe.C61_accepted",
    "Cafebabe.C61_file",
    "Cafebabe.C61_quadratic",
    "Cafebabe.C61_worst"
   ],
   "note": ""
  },
  {
   "property": "C62",
   "status": "proved",
   "theorems": [
    "Cafebabe.C62_same",
    "Cafebabe.C62_bound",
    "Cafebabe.C62_accepted",
    "Cafebabe.C62_includes",
    "Cafebabe.C62_product",
    "Cafebabe.C62_quadratic",
    "Cafebabe.C62_dynamic",
    "Cafebabe.C62_worst",
    "Cafebabe.C62_square",
    "Cafebabe.C62_lookup"
   ],
   "note": ""
  },
  {
   "property": "C63",
   "status": "proved",
   "theorems": [
    "Cafebabe.C63_same",
    "Cafebabe.C63_drop",
    "Cafebabe.C63_leak_iff",
    "Cafebabe.C63_unread",
    "Cafebabe.C63_valid_pool",
    "Cafebabe.C63_accepted",
    "Cafebabe.C63_no_leak",
    "Cafebabe.C63_cycle",
    "Cafebabe.C63_deep",
    "Cafebabe.C63_witness"
   ],
   "note": ""
  },
  {
   "property": "C64",
   "status": "proved",
   "theorems": [
    "Cafebabe.C64_order",
    "Cafebabe.C64_equality",
    "Cafebabe.C64_hash",
    "Cafebabe.C64_held",
    "Cafebabe.C64_in_file",
    "Cafebabe.C64_reference_kinds",
    "Cafebabe.C64_array_types",
    "Cafebabe.C64_errors",
    "Cafebabe.C64_needs_check",
    "Cafebabe.C64_built_by_hand"
   ],
   "note": ""
  },
  {
   "property": "C65",
   "status": "proved",
   "theorems": [
    "Cafebabe.C65_replaced",
    "Cafebabe.C65_length",
    "Cafebabe.C65_any_length",
    "Cafebabe.C65_unchecked"
   ],
   "note": ""
  },
  {
   "property": "C66",
   "status": "proved",
   "theorems": [
    "Cafebabe.C66_assembled",
    "Cafebabe.C66_order",
    "Cafebabe.C66_merged",
    "Cafebabe.C66_flags",
    "Cafebabe.C66_unchecked"
   ],
   "note": ""
  },
  {
   "property": "C67",
   "status": "proved",
   "theorems": [
    "Cafebabe.C67_bounded",
    "Cafebabe.C67_amplified",
    "Cafebabe.C67_tight"
   ],
   "note": ""
  },
  {
   "property": "C68",
   "status": "proved",
   "theorems": [
    "Cafebabe.C68_first_fault",
    "Cafebabe.C68_instruction",
    "Cafebabe.C68_jump",
    "Cafebabe.C68_opcode",
    "Cafebabe.C68_witnesses",
    "Cafebabe.C68_no_place"
   ],
   "note": ""
  },
  {
   "property": "C69",
   "status": "proved",
   "theorems": [
    "Cafebabe.C69_layouts",
    "Cafebabe.C69_all_covered",
    "Cafebabe.C69_fault",
    "Cafebabe.C69_faulty",
    "Cafebabe.C69_unambiguous",
    "Cafebabe.C69_table",
    "Cafebabe.C69_content",
    "Cafebabe.C69_in_code",
    "Cafebabe.C69_rows",
    "Cafebabe.C69_row_number",
    "Cafebabe.C69_exception",
    "Cafebabe.C69_witnesses",
    "Cafebabe.C69_readable",
    "Cafebabe.C69_words"
   ],
   "note": ""
  },
  {
   "property": "C70",
   "status": "proved",
   "theorems": [
    "Cafebabe.C70_class_name",
    "Cafebabe.C70_field_descriptor",
    "Cafebabe.C70_method_descriptor",
    "Cafebabe.C70_one",
    "Cafebabe.C70_prefix",
    "Cafebabe.C70_prefix_exceptions"
   ],
   "note": ""
  },
  {
   "property": "C71",
   "status": "proved",
   "theorems": [
    "Cafebabe.C71_iff",
    "Cafebabe.C71_rejected",
    "Cafebabe.C71_every_error",
    "Cafebabe.C71_one",
    "Cafebabe.C71_silent",
    "Cafebabe.C71_header_cases",
    "Cafebabe.C71_pool_cases",
    "Cafebabe.C71_class_cases",
    "Cafebabe.C71_member_cases",
    "Cafebabe.C71_end_cases",
    "Cafebabe.C71_unnamed_field"
   ],
   "note": ""
  },
  {
   "property": "C72",
   "status": "proved",
   "theorems": [
    "Cafebabe.C72_iff",
    "Cafebabe.C72_one",
    "Cafebabe.C72_extends",
    "Cafebabe.C72_outcomes",
    "Cafebabe.C72_attribute_cases",
    "Cafebabe.C72_code_cases",
    "Cafebabe.C72_record_cases",
    "Cafebabe.C72_silent"
   ],
   "note": ""
  },
  {
   "property": "C73",
   "status": "proved",
   "theorems": [
    "Cafebabe.C73_linear",
    "Cafebabe.C73_java",
    "Cafebabe.C73_nested",
    "Cafebabe.C73_long",
    "Cafebabe.C73_contexts",
    "Cafebabe.C73_case"
   ],
   "note": ""
  },
  {
   "property": "C74",
   "status": "proved",
   "theorems": [
    "Cafebabe.C74_exact",
    "Cafebabe.C74_held",
    "Cafebabe.C74_held_cases",
    "Cafebabe.C74_same",
    "Cafebabe.C74_accepted",
    "Cafebabe.C74_bound",
    "Cafebabe.C74_refused",
    "Cafebabe.C74_nested",
    "Cafebabe.C74_rate",
    "Cafebabe.C74_switch",
    "Cafebabe.C74_cases"
   ],
   "note": ""
  },
  {
   "property": "C75",
   "status": "proved",
   "theorems": [
    "Cafebabe.C75_slots",
    "Cafebabe.C75_same_constants",
    "Cafebabe.C75_renamed",
    "Cafebabe.C75_witness",
    "Cafebabe.C75_attribute_names"
   ],
   "note": ""
  },
  {
   "property": "C76",
   "status": "proved",
   "theorems": [
    "Cafebabe.C76_same_class",
    "Cafebabe.C76_count",
    "Cafebabe.C76_count_witness",
    "Cafebabe.C76_witness"
   ],
   "note": ""
  },
  {
   "property": "C77",
   "status": "proved",
   "theorems": [
    "Cafebabe.C77_nth",
    "Cafebabe.C77_same",
    "Cafebabe.C77_survives",
    "Cafebabe.C77_threads",
    "Cafebabe.C77_again",
    "Cafebabe.C77_case",
    "Cafebabe.C77_poisoned"
   ],
   "note": ""
  },
  {
   "property": "C78",
   "status": "proved",
   "theorems": [
    "Cafebabe.C78_ends",
    "Cafebabe.C78_determined",
    "Cafebabe.C78_parsed",
    "Cafebabe.C78_depth",
    "Cafebabe.C78_number",
    "Cafebabe.C78_unbounded",
    "Cafebabe.C78_case"
   ],
   "note": ""
  }
 ]
}