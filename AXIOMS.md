# Axioms used by each property theorem

Generated by tools/gen_axioms.py from `#print axioms`.

| theorem | axioms |
|---|---|
| Cafebabe.C01_header | propext, Classical.choice, Quot.sound |
| Cafebabe.C01_bad_magic | propext, Classical.choice, Quot.sound |
| Cafebabe.C02_extension | propext, Classical.choice, Quot.sound |
| Cafebabe.C02_truncation | propext, Classical.choice, Quot.sound |
| Cafebabe.C03_accepts_iff_grammar | propext, Classical.choice, Quot.sound |
| Cafebabe.C03_unambiguous | propext, Classical.choice, Quot.sound |
| Cafebabe.C03_one_outcome | propext, Classical.choice, Quot.sound |
| Cafebabe.C04_returns | propext, Classical.choice, Quot.sound |
| Cafebabe.C04_depth_linear | propext, Classical.choice, Quot.sound |
| Cafebabe.C04_accepted | propext, Classical.choice, Quot.sound |
| Cafebabe.C05_hangs_iff | propext, Classical.choice, Quot.sound |
| Cafebabe.C05_endless_iff_cycle | propext, Classical.choice, Quot.sound |
| Cafebabe.C05_cyclic_hangs | propext, Classical.choice, Quot.sound |
| Cafebabe.C05_accepted_no_cycle | propext, Classical.choice, Quot.sound |
| Cafebabe.C06_panics_iff | propext, Classical.choice, Quot.sound |
| Cafebabe.C06_release_iff | propext, Classical.choice, Quot.sound |
| Cafebabe.C06_outcomes | propext, Classical.choice, Quot.sound |
| Cafebabe.C06_inputs | propext, Classical.choice, Quot.sound |
| Cafebabe.C06_panic_causes | propext, Classical.choice, Quot.sound |
| Cafebabe.C06_release | propext, Classical.choice, Quot.sound |
| Cafebabe.C06_release_decodable | propext, Classical.choice, Quot.sound |
| Cafebabe.C06_witnesses | propext, Classical.choice, Quot.sound |
| Cafebabe.C07_modes_agree | propext, Classical.choice, Quot.sound |
| Cafebabe.C07_differ | propext, Classical.choice, Quot.sound |
| Cafebabe.C08_slots | propext, Classical.choice, Quot.sound |
| Cafebabe.C08_overflow_shape | propext, Quot.sound |
| Cafebabe.C08_debug_panics | propext, Classical.choice, Quot.sound |
| Cafebabe.C08_release_reads_on | propext, Classical.choice, Quot.sound |
| Cafebabe.C08_witness | propext, Classical.choice, Quot.sound |
| Cafebabe.C09_well_typed | propext, Classical.choice, Quot.sound |
| Cafebabe.C09_resolved | propext, Classical.choice, Quot.sound |
| Cafebabe.C10_short_paths | propext, Classical.choice, Quot.sound |
| Cafebabe.C10_acyclic | propext, Classical.choice, Quot.sound |
| Cafebabe.C11_version_gate | propext, Classical.choice, Quot.sound |
| Cafebabe.C11_versions | propext, Classical.choice, Quot.sound |
| Cafebabe.C11_bad_tag | propext, Classical.choice, Quot.sound |
| Cafebabe.C12_handles | propext, Classical.choice, Quot.sound |
| Cafebabe.C12_kind_byte | propext, Quot.sound |
| Cafebabe.C13_names | propext, Classical.choice, Quot.sound |
| Cafebabe.C13_never_rejected | propext, Classical.choice, Quot.sound |
| Cafebabe.C13_reader | propext, Classical.choice, Quot.sound |
| Cafebabe.C14_nth | propext, Classical.choice, Quot.sound |
| Cafebabe.C14_item_unique | propext, Quot.sound |
| Cafebabe.C14_slots | propext, Classical.choice, Quot.sound |
| Cafebabe.C15_panics_iff | propext, Classical.choice, Quot.sound |
| Cafebabe.C15_total | propext, Classical.choice, Quot.sound |
| Cafebabe.C15_decodable | propext, Classical.choice, Quot.sound |
| Cafebabe.C15_witness | propext, Classical.choice, Quot.sound |
| Cafebabe.C16_names | propext, Classical.choice, Quot.sound |
| Cafebabe.C16_layout | propext, Classical.choice, Quot.sound |
| Cafebabe.C17_decides | propext, Classical.choice, Quot.sound |
| Cafebabe.C17_accepts_names | propext, Classical.choice, Quot.sound |
| Cafebabe.C17_false | propext, Classical.choice, Quot.sound |
| Cafebabe.C18_fields | propext, Classical.choice, Quot.sound |
| Cafebabe.C18_duplicate_rejected | propext, Classical.choice, Quot.sound |
| Cafebabe.C19_methods | propext, Classical.choice, Quot.sound |
| Cafebabe.C19_duplicate_rejected | propext, Classical.choice, Quot.sound |
| Cafebabe.C20_module | propext, Classical.choice, Quot.sound |
| Cafebabe.C20_old_version_rejected | propext, Classical.choice, Quot.sound |
| Cafebabe.C20_other_flag_rejected | propext, Classical.choice, Quot.sound |
| Cafebabe.C21_constants | propext, Classical.choice, Quot.sound |
| Cafebabe.C21_instructions | propext, Classical.choice, Quot.sound |
| Cafebabe.C22_exact_length | propext, Classical.choice, Quot.sound |
| Cafebabe.C22_inside_code | propext, Classical.choice, Quot.sound |
| Cafebabe.C22_inside_record | propext, Classical.choice, Quot.sound |
| Cafebabe.C22_wrong_length_refused | propext, Classical.choice, Quot.sound |
| Cafebabe.C22_past_end_refused | propext, Classical.choice, Quot.sound |
| Cafebabe.C23_verbatim | propext, Classical.choice, Quot.sound |
| Cafebabe.C23_only_unknown | propext, Classical.choice, Quot.sound |
| Cafebabe.C23_content_irrelevant | propext, Classical.choice, Quot.sound |
| Cafebabe.C24_decoded | propext, Classical.choice, Quot.sound |
| Cafebabe.C24_accepted | propext, Classical.choice, Quot.sound |
| Cafebabe.C24_refused | propext, Classical.choice, Quot.sound |
| Cafebabe.C24_bad_index_refused | propext, Classical.choice, Quot.sound |
| Cafebabe.C25_decoded | propext, Classical.choice, Quot.sound |
| Cafebabe.C25_frame_exact | propext, Classical.choice, Quot.sound |
| Cafebabe.C25_reserved_refused | propext, Classical.choice, Quot.sound |
| Cafebabe.C25_unknown_tag_refused | propext, Classical.choice, Quot.sound |
| Cafebabe.C26_annotations | propext, Classical.choice, Quot.sound |
| Cafebabe.C26_parameter_annotations | propext, Classical.choice, Quot.sound |
| Cafebabe.C26_type_annotations | propext, Classical.choice, Quot.sound |
| Cafebabe.C26_default | propext, Classical.choice, Quot.sound |
| Cafebabe.C26_value_exact | propext, Classical.choice, Quot.sound |
| Cafebabe.C26_unknown_tag_refused | propext, Classical.choice, Quot.sound |
| Cafebabe.C26_unknown_target_refused | propext, Classical.choice, Quot.sound |
| Cafebabe.C26_unknown_path_kind_refused | propext, Classical.choice, Quot.sound |
| Cafebabe.C27_lower_bound | propext, Classical.choice, Quot.sound |
| Cafebabe.C27_too_small | propext, Classical.choice, Quot.sound |
| Cafebabe.C27_upper_bound | propext, Classical.choice, Quot.sound |
| Cafebabe.C27_accepted | propext, Classical.choice, Quot.sound |
| Cafebabe.C27_unbounded | propext, Classical.choice, Quot.sound |
| Cafebabe.C28_partition | propext, Classical.choice, Quot.sound |
| Cafebabe.C28_offsets | propext, Classical.choice, Quot.sound |
| Cafebabe.C29_sorted | propext, Classical.choice, Quot.sound |
| Cafebabe.C29_index | propext, Classical.choice, Quot.sound |
| Cafebabe.C29_returns | propext, Classical.choice, Quot.sound |
| Cafebabe.C30_targets | propext, Classical.choice, Quot.sound |
| Cafebabe.C30_refused | propext, Classical.choice, Quot.sound |
| Cafebabe.C31_instruction | propext, Classical.choice, Quot.sound |
| Cafebabe.C31_unambiguous | propext, Classical.choice, Quot.sound |
| Cafebabe.C31_decoded | propext, Classical.choice, Quot.sound |
| Cafebabe.C31_accepted | propext, Classical.choice, Quot.sound |
| Cafebabe.C31_refused | propext, Classical.choice, Quot.sound |
| Cafebabe.C31_unassigned_refused | propext, Classical.choice, Quot.sound |
| Cafebabe.C32_jumps | propext, Classical.choice, Quot.sound |
| Cafebabe.C32_checked | propext, Classical.choice, Quot.sound |
| Cafebabe.C32_false_in_release | propext, Classical.choice, Quot.sound |
| Cafebabe.C32_panics_in_debug | propext, Classical.choice, Quot.sound |
| Cafebabe.C33_option | propext, Classical.choice, Quot.sound |
| Cafebabe.C33_only_code | propext, Classical.choice, Quot.sound |
| Cafebabe.C33_default | propext, Classical.choice, Quot.sound |
| Cafebabe.C34_display_parses | propext, Classical.choice, Quot.sound |
| Cafebabe.C34_display_prefix | propext, Classical.choice, Quot.sound |
| Cafebabe.C34_accepted | propext, Classical.choice, Quot.sound |
| Cafebabe.C34_checked | propext, Classical.choice, Quot.sound |
| Cafebabe.C34_false | propext, Classical.choice, Quot.sound |
| Cafebabe.C34_false_in_file | propext, Classical.choice, Quot.sound |
| Cafebabe.C35_decides | propext, Classical.choice, Quot.sound |
| Cafebabe.C36_never_panics | propext, Classical.choice, Quot.sound |
| Cafebabe.C36_never_panics_inside | propext, Classical.choice, Quot.sound |
| Cafebabe.C36_dimensions | propext, Classical.choice, Quot.sound |
| Cafebabe.C36_too_many | propext, Classical.choice, Quot.sound |
| Cafebabe.C37_decides | propext, Classical.choice, Quot.sound |
| Cafebabe.C38_slots | propext, Classical.choice, Quot.sound |
| Cafebabe.C38_constants | propext, Classical.choice, Quot.sound |
| Cafebabe.C38_values | propext, Classical.choice, Quot.sound |
| Cafebabe.C38_operands | propext, Classical.choice, Quot.sound |
| Cafebabe.C38_branches | propext, Classical.choice, Quot.sound |
| Cafebabe.C38_tableswitch | propext, Classical.choice, Quot.sound |
| Cafebabe.C38_lookupswitch | propext, Classical.choice, Quot.sound |
| Cafebabe.C39_shown | propext, Classical.choice, Quot.sound |
| Cafebabe.C39_utf8 | propext, Classical.choice, Quot.sound |
| Cafebabe.C39_string | propext, Classical.choice, Quot.sound |
| Cafebabe.C39_source_debug | propext, Classical.choice, Quot.sound |
| Cafebabe.C40_class | propext, Classical.choice, Quot.sound |
| Cafebabe.C40_fields | propext, Classical.choice, Quot.sound |
| Cafebabe.C40_methods | propext, Classical.choice, Quot.sound |
| Cafebabe.C40_inner_classes | propext, Classical.choice, Quot.sound |
| Cafebabe.C40_method_parameters | propext, Classical.choice, Quot.sound |
| Cafebabe.C40_module | propext, Classical.choice, Quot.sound |
| Cafebabe.C40_parameter_flag_refused | propext, Classical.choice, Quot.sound |
| Cafebabe.C40_module_flag_refused | propext, Classical.choice, Quot.sound |
| Cafebabe.C40_requires_flag_refused | propext, Classical.choice, Quot.sound |
| Cafebabe.C40_exports_flag_refused | propext, Classical.choice, Quot.sound |
| Cafebabe.C40_opens_flag_refused | propext, Classical.choice, Quot.sound |
| Cafebabe.C41_no_relock | propext, Classical.choice, Quot.sound |
| Cafebabe.C41_no_deadlock | propext, Classical.choice, Quot.sound |
| Cafebabe.C41_bounded | propext, Classical.choice, Quot.sound |
| Cafebabe.C41_finishes | propext, Classical.choice, Quot.sound |
| Cafebabe.C41_answers | propext, Classical.choice, Quot.sound |
| Cafebabe.C41_panics | propext, Classical.choice, Quot.sound |
| Cafebabe.C41_clean | propext, Classical.choice, Quot.sound |
| Cafebabe.C41_iteration | propext, Classical.choice, Quot.sound |
| Cafebabe.C41_contention | propext, Classical.choice, Quot.sound |
| Cafebabe.C42_display | propext, Classical.choice, Quot.sound |
| Cafebabe.C42_wrap | propext, Classical.choice, Quot.sound |
| Cafebabe.C42_wraps | propext |
| Cafebabe.C42_reader | propext, Quot.sound |
| Cafebabe.C43_decoded | propext, Classical.choice, Quot.sound |
| Cafebabe.C43_accepted | propext, Classical.choice, Quot.sound |
| Cafebabe.C43_refused | propext, Classical.choice, Quot.sound |
| Cafebabe.C43_code_too_long_refused | propext, Classical.choice, Quot.sound |
| Cafebabe.C44_requests | propext, Classical.choice, Quot.sound |
| Cafebabe.C44_bound | propext, Classical.choice, Quot.sound |
| Cafebabe.C44_valid | propext, Classical.choice, Quot.sound |
| Cafebabe.C44_proportional | propext, Quot.sound |
| Cafebabe.C44_accepted | propext, Classical.choice, Quot.sound |
| Cafebabe.C44_tableswitch | propext, Classical.choice, Quot.sound |
| Cafebabe.C44_lookupswitch | propext, Classical.choice, Quot.sound |
| Cafebabe.C44_refused | propext, Classical.choice, Quot.sound |
| Cafebabe.C45_moved | propext, Classical.choice, Quot.sound |
| Cafebabe.C45_instruction | propext, Quot.sound |
| Cafebabe.C45_embedded | propext, Classical.choice, Quot.sound |
| Cafebabe.C45_bytecode | propext, Classical.choice, Quot.sound |
| Cafebabe.C45_field_order | propext, Classical.choice, Quot.sound |
| Cafebabe.C45_method_order | propext, Classical.choice, Quot.sound |
| Cafebabe.C45_attribute_order | propext, Classical.choice, Quot.sound |
| Cafebabe.C46_small_reads | propext, Quot.sound |
| Cafebabe.C46_cases | propext, Classical.choice, Quot.sound |
| Cafebabe.C46_same | propext, Classical.choice, Quot.sound |
| Cafebabe.C46_64_bit | propext, Classical.choice, Quot.sound |
| Cafebabe.C46_accepts | propext, Classical.choice, Quot.sound |
| Cafebabe.C46_panics | propext, Classical.choice, Quot.sound |
| Cafebabe.C46_after_every_class | propext, Classical.choice, Quot.sound |
| Cafebabe.C46_witness | propext, Classical.choice, Quot.sound |
| Cafebabe.C46_capacity | propext, Classical.choice, Quot.sound |
| Cafebabe.C47_lookups | propext, Quot.sound |
| Cafebabe.C47_parts | propext, Quot.sound |
| Cafebabe.C47_next | propext, Quot.sound |
| Cafebabe.C47_validation | propext, Classical.choice, Quot.sound |
| Cafebabe.C47_deadlock_iff | propext, Classical.choice, Quot.sound |
| Cafebabe.C47_format | propext, Classical.choice, Quot.sound |
| Cafebabe.C47_format_unique | propext, Quot.sound |
| Cafebabe.C47_hanging_inputs | propext, Classical.choice, Quot.sound |
| Cafebabe.C48_removal | propext, Classical.choice, Quot.sound |
| Cafebabe.C48_unknown_attributes | propext, Classical.choice, Quot.sound |
| Cafebabe.C48_insertion | propext, Classical.choice, Quot.sound |
| Cafebabe.C48_insert_unknown | propext, Classical.choice, Quot.sound |
| Cafebabe.C49_contexts_differ | propext, Classical.choice, Quot.sound |
| Cafebabe.C49_every_error | propext, Classical.choice, Quot.sound |
| Cafebabe.C49_place_iff | propext, Classical.choice, Quot.sound |
| Cafebabe.C49_one_place | propext, Classical.choice, Quot.sound |
| Cafebabe.C49_text | propext, Classical.choice, Quot.sound |
| Cafebabe.C49_field | propext, Classical.choice, Quot.sound |
| Cafebabe.C49_witnesses | propext, Classical.choice, Quot.sound |
| Cafebabe.C50_renumbered | propext, Classical.choice, Quot.sound |
| Cafebabe.C50_appended | propext, Classical.choice, Quot.sound |
| Cafebabe.C51_size | propext, Classical.choice, Quot.sound |
| Cafebabe.C51_parameters | propext, Classical.choice, Quot.sound |
| Cafebabe.C51_amplified | propext, Classical.choice, Quot.sound |
| Cafebabe.C52_version | propext, Classical.choice, Quot.sound |
| Cafebabe.C52_later | propext, Classical.choice, Quot.sound |
| Cafebabe.C53_tuned | propext, Classical.choice, Quot.sound |
| Cafebabe.C53_zero | propext, Classical.choice, Quot.sound |
| Cafebabe.C54_truncated | propext, Classical.choice, Quot.sound |
| Cafebabe.C54_extra | propext, Classical.choice, Quot.sound |
| Cafebabe.C54_final | propext, Classical.choice, Quot.sound |
| Cafebabe.C54_hopeless | propext, Classical.choice, Quot.sound |
| Cafebabe.C54_panics | propext, Classical.choice, Quot.sound |
| Cafebabe.C54_hangs | propext, Classical.choice, Quot.sound |
| Cafebabe.C55_trail | propext, Classical.choice, Quot.sound |
| Cafebabe.C55_names_differ | propext, Classical.choice, Quot.sound |
| Cafebabe.C55_number | propext, Classical.choice, Quot.sound |
| Cafebabe.C55_name | propext, Classical.choice, Quot.sound |
| Cafebabe.C55_inside_code | propext, Classical.choice, Quot.sound |
| Cafebabe.C55_bytecode | propext, Classical.choice, Quot.sound |
| Cafebabe.C55_inside_record | propext, Classical.choice, Quot.sound |
| Cafebabe.C55_length | propext, Classical.choice, Quot.sound |
| Cafebabe.C55_witnesses | propext, Classical.choice, Quot.sound |
| Cafebabe.C56_targets | propext, Classical.choice, Quot.sound |
| Cafebabe.C56_code | propext, Classical.choice, Quot.sound |
| Cafebabe.C56_invoke | propext, Classical.choice, Quot.sound |
| Cafebabe.C56_frames | propext, Classical.choice, Quot.sound |
| Cafebabe.C56_targets_witness | propext, Classical.choice, Quot.sound |
| Cafebabe.C56_frames_witness | propext, Classical.choice, Quot.sound |
| Cafebabe.C56_invoke_witness | propext, Classical.choice, Quot.sound |
| Cafebabe.C57_read | propext, Classical.choice, Quot.sound |
| Cafebabe.C57_same_bytes | propext, Classical.choice, Quot.sound |
| Cafebabe.C57_copied | propext, Classical.choice, Quot.sound |
| Cafebabe.C57_known_everywhere | propext, Classical.choice, Quot.sound |
| Cafebabe.C57_unknown_everywhere | propext, Classical.choice, Quot.sound |
| Cafebabe.C57_witnesses | propext, Classical.choice, Quot.sound |
| Cafebabe.C58_text | propext, Classical.choice, Quot.sound |
| Cafebabe.C58_spellings | propext, Classical.choice, Quot.sound |
| Cafebabe.C58_two_spellings | propext, Classical.choice, Quot.sound |
| Cafebabe.C58_string | propext, Classical.choice, Quot.sound |
| Cafebabe.C58_shown | propext, Classical.choice, Quot.sound |
| Cafebabe.C58_size | propext, Classical.choice, Quot.sound |
| Cafebabe.C58_class_name | propext, Classical.choice, Quot.sound |
| Cafebabe.C58_witnesses | propext |
| Cafebabe.C59_shown | propext, Classical.choice, Quot.sound |
| Cafebabe.C59_reference | propext, Classical.choice, Quot.sound |
| Cafebabe.C59_types | propext, Classical.choice, Quot.sound |
| Cafebabe.C59_utf8 | propext, Classical.choice, Quot.sound |
| Cafebabe.C59_modules | propext, Classical.choice, Quot.sound |
| Cafebabe.C59_checked | propext, Classical.choice, Quot.sound |
| Cafebabe.C59_unchecked | propext, Classical.choice, Quot.sound |
| Cafebabe.C60_same_constant | propext, Quot.sound |
| Cafebabe.C60_constant | propext, Classical.choice, Quot.sound |
| Cafebabe.C60_java | propext, Classical.choice, Quot.sound |
| Cafebabe.C60_same_descriptor | propext |
| Cafebabe.C60_borrowed | propext, Quot.sound |
| Cafebabe.C60_copied | propext, Quot.sound |
| Cafebabe.C60_shown | propext, Classical.choice, Quot.sound |
| Cafebabe.C60_copies | propext, Classical.choice, Quot.sound |
| Cafebabe.C60_amplification | propext, Classical.choice, Quot.sound |
| Cafebabe.C61_same_text | propext, Classical.choice, Quot.sound |
| Cafebabe.C61_same_pool | propext, Classical.choice, Quot.sound |
| Cafebabe.C61_text | propext, Classical.choice, Quot.sound |
| Cafebabe.C61_prefix | propext, Classical.choice, Quot.sound |
| Cafebabe.C61_pool | propext, Classical.choice, Quot.sound |
| Cafebabe.C61_accepted | propext, Classical.choice, Quot.sound |
| Cafebabe.C61_file | propext, Classical.choice, Quot.sound |
| Cafebabe.C61_quadratic | propext, Classical.choice, Quot.sound |
| Cafebabe.C61_worst | propext, Classical.choice, Quot.sound |
| Cafebabe.C62_same | propext, Classical.choice, Quot.sound |
| Cafebabe.C62_bound | propext, Classical.choice, Quot.sound |
| Cafebabe.C62_accepted | propext, Classical.choice, Quot.sound |
| Cafebabe.C62_includes | propext, Classical.choice, Quot.sound |
| Cafebabe.C62_product | propext, Classical.choice, Quot.sound |
| Cafebabe.C62_quadratic | propext, Classical.choice, Quot.sound |
| Cafebabe.C62_dynamic | propext, Classical.choice, Quot.sound |
| Cafebabe.C62_worst | propext, Classical.choice, Quot.sound |
| Cafebabe.C62_square | propext, Classical.choice, Quot.sound |
| Cafebabe.C62_lookup | propext, Classical.choice, Quot.sound |
| Cafebabe.C63_same | propext |
| Cafebabe.C63_drop | propext, Classical.choice, Quot.sound |
| Cafebabe.C63_leak_iff | propext, Classical.choice, Quot.sound |
| Cafebabe.C63_unread | propext, Classical.choice, Quot.sound |
| Cafebabe.C63_valid_pool | propext, Classical.choice, Quot.sound |
| Cafebabe.C63_accepted | propext, Classical.choice, Quot.sound |
| Cafebabe.C63_no_leak | propext, Classical.choice, Quot.sound |
| Cafebabe.C63_cycle | propext, Classical.choice, Quot.sound |
| Cafebabe.C63_deep | propext, Classical.choice, Quot.sound |
| Cafebabe.C63_witness | propext, Classical.choice, Quot.sound |
| Cafebabe.C64_order | propext, Quot.sound |
| Cafebabe.C64_equality | propext, Classical.choice, Quot.sound |
| Cafebabe.C64_hash | propext, Classical.choice, Quot.sound |
| Cafebabe.C64_held | propext, Classical.choice, Quot.sound |
| Cafebabe.C64_in_file | propext, Classical.choice, Quot.sound |
| Cafebabe.C64_reference_kinds | none |
| Cafebabe.C64_array_types | none |
| Cafebabe.C64_errors | propext, Classical.choice, Quot.sound |
| Cafebabe.C64_needs_check | propext, Classical.choice, Quot.sound |
| Cafebabe.C64_built_by_hand | propext, Classical.choice, Quot.sound |
| Cafebabe.C65_replaced | propext, Classical.choice, Quot.sound |
| Cafebabe.C65_length | propext, Classical.choice, Quot.sound |
| Cafebabe.C65_any_length | propext, Classical.choice, Quot.sound |
| Cafebabe.C65_unchecked | propext, Classical.choice, Quot.sound |
| Cafebabe.C66_assembled | propext, Classical.choice, Quot.sound |
| Cafebabe.C66_order | propext, Classical.choice, Quot.sound |
| Cafebabe.C66_merged | propext, Classical.choice, Quot.sound |
| Cafebabe.C66_flags | propext, Classical.choice, Quot.sound |
| Cafebabe.C66_unchecked | propext, Classical.choice, Quot.sound |
| Cafebabe.C67_bounded | propext, Classical.choice, Quot.sound |
| Cafebabe.C67_amplified | propext, Classical.choice, Quot.sound |
| Cafebabe.C67_tight | propext, Classical.choice, Quot.sound |
| Cafebabe.C68_first_fault | propext, Classical.choice, Quot.sound |
| Cafebabe.C68_instruction | propext, Classical.choice, Quot.sound |
| Cafebabe.C68_jump | propext, Classical.choice, Quot.sound |
| Cafebabe.C68_opcode | propext, Classical.choice, Quot.sound |
| Cafebabe.C68_witnesses | propext, Classical.choice, Quot.sound |
| Cafebabe.C68_no_place | propext, Classical.choice, Quot.sound |
| Cafebabe.C69_layouts | propext, Classical.choice, Quot.sound |
| Cafebabe.C69_all_covered | propext, Classical.choice, Quot.sound |
| Cafebabe.C69_fault | propext, Quot.sound |
| Cafebabe.C69_faulty | propext, Quot.sound |
| Cafebabe.C69_unambiguous | propext, Quot.sound |
| Cafebabe.C69_table | propext, Classical.choice, Quot.sound |
| Cafebabe.C69_content | propext, Classical.choice, Quot.sound |
| Cafebabe.C69_in_code | propext, Classical.choice, Quot.sound |
| Cafebabe.C69_rows | propext, Quot.sound |
| Cafebabe.C69_row_number | propext, Classical.choice, Quot.sound |
| Cafebabe.C69_exception | propext, Classical.choice, Quot.sound |
| Cafebabe.C69_witnesses | propext, Classical.choice, Quot.sound |
| Cafebabe.C69_readable | propext, Classical.choice, Quot.sound |
| Cafebabe.C69_words | propext, Classical.choice, Quot.sound |
| Cafebabe.C70_class_name | propext, Classical.choice, Quot.sound |
| Cafebabe.C70_field_descriptor | propext, Classical.choice, Quot.sound |
| Cafebabe.C70_method_descriptor | propext, Classical.choice, Quot.sound |
| Cafebabe.C70_one | propext, Classical.choice, Quot.sound |
| Cafebabe.C70_prefix | propext, Quot.sound |
| Cafebabe.C70_prefix_exceptions | propext, Classical.choice, Quot.sound |
| Cafebabe.C71_iff | propext, Classical.choice, Quot.sound |
| Cafebabe.C71_rejected | propext, Classical.choice, Quot.sound |
| Cafebabe.C71_every_error | propext, Classical.choice, Quot.sound |
| Cafebabe.C71_one | propext, Classical.choice, Quot.sound |
| Cafebabe.C71_silent | propext, Classical.choice, Quot.sound |
| Cafebabe.C71_header_cases | propext, Classical.choice, Quot.sound |
| Cafebabe.C71_pool_cases | propext, Classical.choice, Quot.sound |
| Cafebabe.C71_class_cases | propext, Classical.choice, Quot.sound |
| Cafebabe.C71_member_cases | propext, Classical.choice, Quot.sound |
| Cafebabe.C71_end_cases | propext, Classical.choice, Quot.sound |
| Cafebabe.C71_unnamed_field | propext, Classical.choice, Quot.sound |
| Cafebabe.C72_iff | propext, Classical.choice, Quot.sound |
| Cafebabe.C72_one | propext, Classical.choice, Quot.sound |
| Cafebabe.C72_extends | propext, Classical.choice, Quot.sound |
| Cafebabe.C72_outcomes | propext, Classical.choice, Quot.sound |
| Cafebabe.C72_attribute_cases | propext, Classical.choice, Quot.sound |
| Cafebabe.C72_code_cases | propext, Classical.choice, Quot.sound |
| Cafebabe.C72_record_cases | propext, Classical.choice, Quot.sound |
| Cafebabe.C72_silent | propext, Classical.choice, Quot.sound |
| Cafebabe.C73_linear | propext, Classical.choice, Quot.sound |
| Cafebabe.C73_java | propext, Classical.choice, Quot.sound |
| Cafebabe.C73_nested | propext, Classical.choice, Quot.sound |
| Cafebabe.C73_long | propext, Classical.choice, Quot.sound |
| Cafebabe.C73_contexts | propext, Classical.choice, Quot.sound |
| Cafebabe.C73_case | propext, Classical.choice, Quot.sound |
| Cafebabe.C74_exact | propext, Classical.choice, Quot.sound |
| Cafebabe.C74_held | propext, Classical.choice, Quot.sound |
| Cafebabe.C74_held_cases | propext, Classical.choice, Quot.sound |
| Cafebabe.C74_same | propext, Classical.choice, Quot.sound |
| Cafebabe.C74_accepted | propext, Classical.choice, Quot.sound |
| Cafebabe.C74_bound | propext, Classical.choice, Quot.sound |
| Cafebabe.C74_refused | propext, Classical.choice, Quot.sound |
| Cafebabe.C74_nested | propext, Classical.choice, Quot.sound |
| Cafebabe.C74_rate | propext, Classical.choice, Quot.sound |
| Cafebabe.C74_switch | propext, Classical.choice, Quot.sound |
| Cafebabe.C74_cases | propext, Classical.choice, Quot.sound |
| Cafebabe.C75_slots | propext, Classical.choice, Quot.sound |
| Cafebabe.C75_same_constants | propext, Classical.choice, Quot.sound |
| Cafebabe.C75_renamed | propext, Classical.choice, Quot.sound |
| Cafebabe.C75_witness | propext, Classical.choice, Quot.sound |
| Cafebabe.C75_attribute_names | propext, Classical.choice, Quot.sound |
| Cafebabe.C76_same_class | propext, Classical.choice, Quot.sound |
| Cafebabe.C76_count | propext, Classical.choice, Quot.sound |
| Cafebabe.C76_count_witness | propext, Classical.choice, Quot.sound |
| Cafebabe.C76_witness | propext, Classical.choice, Quot.sound |
| Cafebabe.C77_nth | propext, Classical.choice, Quot.sound |
| Cafebabe.C77_same | propext, Quot.sound |
| Cafebabe.C77_survives | propext, Classical.choice, Quot.sound |
| Cafebabe.C77_threads | propext, Classical.choice, Quot.sound |
| Cafebabe.C77_again | propext, Classical.choice, Quot.sound |
| Cafebabe.C77_case | propext, Classical.choice, Quot.sound |
| Cafebabe.C77_poisoned | propext, Classical.choice, Quot.sound |
| Cafebabe.C78_ends | propext, Classical.choice, Quot.sound |
| Cafebabe.C78_determined | propext, Quot.sound |
| Cafebabe.C78_parsed | propext, Classical.choice, Quot.sound |
| Cafebabe.C78_depth | propext, Classical.choice, Quot.sound |
| Cafebabe.C78_number | propext, Classical.choice, Quot.sound |
| Cafebabe.C78_unbounded | propext, Classical.choice, Quot.sound |
| Cafebabe.C78_case | propext, Classical.choice, Quot.sound |
