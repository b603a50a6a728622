# Axioms

Output of `#print axioms` for every theorem of the manifest.

| property | theorem | axioms |
|---|---|---|
| C01 | `Nxas.C01_buffer` | propext, Classical.choice, Quot.sound |
| C01 | `Nxas.C01_decoded` | propext, Classical.choice, Quot.sound |
| C02 | `Nxas.C02_no_overread` | propext, Classical.choice, Quot.sound |
| C02 | `Nxas.C05_causes` | propext, Classical.choice, Quot.sound |
| C03 | `Nxas.C03_terminates` | propext, Classical.choice, Quot.sound |
| C03 | `Nxas.C03_tokenizer` | propext, Quot.sound |
| C03 | `Nxas.C03_progress` | propext, Classical.choice, Quot.sound |
| C03 | `Nxas.C03_labels` | propext, Classical.choice, Quot.sound |
| C04 | `Nxas.C04_label_pass` | propext, Classical.choice, Quot.sound |
| C04 | `Nxas.C04_assemble` | propext, Classical.choice, Quot.sound |
| C05 | `Nxas.C05_violated` | propext, Quot.sound |
| C05 | `Nxas.C05_causes` | propext, Classical.choice, Quot.sound |
| C05 | `Nxas.C05_defined_partial` | propext, Classical.choice, Quot.sound |
| C05 | `Nxas.C05_exact` | propext, Classical.choice, Quot.sound |
| C06 | `Nxas.C06_length` | propext, Classical.choice, Quot.sound |
| C06 | `Nxas.C06_count` | propext, Quot.sound |
| C06 | `Nxas.C06_at_most` | propext, Classical.choice, Quot.sound |
| C06 | `Nxas.C06_violated_release` | propext, Quot.sound |
| C07 | `Nxas.C07_word` | propext, Quot.sound |
| C08 | `Nxas.C08_control` | propext, Classical.choice, Quot.sound |
| C09 | `Nxas.C09_padding` | propext, Quot.sound |
| C09 | `Nxas.C09_groups` | propext, Classical.choice, Quot.sound |
| C10 | `Nxas.C10_empty` | propext, Classical.choice, Quot.sound |
| C100 | `Nxas.C100_reserved` | propext, Classical.choice, Quot.sound |
| C100 | `Nxas.C100_words` | propext, Classical.choice, Quot.sound |
| C100 | `Nxas.C100_raw` | propext, Classical.choice, Quot.sound |
| C100 | `Nxas.C100_bytes` | propext, Classical.choice, Quot.sound |
| C100 | `Nxas.C100_fields` | propext, Classical.choice, Quot.sound |
| C100 | `Nxas.C100_larger` | propext, Classical.choice, Quot.sound |
| C101 | `Nxas.C101_entry_partial` | propext, Classical.choice, Quot.sound |
| C101 | `Nxas.C101_branch_partial` | propext, Classical.choice, Quot.sound |
| C101 | `Nxas.C101_entry_violated` | propext, Classical.choice, Quot.sound |
| C101 | `Nxas.C101_not_claim` | propext, Classical.choice, Quot.sound |
| C101 | `Nxas.C101_branch_violated` | propext, Quot.sound |
| C102 | `Nxas.C102_splits` | propext, Classical.choice, Quot.sound |
| C102 | `Nxas.C102_debug` | propext, Classical.choice, Quot.sound |
| C102 | `Nxas.C102_everywhere` | propext, Classical.choice, Quot.sound |
| C102 | `Nxas.C102_layout` | propext, Classical.choice, Quot.sound |
| C102 | `Nxas.C102_insert` | propext, Classical.choice, Quot.sound |
| C102 | `Nxas.C102_append` | propext, Classical.choice, Quot.sound |
| C102 | `Nxas.C102_link` | propext, Classical.choice, Quot.sound |
| C102 | `Nxas.C102_before` | propext, Classical.choice, Quot.sound |
| C102 | `Nxas.C102_behind` | propext, Classical.choice, Quot.sound |
| C103 | `Nxas.C103_images` | propext, Classical.choice, Quot.sound |
| C103 | `Nxas.C103_builds` | propext, Classical.choice, Quot.sound |
| C103 | `Nxas.C103_decide` | propext, Classical.choice, Quot.sound |
| C103 | `Nxas.C103_case` | propext, Classical.choice, Quot.sound |
| C104 | `Nxas.C104_entry` | propext, Classical.choice, Quot.sound |
| C104 | `Nxas.C104_groups` | propext, Classical.choice, Quot.sound |
| C104 | `Nxas.C104_images` | propext, Classical.choice, Quot.sound |
| C104 | `Nxas.C104_builds` | propext, Classical.choice, Quot.sound |
| C104 | `Nxas.C104_decide` | propext, Classical.choice, Quot.sound |
| C104 | `Nxas.C104_differ` | propext, Classical.choice, Quot.sound |
| C104 | `Nxas.C104_end` | propext, Quot.sound |
| C105 | `Nxas.C105_append` | propext, Classical.choice, Quot.sound |
| C105 | `Nxas.C105_groups` | propext, Classical.choice, Quot.sound |
| C105 | `Nxas.C105_instructions` | propext, Classical.choice, Quot.sound |
| C105 | `Nxas.C105_select` | propext, Classical.choice, Quot.sound |
| C105 | `Nxas.C105_case` | propext, Classical.choice, Quot.sound |
| C106 | `Nxas.C106_containers` | propext, Classical.choice, Quot.sound |
| C106 | `Nxas.C106_code` | propext, Classical.choice, Quot.sound |
| C106 | `Nxas.C106_exchange` | propext, Classical.choice, Quot.sound |
| C106 | `Nxas.C106_case` | propext, Classical.choice, Quot.sound |
| C107 | `Nxas.C107_schedule` | propext, Classical.choice, Quot.sound |
| C107 | `Nxas.C107_reuse` | propext, Classical.choice, Quot.sound |
| C107 | `Nxas.C107_guard` | propext, Classical.choice, Quot.sound |
| C107 | `Nxas.C107_guards` | propext, Classical.choice, Quot.sound |
| C107 | `Nxas.C107_case` | propext, Classical.choice, Quot.sound |
| C108 | `Nxas.C108_rename` | propext, Classical.choice, Quot.sound |
| C108 | `Nxas.C108_accepted` | propext, Classical.choice, Quot.sound |
| C108 | `Nxas.C108_debug` | propext, Classical.choice, Quot.sound |
| C108 | `Nxas.C108_case` | propext, Classical.choice, Quot.sound |
| C108 | `Nxas.C108_violated` | propext, Quot.sound |
| C108 | `Nxas.C108_asserts` | propext, Quot.sound |
| C109 | `Nxas.C109_rename` | propext, Classical.choice, Quot.sound |
| C109 | `Nxas.C109_accepted` | propext, Classical.choice, Quot.sound |
| C109 | `Nxas.C109_debug` | propext, Classical.choice, Quot.sound |
| C109 | `Nxas.C109_case` | propext, Classical.choice, Quot.sound |
| C11 | `Nxas.C11_parts` | propext, Classical.choice, Quot.sound |
| C11 | `Nxas.C11_position` | propext, Classical.choice, Quot.sound |
| C11 | `Nxas.C11_groups` | propext, Classical.choice, Quot.sound |
| C110 | `Nxas.C110_function` | propext, Classical.choice, Quot.sound |
| C110 | `Nxas.C110_order` | propext, Classical.choice, Quot.sound |
| C110 | `Nxas.C110_debug` | propext, Classical.choice, Quot.sound |
| C110 | `Nxas.C110_case` | propext, Classical.choice, Quot.sound |
| C110 | `Nxas.C110_branch` | propext, Quot.sound |
| C111 | `Nxas.C111_listed` | propext, Classical.choice, Quot.sound |
| C111 | `Nxas.C111_options` | propext, Classical.choice, Quot.sound |
| C111 | `Nxas.C111_debug` | propext, Classical.choice, Quot.sound |
| C111 | `Nxas.C111_case` | propext, Classical.choice, Quot.sound |
| C111 | `Nxas.C111_last` | propext, Quot.sound |
| C111 | `Nxas.C111_lines` | propext, Quot.sound |
| C112 | `Nxas.C112_words` | propext, Classical.choice, Quot.sound |
| C112 | `Nxas.C112_cut` | propext, Classical.choice, Quot.sound |
| C112 | `Nxas.C112_sharp` | propext, Quot.sound |
| C113 | `Nxas.C113_spelled` | propext, Classical.choice, Quot.sound |
| C113 | `Nxas.C113_debug` | propext, Classical.choice, Quot.sound |
| C113 | `Nxas.C113_symm` | propext |
| C113 | `Nxas.C113_iff` | propext, Classical.choice, Quot.sound |
| C113 | `Nxas.C113_needed` | propext, Quot.sound |
| C114 | `Nxas.C114_raw` | propext, Classical.choice, Quot.sound |
| C114 | `Nxas.C114_container` | propext, Classical.choice, Quot.sound |
| C12 | `Nxas.C12_literal` | propext, Classical.choice, Quot.sound |
| C12 | `Nxas.C12_written` | propext, Classical.choice, Quot.sound |
| C12 | `Nxas.C12_decimal` | propext, Classical.choice, Quot.sound |
| C12 | `Nxas.C12_hexadecimal` | propext, Classical.choice, Quot.sound |
| C12 | `Nxas.C12_octal` | propext, Classical.choice, Quot.sound |
| C13 | `Nxas.C13_partial` | propext, Classical.choice, Quot.sound |
| C13 | `Nxas.C13_token` | propext, Classical.choice, Quot.sound |
| C13 | `Nxas.C13_ends` | propext, Quot.sound |
| C13 | `Nxas.C13_violated` | propext, Quot.sound |
| C13 | `Nxas.C13_exact` | propext, Classical.choice, Quot.sound |
| C14 | `Nxas.C14_register` | propext, Classical.choice, Quot.sound |
| C14 | `Nxas.C14_index` | propext, Classical.choice, Quot.sound |
| C14 | `Nxas.C14_zero` | propext, Classical.choice, Quot.sound |
| C15 | `Nxas.C15_predicate` | propext, Classical.choice, Quot.sound |
| C16 | `Nxas.C16_layout` | propext, Classical.choice, Quot.sound |
| C16 | `Nxas.C16_lines` | propext, Classical.choice, Quot.sound |
| C17 | `Nxas.C17_label` | propext, Classical.choice, Quot.sound |
| C18 | `Nxas.C18_labels` | propext, Classical.choice, Quot.sound |
| C19 | `Nxas.C19_first` | propext, Classical.choice, Quot.sound |
| C19 | `Nxas.C19_silent` | propext, Classical.choice, Quot.sound |
| C20 | `Nxas.C20_target` | propext, Classical.choice, Quot.sound |
| C21 | `Nxas.C21_accepts` | propext, Classical.choice, Quot.sound |
| C21 | `Nxas.C20_target` | propext, Classical.choice, Quot.sound |
| C22 | `Nxas.C22_bits` | propext, Classical.choice, Quot.sound |
| C22 | `Nxas.C22_owns` | propext, Quot.sound |
| C22 | `Nxas.C22_output` | propext, Classical.choice, Quot.sound |
| C23 | `Nxas.C23_guard` | propext, Classical.choice, Quot.sound |
| C23 | `Nxas.C23_guarded` | propext, Classical.choice, Quot.sound |
| C23 | `Nxas.C23_unguarded` | propext, Classical.choice, Quot.sound |
| C24 | `Nxas.C24_partial` | propext, Classical.choice, Quot.sound |
| C24 | `Nxas.C24_violated` | propext, Quot.sound |
| C24 | `Nxas.C24_rows` | propext, Quot.sound |
| C25 | `Nxas.C25_row` | propext, Classical.choice, Quot.sound |
| C25 | `Nxas.C25_abort` | propext, Classical.choice, Quot.sound |
| C25 | `Nxas.C25_overlapping` | propext, Quot.sound |
| C25 | `Nxas.C25_witnesses` | propext, Quot.sound |
| C26 | `Nxas.C26_same` | propext, Quot.sound |
| C26 | `Nxas.C26_accepted` | propext, Quot.sound |
| C26 | `Nxas.C26_rejected` | propext, Quot.sound |
| C26 | `Nxas.C26_converse_false` | propext, Quot.sound |
| C27 | `Nxas.C27_accepts` | propext, Classical.choice, Quot.sound |
| C27 | `Nxas.C27_stored` | propext, Classical.choice, Quot.sound |
| C28 | `Nxas.C28_accepts` | propext, Classical.choice, Quot.sound |
| C28 | `Nxas.C28_imm20_accepts` | propext, Classical.choice, Quot.sound |
| C28 | `Nxas.C28_signed` | propext, Classical.choice, Quot.sound |
| C28 | `Nxas.C28_imm20` | propext, Classical.choice, Quot.sound |
| C29 | `Nxas.C29_partial` | propext, Classical.choice, Quot.sound |
| C29 | `Nxas.C29_violated` | propext, Quot.sound |
| C30 | `Nxas.C30_stored` | propext, Classical.choice, Quot.sound |
| C30 | `Nxas.C30_accepts` | propext, Classical.choice, Quot.sound |
| C31 | `Nxas.C31_stored` | propext, Classical.choice, Quot.sound |
| C31 | `Nxas.C31_accepts` | propext, Classical.choice, Quot.sound |
| C31 | `Nxas.C31_rows` | propext, Quot.sound |
| C31 | `Nxas.C31_atoms_rounds` | propext, Quot.sound |
| C32 | `Nxas.C32_literal` | propext, Classical.choice, Quot.sound |
| C32 | `Nxas.C32_wide` | propext, Classical.choice, Quot.sound |
| C32 | `Nxas.C32_short` | propext, Classical.choice, Quot.sound |
| C32 | `Nxas.C32_truncates` | propext, Classical.choice, Quot.sound |
| C33 | `Nxas.C33_half` | propext, Classical.choice, Quot.sound |
| C33 | `Nxas.C33_forms` | propext |
| C33 | `Nxas.C33_wide` | propext, Classical.choice, Quot.sound |
| C33 | `Nxas.C33_short` | propext, Classical.choice, Quot.sound |
| C34 | `Nxas.C34_partial` | propext, Classical.choice, Quot.sound |
| C34 | `Nxas.C34_violated` | propext, Quot.sound |
| C35 | `Nxas.C35_equal` | propext, Classical.choice, Quot.sound |
| C35 | `Nxas.C35_accepts` | propext, Classical.choice, Quot.sound |
| C35 | `Nxas.C35_rows` | propext, Quot.sound |
| C36 | `Nxas.C36_flags` | propext, Classical.choice, Quot.sound |
| C36 | `Nxas.C36_register` | propext, Classical.choice, Quot.sound |
| C36 | `Nxas.C36_stored` | propext, Classical.choice, Quot.sound |
| C37 | `Nxas.C37_annotations` | propext, Classical.choice, Quot.sound |
| C37 | `Nxas.C37_fields` | propext, Quot.sound |
| C37 | `Nxas.C37_default` | propext |
| C38 | `Nxas.C38_accepts` | propext, Classical.choice, Quot.sound |
| C38 | `Nxas.C38_duplicate` | propext, Classical.choice, Quot.sound |
| C38 | `Nxas.C38_dep` | propext, Classical.choice |
| C38 | `Nxas.C38_range` | propext, Quot.sound |
| C39 | `Nxas.C39_order` | propext, Classical.choice, Quot.sound |
| C40 | `Nxas.C40_first` | propext, Classical.choice, Quot.sound |
| C40 | `Nxas.C40_source` | propext, Classical.choice, Quot.sound |
| C40 | `Nxas.C40_grammar` | propext, Classical.choice, Quot.sound |
| C41 | `Nxas.C41_unknown` | propext, Classical.choice, Quot.sound |
| C42 | `Nxas.C42_tail` | propext, Classical.choice, Quot.sound |
| C42 | `Nxas.C42_no_garbage` | propext, Classical.choice, Quot.sound |
| C43 | `Nxas.C43_position` | propext, Classical.choice, Quot.sound |
| C44 | `Nxas.C44_furthest` | propext, Quot.sound |
| C44 | `Nxas.C44_source` | propext, Classical.choice, Quot.sound |
| C45 | `Nxas.C45_compute` | propext, Classical.choice, Quot.sound |
| C45 | `Nxas.C45_rejected` | propext, Classical.choice, Quot.sound |
| C46 | `Nxas.C46_once` | propext, Classical.choice, Quot.sound |
| C47 | `Nxas.C47_type` | propext, Classical.choice, Quot.sound |
| C48 | `Nxas.C48_embeds` | propext, Classical.choice, Quot.sound |
| C48 | `Nxas.C48_raw` | propext, Classical.choice, Quot.sound |
| C49 | `Nxas.C49_header` | propext, Classical.choice, Quot.sound |
| C50 | `Nxas.C50_partial` | propext, Classical.choice, Quot.sound |
| C50 | `Nxas.C50_excess` | propext, Classical.choice, Quot.sound |
| C50 | `Nxas.C50_violated` | propext, Quot.sound |
| C51 | `Nxas.C51_entry` | propext, Classical.choice, Quot.sound |
| C52 | `Nxas.C52_unusable` | propext, Classical.choice, Quot.sound |
| C52 | `Nxas.C52_violated` | propext, Quot.sound |
| C53 | `Nxas.C53_arguments` | propext, Classical.choice, Quot.sound |
| C53 | `Nxas.C53_rejected` | propext, Classical.choice, Quot.sound |
| C53 | `Nxas.C53_runs` | propext, Classical.choice, Quot.sound |
| C53 | `Nxas.C53_unreadable` | propext, Classical.choice, Quot.sound |
| C54 | `Nxas.C54_written` | propext, Classical.choice, Quot.sound |
| C54 | `Nxas.C54_untouched` | propext, Quot.sound |
| C55 | `Nxas.C55_command_line` | propext, Quot.sound |
| C55 | `Nxas.C55_release` | propext, Classical.choice, Quot.sound |
| C55 | `Nxas.C55_debug` | propext, Quot.sound |
| C55 | `Nxas.C55_assert` | propext, Classical.choice, Quot.sound |
| C56 | `Nxas.C56_distinct` | propext, Quot.sound |
| C56 | `Nxas.C56_stored` | propext, Classical.choice, Quot.sound |
| C56 | `Nxas.C56_system_registers` | propext, Quot.sound |
| C57 | `Nxas.C57` | propext, Classical.choice, Quot.sound |
| C57 | `Nxas.C57_distinct` | none |
| C58 | `Nxas.C58_refinement` | propext, Classical.choice, Quot.sound |
| C58 | `Nxas.C58_debug` | propext, Classical.choice, Quot.sound |
| C58 | `Nxas.C58_unambiguous` | propext, Classical.choice, Quot.sound |
| C58 | `Nxas.C58_rejected` | propext, Classical.choice, Quot.sound |
| C59 | `Nxas.C59_release` | propext, Quot.sound |
| C60 | `Nxas.C60_partial` | propext, Classical.choice, Quot.sound |
| C60 | `Nxas.C60_integer` | propext, Classical.choice, Quot.sound |
| C60 | `Nxas.C60_violated` | propext, Classical.choice, Quot.sound |
| C61 | `Nxas.C61_partial` | propext, Classical.choice, Quot.sound |
| C61 | `Nxas.C61_violated` | propext, Classical.choice, Quot.sound |
| C62 | `Nxas.C62_mnemonic` | propext, Classical.choice, Quot.sound |
| C63 | `Nxas.C63_violated` | propext, Classical.choice, Quot.sound |
| C63 | `Nxas.C63_partial` | propext, Classical.choice, Quot.sound |
| C64 | `Nxas.C64_bounds` | propext, Classical.choice, Quot.sound |
| C64 | `Nxas.C64_defined` | propext, Classical.choice, Quot.sound |
| C64 | `Nxas.C64_passes` | propext, Classical.choice, Quot.sound |
| C65 | `Nxas.C65_complete` | propext, Classical.choice, Quot.sound |
| C65 | `Nxas.C65_same` | propext, Classical.choice, Quot.sound |
| C66 | `Nxas.C66_violated` | propext, Classical.choice, Quot.sound |
| C66 | `Nxas.C66_violated_release` | propext, Quot.sound |
| C66 | `Nxas.C66_operand_partial` | propext, Classical.choice, Quot.sound |
| C66 | `Nxas.C66_partial` | propext, Classical.choice, Quot.sound |
| C66 | `Nxas.C66_instruction_partial` | propext, Classical.choice, Quot.sound |
| C66 | `Nxas.C66_program_partial` | propext, Classical.choice, Quot.sound |
| C66 | `Nxas.C66_plain_partial` | propext, Classical.choice, Quot.sound |
| C66 | `Nxas.C66_instruction_plain_partial` | propext, Classical.choice, Quot.sound |
| C66 | `Nxas.C66_program_plain_partial` | propext, Classical.choice, Quot.sound |
| C66 | `Nxas.C66_collisions` | propext, Quot.sound |
| C66 | `Nxas.C66_collisions_release` | propext, Quot.sound |
| C67 | `Nxas.C67_annotations` | propext, Classical.choice, Quot.sound |
| C67 | `Nxas.C67_instructions` | propext, Classical.choice, Quot.sound |
| C68 | `Nxas.C68_slots` | propext, Classical.choice, Quot.sound |
| C69 | `Nxas.C69_violated` | propext, Quot.sound |
| C69 | `Nxas.C69_rows_partial` | propext, Classical.choice, Quot.sound |
| C69 | `Nxas.C69_words_partial` | propext, Classical.choice, Quot.sound |
| C70 | `Nxas.C70_row` | propext, Classical.choice, Quot.sound |
| C70 | `Nxas.C70_grammar` | propext, Classical.choice, Quot.sound |
| C70 | `Nxas.C70_order` | propext, Classical.choice, Quot.sound |
| C70 | `Nxas.C70_orders` | propext, Classical.choice, Quot.sound |
| C71 | `Nxas.C71_partial` | propext, Classical.choice, Quot.sound |
| C71 | `Nxas.C71_violated` | propext, Classical.choice, Quot.sound |
| C71 | `Nxas.C71_not_claim` | propext, Classical.choice, Quot.sound |
| C72 | `Nxas.C72_partial` | propext, Classical.choice, Quot.sound |
| C72 | `Nxas.C72_violated` | propext, Classical.choice, Quot.sound |
| C72 | `Nxas.C72_not_claim` | propext, Classical.choice, Quot.sound |
| C72 | `Nxas.C72_printed` | propext, Classical.choice, Quot.sound |
| C72 | `Nxas.C72_range` | propext, Classical.choice, Quot.sound |
| C72 | `Nxas.C72_misprint` | propext, Classical.choice, Quot.sound |
| C72 | `Nxas.C72_output` | propext, Classical.choice, Quot.sound |
| C73 | `Nxas.C73_undefined` | propext, Classical.choice, Quot.sound |
| C73 | `Nxas.C73_debug` | propext, Classical.choice, Quot.sound |
| C73 | `Nxas.C73_debug_conv` | propext, Classical.choice, Quot.sound |
| C73 | `Nxas.C73_unique` | propext, Classical.choice, Quot.sound |
| C74 | `Nxas.C74_position` | propext, Classical.choice, Quot.sound |
| C74 | `Nxas.C74_message` | propext, Classical.choice, Quot.sound |
| C74 | `Nxas.C74_instruction` | propext, Classical.choice, Quot.sound |
| C74 | `Nxas.C74_label` | propext, Classical.choice, Quot.sound |
| C74 | `Nxas.C74_sharp` | propext, Classical.choice, Quot.sound |
| C75 | `Nxas.C75_violated` | propext, Quot.sound |
| C75 | `Nxas.C75_not_claim` | propext, Quot.sound |
| C75 | `Nxas.C75_partial` | propext, Classical.choice, Quot.sound |
| C75 | `Nxas.C75_unnoticed` | propext, Quot.sound |
| C75 | `Nxas.C75_unsized` | propext, Classical.choice, Quot.sound |
| C75 | `Nxas.C75_shrunk` | propext, Classical.choice, Quot.sound |
| C75 | `Nxas.C75_grown` | propext |
| C75 | `Nxas.C75_blanks` | propext, Classical.choice, Quot.sound |
| C76 | `Nxas.C76_past_end` | propext, Classical.choice, Quot.sound |
| C76 | `Nxas.C76_debug` | propext, Classical.choice, Quot.sound |
| C77 | `Nxas.C77_outcome` | propext, Classical.choice, Quot.sound |
| C77 | `Nxas.C77_disjoint` | propext, Classical.choice, Quot.sound |
| C78 | `Nxas.C78_tokens` | propext, Classical.choice, Quot.sound |
| C78 | `Nxas.C78_programs` | propext, Classical.choice, Quot.sound |
| C78 | `Nxas.C78_instructions` | propext, Classical.choice, Quot.sound |
| C78 | `Nxas.C78_floats` | propext, Classical.choice, Quot.sound |
| C79 | `Nxas.C79_aborts` | propext, Classical.choice, Quot.sound |
| C79 | `Nxas.C79_builds` | propext, Classical.choice, Quot.sound |
| C79 | `Nxas.C79_outcome` | propext, Classical.choice, Quot.sound |
| C80 | `Nxas.C80_nearest` | propext, Classical.choice, Quot.sound |
| C80 | `Nxas.C80_faithful` | propext, Classical.choice, Quot.sound |
| C81 | `Nxas.C81_double` | propext, Classical.choice, Quot.sound |
| C81 | `Nxas.C81_range` | propext, Classical.choice, Quot.sound |
| C82 | `Nxas.C82_partial` | propext, Classical.choice, Quot.sound |
| C82 | `Nxas.C82_local` | propext, Classical.choice, Quot.sound |
| C82 | `Nxas.C82_violated` | propext, Classical.choice, Quot.sound |
| C82 | `Nxas.C82_wraps` | propext, Quot.sound |
| C82 | `Nxas.C82_not_claim` | propext, Classical.choice, Quot.sound |
| C83 | `Nxas.C83_link` | propext, Classical.choice, Quot.sound |
| C84 | `Nxas.C84_targets` | propext, Classical.choice, Quot.sound |
| C84 | `Nxas.C84_numbers` | propext, Classical.choice, Quot.sound |
| C85 | `Nxas.C85` | propext, Classical.choice, Quot.sound |
| C85 | `Nxas.C85_rejected` | propext, Classical.choice, Quot.sound |
| C86 | `Nxas.C86` | propext, Classical.choice, Quot.sound |
| C86 | `Nxas.C86_label` | propext, Quot.sound |
| C86 | `Nxas.C86_swallowed` | propext, Quot.sound |
| C87 | `Nxas.C87_local` | propext, Classical.choice, Quot.sound |
| C87 | `Nxas.C87_guard` | propext, Classical.choice, Quot.sound |
| C87 | `Nxas.C87_annotations` | propext, Classical.choice, Quot.sound |
| C88 | `Nxas.C88_rows` | propext, Classical.choice, Quot.sound |
| C88 | `Nxas.C88_extend` | propext, Quot.sound |
| C89 | `Nxas.C89_branch_partial` | propext, Classical.choice, Quot.sound |
| C89 | `Nxas.C89_reached` | propext, Classical.choice, Quot.sound |
| C89 | `Nxas.C89_next` | propext, Classical.choice, Quot.sound |
| C89 | `Nxas.C89_violated` | propext, Classical.choice, Quot.sound |
| C90 | `Nxas.C90_wide_partial` | propext, Classical.choice, Quot.sound |
| C90 | `Nxas.C90_short_partial` | propext, Classical.choice, Quot.sound |
| C90 | `Nxas.C90_violated` | propext, Classical.choice, Quot.sound |
| C91 | `Nxas.C91_reported` | propext, Classical.choice, Quot.sound |
| C91 | `Nxas.C91_unreported` | propext, Classical.choice, Quot.sound |
| C92 | `Nxas.C92_first` | propext, Quot.sound |
| C92 | `Nxas.C92_accepted` | propext, Quot.sound |
| C92 | `Nxas.C92_text` | propext, Classical.choice, Quot.sound |
| C92 | `Nxas.C92_swallowed` | propext, Quot.sound |
| C93 | `Nxas.C93_refines` | propext, Classical.choice, Quot.sound |
| C93 | `Nxas.C93_fields` | propext, Classical.choice, Quot.sound |
| C93 | `Nxas.C93_dual` | propext, Classical.choice, Quot.sound |
| C94 | `Nxas.C94_tokens` | propext, Classical.choice, Quot.sound |
| C94 | `Nxas.C94_labels` | propext, Classical.choice, Quot.sound |
| C94 | `Nxas.C94_step` | propext, Quot.sound |
| C94 | `Nxas.C94_exact` | propext, Quot.sound |
| C94 | `Nxas.C94_beyond` | propext, Quot.sound |
| C94 | `Nxas.C94_gap` | propext, Quot.sound |
| C95 | `Nxas.C95_set` | propext, Classical.choice, Quot.sound |
| C95 | `Nxas.C95_always` | propext, Classical.choice, Quot.sound |
| C95 | `Nxas.C95_free` | propext, Classical.choice, Quot.sound |
| C96 | `Nxas.C96_sound` | propext, Classical.choice, Quot.sound |
| C96 | `Nxas.C96_plain` | propext, Classical.choice, Quot.sound |
| C96 | `Nxas.C96_complete` | propext, Classical.choice, Quot.sound |
| C96 | `Nxas.C96_image` | propext, Classical.choice, Quot.sound |
| C96 | `Nxas.C96_line` | propext, Classical.choice, Quot.sound |
| C97 | `Nxas.C97_sound` | propext, Classical.choice, Quot.sound |
| C97 | `Nxas.C97_complete` | propext, Classical.choice, Quot.sound |
| C97 | `Nxas.C97_image` | propext, Classical.choice, Quot.sound |
| C97 | `Nxas.C97_apart` | propext, Quot.sound |
| C97 | `Nxas.C97_kind` | propext, Classical.choice, Quot.sound |
| C98 | `Nxas.C98_before` | propext, Classical.choice, Quot.sound |
| C98 | `Nxas.C98_behind` | propext, Classical.choice, Quot.sound |
| C99 | `Nxas.C99_insert` | propext, Classical.choice, Quot.sound |
