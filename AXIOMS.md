# Axioms of the theorems of MANIFEST.json

Generated by tools/axioms.py from `#print axioms`. All are axioms of Lean's standard library.

## Classical.choice, Quot.sound, propext (475 theorems)

* Verif.Props.c01_trichotomy
* Verif.Props.c01_meaning
* Verif.Props.c01_nonstrict
* Verif.Props.c01_swap
* Verif.Props.c01_between
* Verif.Props.c01_min_max
* Verif.Props.c01_extremes
* Verif.Props.c02_strict_partial_order
* Verif.Props.c02_strict_weak_order_on_rounded
* Verif.Props.c02_sorted_exactly
* Verif.Props.c02_not_strict_weak_order
* Verif.Props.c03_nearest
* Verif.Props.c03_ties_away
* Verif.Props.c03_laws
* Verif.Props.c04_value
* Verif.Props.c04_bounds
* Verif.Props.c04_symmetry
* Verif.Props.c04_positive
* Verif.Props.c04_elements
* Verif.Props.c05_horizontal_partial
* Verif.Props.c05_vertical_partial
* Verif.Props.c05_rotated_sign_flipped
* Verif.Props.c05_order_matters
* Verif.Props.c05_sides
* Verif.Props.c06_rot_edges
* Verif.Props.c06_rot_extents
* Verif.Props.c07_throws_iff
* Verif.Props.c07_is_maximum
* Verif.Props.c07_order_independent
* Verif.Props.c07_most_frequent_element
* Verif.Props.c08_throws_iff
* Verif.Props.c08_max_partial
* Verif.Props.c08_nonpositive_keys_throw
* Verif.Props.c08_close_keys_order_dependent
* Verif.Props.c10_split_isSplit
* Verif.Props.c10_split_unique
* Verif.Props.c10_words_clean
* Verif.Props.c10_words_flatten
* Verif.Props.c11_decode_escape
* Verif.Props.c11_escape_injective
* Verif.Props.c11_escape_no_control
* Verif.Props.c12_wrap_partial
* Verif.Props.c12_words_kept
* Verif.Props.c12_only_blanks_change
* Verif.Props.c12_long_word_disables_wrapping
* Verif.Props.c12_indent_ignored
* Verif.Props.c12_inner_newline_not_indented
* Verif.Props.c14_shorten
* Verif.Props.c15_whitespace
* Verif.Props.c15_strip_trims
* Verif.Props.c15_strip_idempotent
* Verif.Props.c15_strip_ub_iff
* Verif.Props.c17_xCut_partition
* Verif.Props.c17_yCut_partition
* Verif.Props.c17_empty
* Verif.Props.c17_sorts_are_permutations
* Verif.Props.c18_xyCut_terminates
* Verif.Props.c18_xyCut_partitions
* Verif.Props.c18_xyCut_fuel_irrelevant
* Verif.Props.c18_cuts_reported
* Verif.Props.c18_groups_final
* Verif.Props.c19_yCut_separates
* Verif.Props.c19_yCut_complete
* Verif.Props.c19_xCut_separates
* Verif.Props.c20_overlap_bound
* Verif.Props.c20_complete_partial
* Verif.Props.c20_crossed_gap_missed
* Verif.Props.c21_segments_cover
* Verif.Props.c21_segments_nodup
* Verif.Props.c21_segment_box_partial
* Verif.Props.c21_negative_coordinates_box
* Verif.Props.c22_words_partition
* Verif.Props.c22_pages_independent
* Verif.Props.c23_homogeneous
* Verif.Props.c23_word_boundaries
* Verif.Props.c23_deterministic
* Verif.Props.c23_vertical_text_single_characters
* Verif.Props.c23_rotated_never_split
* Verif.Props.c24_word
* Verif.Props.c24_box_partial
* Verif.Props.c24_negative_coordinates_box
* Verif.Props.c24_page_words
* Verif.Props.c25_attached
* Verif.Props.c25_owner
* Verif.Props.c25_visited_once_partial
* Verif.Props.c25_one_operator_partial
* Verif.Props.c25_claimed_twice
* Verif.Props.c25_lost
* Verif.Props.c26_segment_partial
* Verif.Props.c26_page_partial
* Verif.Props.c26_tiny_text_throws
* Verif.Props.c26_line_content
* Verif.Props.c26_links
* Verif.Props.c26_links_in_group
* Verif.Props.c26_line_box
* Verif.Props.c26_sorts_are_permutations
* Verif.Props.c26_words_sorted
* Verif.Props.c27_round
* Verif.Props.c27_rounds
* Verif.Props.c28_forest
* Verif.Props.c28_siblings
* Verif.Props.c28_parent_less_indented_partial
* Verif.Props.c28_parent_of_first_sibling
* Verif.Props.c28_parent_more_indented
* Verif.Props.c28_distance_resets
* Verif.Props.c28_consecutive_lines
* Verif.Props.c29_trim_box
* Verif.Props.c29_rotated_lines_trim_outside
* Verif.Props.c30_blocks_partition
* Verif.Props.c31_first_line_of_item
* Verif.Props.c31_continuation_of_item
* Verif.Props.c31_first_pass
* Verif.Props.c31_second_pass
* Verif.Props.c31_boundaries
* Verif.Props.c31_homogeneous
* Verif.Props.c31_same_figure_split
* Verif.Props.c31_more_indented_starts
* Verif.Props.c32_block_content
* Verif.Props.c33_permutation
* Verif.Props.c33_document
* Verif.Props.c34_plain_text_partial
* Verif.Props.c34_default_prints_all
* Verif.Props.c34_no_roles_prints_nothing
* Verif.Props.c35_extended
* Verif.Props.c35_form_feeds
* Verif.Props.c36_json_lines_partial
* Verif.Props.c36_throws_iff
* Verif.Props.c36_ids_are_clean
* Verif.Props.c36_lines_unit_ignored
* Verif.Props.c36_font_name_breaks_json
* Verif.Props.c37_printed_words_partial
* Verif.Props.c37_chain_loses_text
* Verif.Props.c37_joined_across_roles_loses_text
* Verif.Props.c38_which_marks
* Verif.Props.c38_exact
* Verif.Props.c38_nothing_lost_partial
* Verif.Props.c38_sparse_marks
* Verif.Props.c38_two_marks_lose_one
* Verif.Props.c38_stacked_marks_lost
* Verif.Props.c38_apostrophe_becomes_accent
* Verif.Props.c39_exact
* Verif.Props.c39_reader_partial
* Verif.Props.c39_turned_text_swapped
* Verif.Props.c39_never_both
* Verif.Props.c39_base_box
* Verif.Props.c40_encoding_unique
* Verif.Props.c40_encode
* Verif.Props.c40_history_independent
* Verif.Props.c40_length
* Verif.Props.c40_nonempty_result_cut
* Verif.Props.c41_most_probable_role_partial
* Verif.Props.c41_nonpositive_row_is_paragraph
* Verif.Props.c42_role
* Verif.Props.c42_type
* Verif.Props.c42_format
* Verif.Props.c42_jsonl_rejected
* Verif.Props.c42_names_round_trip
* Verif.Props.c42_format_names
* Verif.Props.c42_help_lists
* Verif.Props.c43_printed_iff
* Verif.Props.c43_history
* Verif.Props.c43_monotone
* Verif.Props.c44_stages
* Verif.Props.c44_load_failure
* Verif.Props.c45_skip_options
* Verif.Props.c45_skipped_stage_does_not_run
* Verif.Props.c45_options_without_effect
* Verif.Props.c45_skip_roles_without_effect
* Verif.Props.c45_verbosity
* Verif.Props.c45_other_options
* Verif.Props.c45_debug_hides_trace
* Verif.Props.c45_page_filter
* Verif.Props.c45_output
* Verif.Props.c45_exit_codes
* Verif.Props.c45_help
* Verif.Props.c45_two_files
* Verif.Props.c46_round_trip_partial
* Verif.Props.c46_overflow
* Verif.Props.c47_numbers
* Verif.Props.c48_glyph_box_partial
* Verif.Props.c48_pen_in_box
* Verif.Props.c48_side_bearing
* Verif.Props.c48_seac_has_no_box
* Verif.Props.c48_fraction_refuted
* Verif.Props.c48_no_side_bearing
* Verif.Props.c49_halts_partial
* Verif.Props.c49_halts_leaf_subrs_partial
* Verif.Props.c49_halts_acyclic_partial
* Verif.Props.c49_ub_causes_partial
* Verif.Props.c49_safe_bytes_partial
* Verif.Props.c50_routing
* Verif.Props.c50_exactly_once
* Verif.Props.c50_figures
* Verif.Props.c50_runs
* Verif.Props.c50_no_white_space
* Verif.Props.c51_font_known
* Verif.Props.c51_inherited
* Verif.Props.c51_last_font
* Verif.Props.c52_inside_partial
* Verif.Props.c52_tight
* Verif.Props.c52_nothing_visible_refuted
* Verif.Props.c53_glyph_statistics
* Verif.Props.c54_normalised
* Verif.Props.c54_nameless
* Verif.Props.c54_base
* Verif.Props.c54_subsets
* Verif.Props.c54_idempotent
* Verif.Props.c55_x_cut_chosen_iff
* Verif.Props.c56_y_cut_justified
* Verif.Props.c56_y_cuts_exactly
* Verif.Props.c57_primary_x_page
* Verif.Props.c57_primary_y_page
* Verif.Props.c57_reading_order
* Verif.Props.c57_primary_x_iff
* Verif.Props.c57_primary_y_iff
* Verif.Props.c57_primary_x_split
* Verif.Props.c57_y_cut_justified
* Verif.Props.c57_y_cut_chosen
* Verif.Props.c57_y_cuts_exactly
* Verif.Props.c57_rule_cuts_through_block
* Verif.Props.c58_word_statistics
* Verif.Props.c58_line_statistics
* Verif.Props.c58_turned_lines_distance_zero
* Verif.Props.c59_features_partial
* Verif.Props.c59_float_limits
* Verif.Props.c59_row_meaning
* Verif.Props.c59_wide_character_undefined
* Verif.Props.c59_missing_font_throws
* Verif.Props.c60_destination
* Verif.Props.c60_failure_exits_with_success
* Verif.Props.c60_shell_injection
* Verif.Props.c61_font_file
* Verif.Props.c61_pfb_file
* Verif.Props.c61_hex_file
* Verif.Props.c61_hex_digits
* Verif.Props.c61_binary_unchanged
* Verif.Props.c61_header
* Verif.Props.c61_hex_never_read
* Verif.Props.c61_upper_case_digits
* Verif.Props.c62_weight
* Verif.Props.c62_italic_and_rest
* Verif.Props.c62_embedded
* Verif.Props.c62_matrix
* Verif.Props.c62_long_matrix
* Verif.Props.c62_upright_taken_for_italic
* Verif.Props.c63_pen
* Verif.Props.c63_rotation
* Verif.Props.c63_upright_box
* Verif.Props.c63_choice
* Verif.Props.c63_glyph
* Verif.Props.c63_well_formed_partial
* Verif.Props.c63_upside_down_refuted
* Verif.Props.c64_recorded_iff
* Verif.Props.c64_box
* Verif.Props.c64_full_width_refuted
* Verif.Props.c64_quarter_turn_refuted
* Verif.Props.c65_no_failure
* Verif.Props.c65_words_preserved
* Verif.Props.c65_plain_text_partial
* Verif.Props.c65_plain_text_dehyphenated_partial
* Verif.Props.c65_incomplete_prints_nothing
* Verif.Props.c66_blocks
* Verif.Props.c66_lines_centered
* Verif.Props.c66_footnote_labels
* Verif.Props.c66_hanging_indent
* Verif.Props.c67_character
* Verif.Props.c68_negative_lenIV_refuted
* Verif.Props.c68_table_partial
* Verif.Props.c68_box_partial
* Verif.Props.c68_other_command_refuted
* Verif.Props.c68_too_long_refuted
* Verif.Props.c68_number_too_large_refuted
* Verif.Props.c68_no_failure
* Verif.Props.c68_nd_in_data_refuted
* Verif.Props.c69_line_content
* Verif.Props.c69_lines
* Verif.Props.c69_statistics
* Verif.Props.c69_segments
* Verif.Props.c69_blocks
* Verif.Props.c69_page_numbers
* Verif.Props.c69_homogeneous
* Verif.Props.c69_text_lines
* Verif.Props.c69_output
* Verif.Props.c69_roles
* Verif.Props.c70_vocabularies
* Verif.Props.c70_malformed_number
* Verif.Props.c70_unreadable_file_loops
* Verif.Props.c70_words_tensor
* Verif.Props.c71_xyCut
* Verif.Props.c71_segments_cut
* Verif.Props.c71_two_segments
* Verif.Props.c72_boxes
* Verif.Props.c72_frame_visible
* Verif.Props.c72_text_blocks
* Verif.Props.c72_reading_order
* Verif.Props.c72_single_block_refuted
* Verif.Props.c72_cuts
* Verif.Props.c72_option_cuts
* Verif.Props.c72_option_reading_order
* Verif.Props.c72_options
* Verif.Props.c72_no_failure
* Verif.Props.c72_missing_page
* Verif.Props.c72_cut_lines
* Verif.Props.c72_document
* Verif.Props.c72_segments
* Verif.Props.c73_patterns_compile
* Verif.Props.c73_labels
* Verif.Props.c73_words
* Verif.Props.c73_document
* Verif.Props.c73_long_citation_refuted
* Verif.Props.c73_odd_labels_refuted
* Verif.Props.c74_char_map_partial
* Verif.Props.c74_broken_refuted
* Verif.Props.c74_in_document_partial
* Verif.Props.c75_pages
* Verif.Props.c75_page_sizes
* Verif.Props.c75_characters
* Verif.Props.c75_parsed
* Verif.Props.c75_numbered
* Verif.Props.c75_utf8
* Verif.Props.c75_no_failure
* Verif.Props.c75_full_run
* Verif.Props.c75_text_partial
* Verif.Props.c76_failure_reasons
* Verif.Props.c76_jsonl_succeeds
* Verif.Props.c77_load_failure
* Verif.Props.c77_exit_code
* Verif.Props.c77_text_partial
* Verif.Props.c77_default_text_partial
* Verif.Props.c78_binary64
* Verif.Props.c78_comparisons
* Verif.Props.c78_decimals
* Verif.Props.c78_round
* Verif.Props.c78_comparators
* Verif.Props.c78_hull
* Verif.Props.c78_overlap_fraction
* Verif.Props.c78_overlap_accurate
* Verif.Props.c78_gaps
* Verif.Props.c78_exact
* Verif.Props.c78_between
* Verif.Props.c78_huge_refuted
* Verif.Props.c79_order_independent
* Verif.Props.c79_same_order
* Verif.Props.c79_ties_matter_refuted
* Verif.Props.c80_reads_unique
* Verif.Props.c80_file_partial
* Verif.Props.c80_no_lengths
* Verif.Props.c80_clear_text_only
* Verif.Props.c80_covered_partial
* Verif.Props.c80_box_partial
* Verif.Props.c80_unknown_glyph_partial
* Verif.Props.c80_overhang_refuted
* Verif.Props.c81_words
* Verif.Props.c81_segments
* Verif.Props.c81_order
* Verif.Props.c81_run_partial
* Verif.Props.c81_fraction_refuted
* Verif.Props.c81_turned_refuted
* Verif.Props.c81_any_network_partial
* Verif.Props.c81_any_network_premises
* Verif.Props.c82_released
* Verif.Props.c82_no_use_after_release
* Verif.Props.c82_nothing_left
* Verif.Props.c82_leak_refuted
* Verif.Props.c82_order_permutes
* Verif.Props.c83_pages
* Verif.Props.c83_text
* Verif.Props.c83_hyphen_refuted
* Verif.Props.c83_statistics_refuted
* Verif.Props.c83_pages_in_front_refuted
* Verif.Props.c84_paragraphs_partial
* Verif.Props.c84_words
* Verif.Props.c84_characters
* Verif.Props.c84_hyphen_refuted
* Verif.Props.c85_help_page
* Verif.Props.c85_help_undefined
* Verif.Props.c85_messages
* Verif.Props.c85_complete
* Verif.Props.c85_switches_read
* Verif.Props.c85_choices
* Verif.Props.c85_width_refuted
* Verif.Props.c86_dehyphenation
* Verif.Props.c86_unjoined
* Verif.Props.c86_reading_order
* Verif.Props.c86_premises
* Verif.Props.c87_links
* Verif.Props.c87_text
* Verif.Props.c87_prefixes
* Verif.Props.c87_collision_refuted
* Verif.Props.c88_percent
* Verif.Props.c88_sum
* Verif.Props.c88_percent_refuted
* Verif.Props.c88_text
* Verif.Props.c88_aligned_partial
* Verif.Props.c88_aligned_refuted
* Verif.Props.c88_only_adds
* Verif.Props.c88_steps
* Verif.Props.c88_stdout_refuted
* Verif.Props.c89_text
* Verif.Props.c89_jsonl
* Verif.Props.c89_program
* Verif.Props.c89_font_refuted
* Verif.Props.c89_shorten_refuted
* Verif.Props.c90_text
* Verif.Props.c90_reordered
* Verif.Props.c90_roles_only
* Verif.Props.c90_unused
* Verif.Props.c90_premises_predicted
* Verif.Props.c90_premises
* Verif.Props.c90_order_refuted
* Verif.Props.c91_boxes
* Verif.Props.c91_contains
* Verif.Props.c91_region
* Verif.Props.c91_characters_partial
* Verif.Props.c91_records
* Verif.Props.c91_segments_partial
* Verif.Props.c91_upside_down_refuted
* Verif.Props.c91_premises
* Verif.Props.c92_upright
* Verif.Props.c92_upside_down
* Verif.Props.c92_turned_partial
* Verif.Props.c92_consecutive
* Verif.Props.c92_printed
* Verif.Props.c92_turned_refuted
* Verif.Props.c92_mixed_refuted
* Verif.Props.c92_premises
* Verif.Props.c93_same
* Verif.Props.c93_roles_only
* Verif.Props.c93_premises
* Verif.Props.c93_refuted
* Verif.Props.c94_result
* Verif.Props.c94_text
* Verif.Props.c94_records
* Verif.Props.c94_premises
* Verif.Props.c94_roles_refuted
* Verif.Props.c95_short
* Verif.Props.c95_long
* Verif.Props.c95_one_line
* Verif.Props.c95_closed
* Verif.Props.c95_semicolon_refuted
* Verif.Props.c96_words
* Verif.Props.c96_characters
* Verif.Props.c96_blocks
* Verif.Props.c96_detection_order
* Verif.Props.c96_lines
* Verif.Props.c96_file
* Verif.Props.c96_run
* Verif.Props.c96_premises
* Verif.Props.c96_output_order_refuted
* Verif.Props.c96_figures_refuted
* Verif.Props.c97_roles
* Verif.Props.c97_records
* Verif.Props.c97_more_roles
* Verif.Props.c97_program
* Verif.Props.c97_exit_code
* Verif.Props.c97_premises
* Verif.Props.c98_counter
* Verif.Props.c98_counters
* Verif.Props.c98_tables
* Verif.Props.c98_segments
* Verif.Props.c98_ties_refuted
* Verif.Props.c98_directions_refuted
* Verif.Props.c98_formulas_refuted
* Verif.Props.c98_premises
* Verif.Props.c98_segments_premises
* Verif.Props.c99_hyphens
* Verif.Props.c99_paragraphs
* Verif.Props.c99_paragraph
* Verif.Props.c99_premises
* Verif.Props.c99_premises_paragraphs
* Verif.Props.c99_premises_hyphens
* Verif.Props.c99_places
* Verif.Props.c99_jsonl
* Verif.Props.c99_program
* Verif.Props.c99_premises_program

## Quot.sound, propext (27 theorems)

* Verif.Props.c07_sumCounts
* Verif.Props.c09_push
* Verif.Props.c09_history
* Verif.Props.c13_round_trip_partial
* Verif.Props.c14_sentence_delimiter
* Verif.Props.c14_starts_with_upper
* Verif.Props.c16_random_shape
* Verif.Props.c16_random_alphanumeric
* Verif.Props.c16_random_reachable_partial
* Verif.Props.c16_last_letter_never
* Verif.Props.c31_bullet_is_label
* Verif.Props.c37_only_marks_change
* Verif.Props.c40_tokens_concatenate
* Verif.Props.c41_invalid_role
* Verif.Props.c41_missing_rows_undefined
* Verif.Props.c47_every_number
* Verif.Props.c49_acyclic_premises
* Verif.Props.c49_endless_recursion
* Verif.Props.c59_non_ascii_count
* Verif.Props.c60_root_directory
* Verif.Props.c61_header_overflow
* Verif.Props.c61_hex_overflow
* Verif.Props.c70_every_file
* Verif.Props.c70_missing_file
* Verif.Props.c72_text
* Verif.Props.c73_superscripts
* Verif.Props.c99_joined

## none (4 theorems)

* Verif.Props.c09_sort
* Verif.Props.c13_leading_empty_lost
* Verif.Props.c70_second_attempt_without_vocabulary
* Verif.Props.c74_unambiguous

## propext (10 theorems)

* Verif.Props.c07_components
* Verif.Props.c09_capacity_zero
* Verif.Props.c13_join_eq
* Verif.Props.c13_join_partial
* Verif.Props.c16_alphabet
* Verif.Props.c16_one_letter_ub
* Verif.Props.c40_meta_symbols
* Verif.Props.c40_padding_in_vocabulary_clash
* Verif.Props.c46_strict_agrees
* Verif.Props.c49_malformed_fonts
