{
 "claims": [
  {
   "property": "C01",
   "status": "proved",
   "theorems": [
    "Verif.Props.c01_trichotomy",
    "Verif.Props.c01_meaning",
    "Verif.Props.c01_nonstrict",
    "Verif.Props.c01_swap",
    "Verif.Props.c01_between",
    "Verif.Props.c01_min_max",
    "Verif.Props.c01_extremes"
   ],
   "note": "Exact over the rationals."
  },
  {
   "property": "C02",
   "status": "proved",
   "theorems": [
    "Verif.Props.c02_strict_partial_order",
    "Verif.Props.c02_strict_weak_order_on_rounded",
    "Verif.Props.c02_sorted_exactly",
    "Verif.Props.c02_not_strict_weak_order"
   ],
   "note": "Includes the negative part: un-rounded coordinates break the strict weak order (finding F1)."
  },
  {
   "property": "C03",
   "status": "proved",
   "theorems": [
    "Verif.Props.c03_nearest",
    "Verif.Props.c03_ties_away",
    "Verif.Props.c03_laws"
   ],
   "note": "Exact arithmetic; double rounding of d*10^n is outside the model."
  },
  {
   "property": "C04",
   "status": "proved",
   "theorems": [
    "Verif.Props.c04_value",
    "Verif.Props.c04_bounds",
    "Verif.Props.c04_symmetry",
    "Verif.Props.c04_positive",
    "Verif.Props.c04_elements"
   ],
   "note": ""
  },
  {
   "property": "C05",
   "status": "partial",
   "theorems": [
    "Verif.Props.c05_horizontal_partial",
    "Verif.Props.c05_vertical_partial",
    "Verif.Props.c05_rotated_sign_flipped",
    "Verif.Props.c05_order_matters",
    "Verif.Props.c05_sides"
   ],
   "note": "Proved for rotations 0/1 and distinct left/upper edges; refuted for rotations 2/3 (sign flipped) and equal edges (argument order matters)."
  },
  {
   "property": "C06",
   "status": "proved",
   "theorems": [
    "Verif.Props.c06_rot_edges",
    "Verif.Props.c06_rot_extents"
   ],
   "note": ""
  },
  {
   "property": "C07",
   "status": "proved",
   "theorems": [
    "Verif.Props.c07_throws_iff",
    "Verif.Props.c07_is_maximum",
    "Verif.Props.c07_order_independent",
    "Verif.Props.c07_components",
    "Verif.Props.c07_most_frequent_element",
    "Verif.Props.c07_sumCounts"
   ],
   "note": ""
  },
  {
   "property": "C08",
   "status": "partial",
   "theorems": [
    "Verif.Props.c08_throws_iff",
    "Verif.Props.c08_max_partial",
    "Verif.Props.c08_nonpositive_keys_throw",
    "Verif.Props.c08_close_keys_order_dependent"
   ],
   "note": "Proved for positive keys rounded to at most 3 decimals; refuted for non-positive keys (the search starts at DBL_MIN > 0) and for keys closer than the tolerance (order dependent)."
  },
  {
   "property": "C09",
   "status": "proved",
   "theorems": [
    "Verif.Props.c09_push",
    "Verif.Props.c09_history",
    "Verif.Props.c09_capacity_zero",
    "Verif.Props.c09_sort"
   ],
   "note": "For every heap implementation satisfying the top contract."
  },
  {
   "property": "C10",
   "status": "proved",
   "theorems": [
    "Verif.Props.c10_split_isSplit",
    "Verif.Props.c10_split_unique",
    "Verif.Props.c10_words_clean",
    "Verif.Props.c10_words_flatten"
   ],
   "note": ""
  },
  {
   "property": "C11",
   "status": "proved",
   "theorems": [
    "Verif.Props.c11_decode_escape",
    "Verif.Props.c11_escape_injective",
    "Verif.Props.c11_escape_no_control"
   ],
   "note": ""
  },
  {
   "property": "C12",
   "status": "partial",
   "theorems": [
    "Verif.Props.c12_wrap_partial",
    "Verif.Props.c12_words_kept",
    "Verif.Props.c12_only_blanks_change",
    "Verif.Props.c12_long_word_disables_wrapping",
    "Verif.Props.c12_indent_ignored",
    "Verif.Props.c12_inner_newline_not_indented"
   ],
   "note": "Content preservation and the width of all lines but the last are proved; the width claim is refuted for the last line (indent ignored, too long word disables wrapping)."
  },
  {
   "property": "C13",
   "status": "partial",
   "theorems": [
    "Verif.Props.c13_join_eq",
    "Verif.Props.c13_join_partial",
    "Verif.Props.c13_round_trip_partial",
    "Verif.Props.c13_leading_empty_lost"
   ],
   "note": "Proved for lists whose first string is non-empty; refuted for leading empty strings."
  },
  {
   "property": "C14",
   "status": "proved",
   "theorems": [
    "Verif.Props.c14_shorten",
    "Verif.Props.c14_sentence_delimiter",
    "Verif.Props.c14_starts_with_upper"
   ],
   "note": ""
  },
  {
   "property": "C15",
   "status": "partial",
   "theorems": [
    "Verif.Props.c15_whitespace",
    "Verif.Props.c15_strip_trims",
    "Verif.Props.c15_strip_idempotent",
    "Verif.Props.c15_strip_ub_iff"
   ],
   "note": "Proved for texts with a non-blank character; refuted for blank texts: undefined behaviour."
  },
  {
   "property": "C16",
   "status": "partial",
   "theorems": [
    "Verif.Props.c16_random_shape",
    "Verif.Props.c16_random_alphanumeric",
    "Verif.Props.c16_alphabet",
    "Verif.Props.c16_random_reachable_partial",
    "Verif.Props.c16_last_letter_never",
    "Verif.Props.c16_one_letter_ub"
   ],
   "note": "Shape proved; 'every character can occur' is refuted for the last letter of the alphabet; one-letter alphabets divide by zero."
  },
  {
   "property": "C17",
   "status": "proved",
   "theorems": [
    "Verif.Props.c17_xCut_partition",
    "Verif.Props.c17_yCut_partition",
    "Verif.Props.c17_empty",
    "Verif.Props.c17_sorts_are_permutations"
   ],
   "note": ""
  },
  {
   "property": "C18",
   "status": "proved",
   "theorems": [
    "Verif.Props.c18_xyCut_terminates",
    "Verif.Props.c18_xyCut_partitions",
    "Verif.Props.c18_xyCut_fuel_irrelevant",
    "Verif.Props.c18_cuts_reported",
    "Verif.Props.c18_groups_final"
   ],
   "note": ""
  },
  {
   "property": "C19",
   "status": "proved",
   "theorems": [
    "Verif.Props.c19_yCut_separates",
    "Verif.Props.c19_yCut_complete",
    "Verif.Props.c19_xCut_separates"
   ],
   "note": "For upright elements with coordinates rounded by the parser and gap limits above the tolerance."
  },
  {
   "property": "C20",
   "status": "partial",
   "theorems": [
    "Verif.Props.c20_overlap_bound",
    "Verif.Props.c20_complete_partial",
    "Verif.Props.c20_crossed_gap_missed"
   ],
   "note": "The bound on the crossings is proved, and completeness for cuts crossing nothing; completeness for crossed gaps is refuted: the search looks only at the rightmost elements and may miss a cut crossing one element."
  },
  {
   "property": "C21",
   "status": "partial",
   "theorems": [
    "Verif.Props.c21_segments_cover",
    "Verif.Props.c21_segments_nodup",
    "Verif.Props.c21_segment_box_partial",
    "Verif.Props.c21_negative_coordinates_box"
   ],
   "note": "Coverage is proved for all pages; the box theorem needs positive right and lower edges (maxima start at the smallest positive double), refuted otherwise."
  },
  {
   "property": "C22",
   "status": "proved",
   "theorems": [
    "Verif.Props.c22_words_partition",
    "Verif.Props.c22_pages_independent"
   ],
   "note": ""
  },
  {
   "property": "C23",
   "status": "proved",
   "theorems": [
    "Verif.Props.c23_homogeneous",
    "Verif.Props.c23_word_boundaries",
    "Verif.Props.c23_deterministic",
    "Verif.Props.c23_vertical_text_single_characters",
    "Verif.Props.c23_rotated_never_split"
   ],
   "note": "Boundaries characterised exactly for upright characters with positive coordinates; homogeneity for all characters. Findings: vertical text becomes one-character words, text rotated by 180 degrees is never split at gaps."
  },
  {
   "property": "C24",
   "status": "partial",
   "theorems": [
    "Verif.Props.c24_word",
    "Verif.Props.c24_box_partial",
    "Verif.Props.c24_negative_coordinates_box",
    "Verif.Props.c24_page_words"
   ],
   "note": "Everything is proved for all inputs except that the box is smallest, which needs positive right and lower edges and is refuted otherwise."
  },
  {
   "property": "C25",
   "status": "partial",
   "theorems": [
    "Verif.Props.c25_attached",
    "Verif.Props.c25_owner",
    "Verif.Props.c25_visited_once_partial",
    "Verif.Props.c25_one_operator_partial",
    "Verif.Props.c25_claimed_twice",
    "Verif.Props.c25_lost"
   ],
   "note": "Exact characterisation of the attached words; each word is attached exactly once if operators claim disjoint words and no operator is claimed itself; refuted otherwise (printed twice / lost)."
  },
  {
   "property": "C26",
   "status": "partial",
   "theorems": [
    "Verif.Props.c26_segment_partial",
    "Verif.Props.c26_page_partial",
    "Verif.Props.c26_tiny_text_throws",
    "Verif.Props.c26_line_content",
    "Verif.Props.c26_links",
    "Verif.Props.c26_links_in_group",
    "Verif.Props.c26_line_box",
    "Verif.Props.c26_sorts_are_permutations",
    "Verif.Props.c26_words_sorted"
   ],
   "note": "Every word exactly once, no empty line, line text, box, order and links are proved for words that contain a character with a font size above 0.0001; a line of smaller text makes the program throw (refuted part). The page level statement assumes that the operators' claims are disjoint (C25)."
  },
  {
   "property": "C27",
   "status": "proved",
   "theorems": [
    "Verif.Props.c27_round",
    "Verif.Props.c27_rounds"
   ],
   "note": "Rounds, their number, the words and the fixed point are proved for all lines of words with a font size above 0.0001 (others make the program throw, see C26)."
  },
  {
   "property": "C28",
   "status": "partial",
   "theorems": [
    "Verif.Props.c28_forest",
    "Verif.Props.c28_siblings",
    "Verif.Props.c28_parent_less_indented_partial",
    "Verif.Props.c28_parent_of_first_sibling",
    "Verif.Props.c28_parent_more_indented",
    "Verif.Props.c28_distance_resets",
    "Verif.Props.c28_consecutive_lines"
   ],
   "note": "Forest, siblings and the conditions for links are proved for all pages; 'the parent is less indented' holds for the first sibling only and is refuted for drifting siblings."
  },
  {
   "property": "C29",
   "status": "proved",
   "theorems": [
    "Verif.Props.c29_trim_box",
    "Verif.Props.c29_rotated_lines_trim_outside"
   ],
   "note": "Finding: for rotated lines the right end is a y-coordinate, so the trim box is meaningless."
  },
  {
   "property": "C30",
   "status": "proved",
   "theorems": [
    "Verif.Props.c30_blocks_partition"
   ],
   "note": ""
  },
  {
   "property": "C31",
   "status": "partial",
   "theorems": [
    "Verif.Props.c31_first_line_of_item",
    "Verif.Props.c31_continuation_of_item",
    "Verif.Props.c31_first_pass",
    "Verif.Props.c31_second_pass",
    "Verif.Props.c31_boundaries",
    "Verif.Props.c31_homogeneous",
    "Verif.Props.c31_same_figure_split",
    "Verif.Props.c31_more_indented_starts",
    "Verif.Props.c31_bullet_is_label"
   ],
   "note": "Both rule chains are characterised exactly and the boundaries of the blocks are derived from them; 'two lines in the same figure never start a new block' holds for the first pass only and is refuted for the second pass. The regular expressions for item labels are characterised in C73."
  },
  {
   "property": "C32",
   "status": "partial",
   "theorems": [
    "Verif.Props.c32_block_content"
   ],
   "note": "Everything is proved except that the box is smallest for non-positive coordinates (see C21)."
  },
  {
   "property": "C33",
   "status": "proved",
   "theorems": [
    "Verif.Props.c33_permutation",
    "Verif.Props.c33_document"
   ],
   "note": "Finding: the ranks and links of the blocks are not updated after the reordering."
  },
  {
   "property": "C34",
   "status": "partial",
   "theorems": [
    "Verif.Props.c34_plain_text_partial",
    "Verif.Props.c34_default_prints_all",
    "Verif.Props.c34_no_roles_prints_nothing"
   ],
   "note": "Exact for every document and every selection of roles; an empty selection prints nothing although Serializer.h documents that it prints everything (refuted part; the command line default selects all roles)."
  },
  {
   "property": "C35",
   "status": "proved",
   "theorems": [
    "Verif.Props.c35_extended",
    "Verif.Props.c35_form_feeds"
   ],
   "note": ""
  },
  {
   "property": "C36",
   "status": "partial",
   "theorems": [
    "Verif.Props.c36_json_lines_partial",
    "Verif.Props.c36_throws_iff",
    "Verif.Props.c36_ids_are_clean",
    "Verif.Props.c36_lines_unit_ignored",
    "Verif.Props.c36_font_name_breaks_json"
   ],
   "note": "Every line parses (RFC 8259) to exactly the expected object, one line per selected element, for documents whose font names contain no quote, backslash or control character; refuted otherwise (font names are not escaped), and the accepted unit 'lines' produces no output. Number formatting by the standard library is assumed to yield JSON numbers."
  },
  {
   "property": "C37",
   "status": "partial",
   "theorems": [
    "Verif.Props.c37_printed_words_partial",
    "Verif.Props.c37_chain_loses_text",
    "Verif.Props.c37_joined_across_roles_loses_text",
    "Verif.Props.c37_only_marks_change"
   ],
   "note": "Exact for every document without chains (single-word lines that both continue and start a hyphenated word); refuted for chains (text is lost) and for a selection of roles that drops the block with the first part."
  },
  {
   "property": "C38",
   "status": "partial",
   "theorems": [
    "Verif.Props.c38_which_marks",
    "Verif.Props.c38_exact",
    "Verif.Props.c38_nothing_lost_partial",
    "Verif.Props.c38_sparse_marks",
    "Verif.Props.c38_two_marks_lose_one",
    "Verif.Props.c38_stacked_marks_lost",
    "Verif.Props.c38_apostrophe_becomes_accent"
   ],
   "note": "Exact characterisation of the merging for every page, no undefined behaviour; nothing is lost if no two marks share a base and no mark is merged with a mark (in particular for marks three or more positions apart); refuted otherwise. utf8proc's composition is uninterpreted."
  },
  {
   "property": "C39",
   "status": "partial",
   "theorems": [
    "Verif.Props.c39_exact",
    "Verif.Props.c39_reader_partial",
    "Verif.Props.c39_turned_text_swapped",
    "Verif.Props.c39_never_both",
    "Verif.Props.c39_base_box"
   ],
   "note": "Flags characterised exactly for every page; they mean what a reader expects for upright text and text turned by 270 degrees; for text turned by 90 or 180 degrees sub- and superscripts are swapped (refuted part)."
  },
  {
   "property": "C40",
   "status": "partial",
   "theorems": [
    "Verif.Props.c40_encoding_unique",
    "Verif.Props.c40_tokens_concatenate",
    "Verif.Props.c40_encode",
    "Verif.Props.c40_history_independent",
    "Verif.Props.c40_length",
    "Verif.Props.c40_nonempty_result_cut",
    "Verif.Props.c40_meta_symbols",
    "Verif.Props.c40_padding_in_vocabulary_clash"
   ],
   "note": "Greedy longest-match encoding is unique, independent of earlier calls and its tokens concatenate to the word; the requested length is that of the whole result vector, so a call with a non-empty vector cuts or pads too little (refuted part); a vocabulary that contains the padding symbol is ambiguous."
  },
  {
   "property": "C41",
   "status": "partial",
   "theorems": [
    "Verif.Props.c41_most_probable_role_partial",
    "Verif.Props.c41_nonpositive_row_is_paragraph",
    "Verif.Props.c41_invalid_role",
    "Verif.Props.c41_missing_rows_undefined"
   ],
   "note": "Proved if the network returns one row of non-negative numbers per block; blocks whose row has no positive number become paragraphs (refuted part), and missing rows are undefined behaviour."
  },
  {
   "property": "C42",
   "status": "proved",
   "theorems": [
    "Verif.Props.c42_role",
    "Verif.Props.c42_type",
    "Verif.Props.c42_format",
    "Verif.Props.c42_jsonl_rejected",
    "Verif.Props.c42_names_round_trip",
    "Verif.Props.c42_format_names",
    "Verif.Props.c42_help_lists"
   ],
   "note": "Finding: the format jsonl (README) has a name but no registered serializer, --format jsonl is an error."
  },
  {
   "property": "C43",
   "status": "proved",
   "theorems": [
    "Verif.Props.c43_printed_iff",
    "Verif.Props.c43_history",
    "Verif.Props.c43_monotone"
   ],
   "note": ""
  },
  {
   "property": "C44",
   "status": "proved",
   "theorems": [
    "Verif.Props.c44_stages",
    "Verif.Props.c44_load_failure"
   ],
   "note": "For arbitrary stages, load results and configurations."
  },
  {
   "property": "C45",
   "status": "partial",
   "theorems": [
    "Verif.Props.c45_skip_options",
    "Verif.Props.c45_skipped_stage_does_not_run",
    "Verif.Props.c45_options_without_effect",
    "Verif.Props.c45_skip_roles_without_effect",
    "Verif.Props.c45_verbosity",
    "Verif.Props.c45_other_options",
    "Verif.Props.c45_debug_hides_trace",
    "Verif.Props.c45_page_filter",
    "Verif.Props.c45_output",
    "Verif.Props.c45_exit_codes",
    "Verif.Props.c45_help",
    "Verif.Props.c45_two_files"
   ],
   "note": "--skip-*, --verbosity, --debug-*, --log-page-filter, --role, --format, --help, the output file and the exit codes are proved to act as documented (--debug-* hides trace messages); --no-dehyphenation, --no-scripts, --control-characters, --semantic-roles and --skip-semantic-roles-prediction are proved to have no effect (refuted part). Boost's tokenisation is not modelled."
  },
  {
   "property": "C46",
   "status": "partial",
   "theorems": [
    "Verif.Props.c46_round_trip_partial",
    "Verif.Props.c46_strict_agrees",
    "Verif.Props.c46_overflow"
   ],
   "note": "Decryption inverts the Adobe cipher for every plain text, key and random bytes if signed overflow wraps; the arithmetic is done in int, so for most inputs the C++ standard calls it undefined (characterised: c46_overflow; c46_strict_agrees shows both readings agree whenever nothing overflows)."
  },
  {
   "property": "C47",
   "status": "proved",
   "theorems": [
    "Verif.Props.c47_numbers",
    "Verif.Props.c47_every_number"
   ],
   "note": ""
  },
  {
   "property": "C48",
   "status": "partial",
   "theorems": [
    "Verif.Props.c48_glyph_box_partial",
    "Verif.Props.c48_pen_in_box",
    "Verif.Props.c48_side_bearing",
    "Verif.Props.c48_seac_has_no_box",
    "Verif.Props.c48_fraction_refuted",
    "Verif.Props.c48_no_side_bearing"
   ],
   "note": "The box is the least one around the outline for every charstring drawn with the path operators, side bearings, hints, subroutines and integer divisions; accented characters (seac) get no box, and division is modelled for integer quotients (refuted parts beside the theorem)."
  },
  {
   "property": "C49",
   "status": "partial",
   "theorems": [
    "Verif.Props.c49_halts_partial",
    "Verif.Props.c49_halts_leaf_subrs_partial",
    "Verif.Props.c49_halts_acyclic_partial",
    "Verif.Props.c49_acyclic_premises",
    "Verif.Props.c49_endless_recursion",
    "Verif.Props.c49_ub_causes_partial",
    "Verif.Props.c49_malformed_fonts",
    "Verif.Props.c49_safe_bytes_partial"
   ],
   "note": "Every charstring without subroutine calls, or whose subroutines do not call each other in a circle, halts; the causes of undefined behaviour are characterised; endless recursion, division by zero, popping an empty stack and reading behind the buffer are shown by concrete fonts (refuted parts)."
  },
  {
   "property": "C50",
   "status": "proved",
   "theorems": [
    "Verif.Props.c50_routing",
    "Verif.Props.c50_exactly_once",
    "Verif.Props.c50_figures",
    "Verif.Props.c50_runs",
    "Verif.Props.c50_no_white_space"
   ],
   "note": "Clip boxes count as equal if no coordinate differs by more than 0.1 (the code's tolerance); the run succeeds on every orderly sequence of events (c50_runs)."
  },
  {
   "property": "C51",
   "status": "proved",
   "theorems": [
    "Verif.Props.c51_font_known",
    "Verif.Props.c51_inherited",
    "Verif.Props.c51_last_font"
   ],
   "note": "The name is the one set by the last font event (c51_last_font); fonts of the same name share the information of the first one."
  },
  {
   "property": "C52",
   "status": "partial",
   "theorems": [
    "Verif.Props.c52_inside_partial",
    "Verif.Props.c52_tight",
    "Verif.Props.c52_nothing_visible_refuted"
   ],
   "note": "Proved for every path with at least one visible point (well-formed, inside the clip box, smallest if the clip box lies at positive coordinates); refuted for paths without a visible point: they become shapes whose box is inside out."
  },
  {
   "property": "C53",
   "status": "proved",
   "theorems": [
    "Verif.Props.c53_glyph_statistics"
   ],
   "note": ""
  },
  {
   "property": "C54",
   "status": "proved",
   "theorems": [
    "Verif.Props.c54_normalised",
    "Verif.Props.c54_nameless",
    "Verif.Props.c54_base",
    "Verif.Props.c54_subsets",
    "Verif.Props.c54_idempotent"
   ],
   "note": ""
  },
  {
   "property": "C55",
   "status": "proved",
   "theorems": [
    "Verif.Props.c55_x_cut_chosen_iff"
   ],
   "note": ""
  },
  {
   "property": "C56",
   "status": "proved",
   "theorems": [
    "Verif.Props.c56_y_cut_justified",
    "Verif.Props.c56_y_cuts_exactly"
   ],
   "note": ""
  },
  {
   "property": "C57",
   "status": "proved",
   "theorems": [
    "Verif.Props.c57_primary_x_page",
    "Verif.Props.c57_primary_y_page",
    "Verif.Props.c57_reading_order",
    "Verif.Props.c57_primary_x_iff",
    "Verif.Props.c57_primary_y_iff",
    "Verif.Props.c57_primary_x_split",
    "Verif.Props.c57_y_cut_justified",
    "Verif.Props.c57_y_cut_chosen",
    "Verif.Props.c57_y_cuts_exactly",
    "Verif.Props.c57_rule_cuts_through_block"
   ],
   "note": "For upright elements with rounded coordinates; lines without thickness that begin exactly at the edge of another element are excepted, with a refuting example (finding: such a rule is taken for a gap)."
  },
  {
   "property": "C58",
   "status": "proved",
   "theorems": [
    "Verif.Props.c58_word_statistics",
    "Verif.Props.c58_line_statistics",
    "Verif.Props.c58_turned_lines_distance_zero"
   ],
   "note": "Finding: the distance of rotated lines is measured along the wrong axis and is 0."
  },
  {
   "property": "C59",
   "status": "partial",
   "theorems": [
    "Verif.Props.c59_features_partial",
    "Verif.Props.c59_float_limits",
    "Verif.Props.c59_row_meaning",
    "Verif.Props.c59_wide_character_undefined",
    "Verif.Props.c59_missing_font_throws",
    "Verif.Props.c59_non_ascii_count"
   ],
   "note": "One row per block with the documented values, all between 0 and 1, whenever every word starts with a character up to U+00FF; other words are undefined behaviour (refuted part). Only the lowest byte decides about 'not ASCII'."
  },
  {
   "property": "C60",
   "status": "partial",
   "theorems": [
    "Verif.Props.c60_destination",
    "Verif.Props.c60_failure_exits_with_success",
    "Verif.Props.c60_root_directory",
    "Verif.Props.c60_shell_injection"
   ],
   "note": "Destination proved for every path and file system; refuted: failures end with exit code 0, files in the root directory are never written, and the path is interpreted by the shell."
  },
  {
   "property": "C61",
   "status": "partial",
   "theorems": [
    "Verif.Props.c61_font_file",
    "Verif.Props.c61_pfb_file",
    "Verif.Props.c61_hex_file",
    "Verif.Props.c61_hex_digits",
    "Verif.Props.c61_binary_unchanged",
    "Verif.Props.c61_header",
    "Verif.Props.c61_header_overflow",
    "Verif.Props.c61_hex_never_read",
    "Verif.Props.c61_hex_overflow",
    "Verif.Props.c61_upper_case_digits"
   ],
   "note": "For files with a binary encrypted part, with or without segment headers, the clear text and the decrypted text are recovered exactly; a hexadecimal encrypted part is always undefined behaviour, and fonts shorter than the announced header are read outside the buffer (refuted parts)."
  },
  {
   "property": "C62",
   "status": "partial",
   "theorems": [
    "Verif.Props.c62_weight",
    "Verif.Props.c62_italic_and_rest",
    "Verif.Props.c62_embedded",
    "Verif.Props.c62_matrix",
    "Verif.Props.c62_long_matrix",
    "Verif.Props.c62_upright_taken_for_italic"
   ],
   "note": "Exact characterisation for every font and font file whose /FontMatrix entries have at most six numbers; refuted: more numbers are written behind the array, and every /ItalicAngle line other than literally '/ItalicAngle 0 def' (for instance with a carriage return, or 0.0) makes the font italic. A /Weight entry overrides the name, also 'black'. Reading a number from a stream is a parameter."
  },
  {
   "property": "C63",
   "status": "partial",
   "theorems": [
    "Verif.Props.c63_pen",
    "Verif.Props.c63_rotation",
    "Verif.Props.c63_upright_box",
    "Verif.Props.c63_choice",
    "Verif.Props.c63_glyph",
    "Verif.Props.c63_well_formed_partial",
    "Verif.Props.c63_upside_down_refuted"
   ],
   "note": "Pen positions, ascent/descent box, glyph box, choice and rotation proved for all states; the metric box is well-formed for text running right, down and up; refuted for text that is upside down: left and right edge are swapped. Poppler's getFontTransMat is specified in Spec/Parsing.lean."
  },
  {
   "property": "C64",
   "status": "partial",
   "theorems": [
    "Verif.Props.c64_recorded_iff",
    "Verif.Props.c64_box",
    "Verif.Props.c64_full_width_refuted",
    "Verif.Props.c64_quarter_turn_refuted"
   ],
   "note": "Recording condition and box characterised exactly for all matrices and clip boxes; refuted: an image that fills the width of its clip box is not recorded, and an image turned by a quarter gets a box without extent."
  },
  {
   "property": "C65",
   "status": "partial",
   "theorems": [
    "Verif.Props.c65_no_failure",
    "Verif.Props.c65_words_preserved",
    "Verif.Props.c65_plain_text_partial",
    "Verif.Props.c65_plain_text_dehyphenated_partial",
    "Verif.Props.c65_incomplete_prints_nothing"
   ],
   "note": "No failure, preservation of the words (with the order of visits around stacked operators, C25) and the empty output of incomplete runs proved for all parsed documents and configurations; the claim about the printed characters is proved under the assumption that stacked operators do not interfere (C25 is refuted otherwise) and, with dehyphenation, that no word is hyphenated twice in a row (C37)."
  },
  {
   "property": "C66",
   "status": "proved",
   "theorems": [
    "Verif.Props.c66_blocks",
    "Verif.Props.c66_lines_centered",
    "Verif.Props.c66_footnote_labels",
    "Verif.Props.c66_hanging_indent"
   ],
   "note": "Hanging indents for fewer than 2^32 lines (the counter is a 32-bit sum). Finding: labels are searched byte by byte (c31_bullet_is_label)."
  },
  {
   "property": "C67",
   "status": "proved",
   "theorems": [
    "Verif.Props.c67_character"
   ],
   "note": "Poppler's graphics state is the event's content; opacity, colour and ids are not modelled."
  },
  {
   "property": "C68",
   "status": "partial",
   "theorems": [
    "Verif.Props.c68_negative_lenIV_refuted",
    "Verif.Props.c68_table_partial",
    "Verif.Props.c68_box_partial",
    "Verif.Props.c68_other_command_refuted",
    "Verif.Props.c68_too_long_refuted",
    "Verif.Props.c68_number_too_large_refuted",
    "Verif.Props.c68_no_failure",
    "Verif.Props.c68_nd_in_data_refuted"
   ],
   "note": "Proved for every private part in which only the entries themselves look like entries and the subroutines' data do not contain the letters ND (with wrap-around decryption, see C46); refuted: fonts that use another reading command than RD yield no glyph at all, ND inside the data cuts the subroutines off, announced lengths beyond the end are read out of bounds, numbers beyond int are an exception."
  },
  {
   "property": "C69",
   "status": "proved",
   "theorems": [
    "Verif.Props.c69_line_content",
    "Verif.Props.c69_lines",
    "Verif.Props.c69_statistics",
    "Verif.Props.c69_segments",
    "Verif.Props.c69_blocks",
    "Verif.Props.c69_page_numbers",
    "Verif.Props.c69_homogeneous",
    "Verif.Props.c69_text_lines",
    "Verif.Props.c69_output",
    "Verif.Props.c69_roles"
   ],
   "note": "For runs with all stages enabled that end with exit code 0 (the only other outcomes are those of C65); glyph boxes rounded, within the page limits; counters below 2^32; the network's output is arbitrary."
  },
  {
   "property": "C70",
   "status": "partial",
   "theorems": [
    "Verif.Props.c70_vocabularies",
    "Verif.Props.c70_every_file",
    "Verif.Props.c70_malformed_number",
    "Verif.Props.c70_unreadable_file_loops",
    "Verif.Props.c70_missing_file",
    "Verif.Props.c70_second_attempt_without_vocabulary",
    "Verif.Props.c70_words_tensor"
   ],
   "note": "Proved for readable files: exact content of both maps, malformed and missing files, words tensor. Refuted: a last line without newline is not read; a file that becomes unreadable (bytes that are no UTF-8, a directory) makes the program run forever; after a failed attempt the same object predicts without vocabulary."
  },
  {
   "property": "C71",
   "status": "proved",
   "theorems": [
    "Verif.Props.c71_xyCut",
    "Verif.Props.c71_segments_cut",
    "Verif.Props.c71_two_segments"
   ],
   "note": "For upright elements with coordinates rounded by the parser (rotated text: see C19)."
  },
  {
   "property": "C72",
   "status": "partial",
   "theorems": [
    "Verif.Props.c72_boxes",
    "Verif.Props.c72_frame_visible",
    "Verif.Props.c72_text",
    "Verif.Props.c72_text_blocks",
    "Verif.Props.c72_reading_order",
    "Verif.Props.c72_single_block_refuted",
    "Verif.Props.c72_cuts",
    "Verif.Props.c72_option_cuts",
    "Verif.Props.c72_option_reading_order",
    "Verif.Props.c72_options",
    "Verif.Props.c72_no_failure",
    "Verif.Props.c72_missing_page",
    "Verif.Props.c72_cut_lines",
    "Verif.Props.c72_document",
    "Verif.Props.c72_segments"
   ],
   "note": "Refuted for a page with a single block: it gets no number (c72_single_block_refuted). Poppler's drawing of annotations, loading and saving are not modelled."
  },
  {
   "property": "C73",
   "status": "partial",
   "theorems": [
    "Verif.Props.c73_patterns_compile",
    "Verif.Props.c73_labels",
    "Verif.Props.c73_words",
    "Verif.Props.c73_superscripts",
    "Verif.Props.c73_document",
    "Verif.Props.c73_long_citation_refuted",
    "Verif.Props.c73_odd_labels_refuted"
   ],
   "note": "The labels are characterised exactly for all texts. Refuted against the documentation: [Enn2020] is not recognised; a dot, empty brackets and brackets that do not fit together are. The recursion depth of std::regex is not modelled."
  },
  {
   "property": "C74",
   "status": "partial",
   "theorems": [
    "Verif.Props.c74_char_map_partial",
    "Verif.Props.c74_broken_refuted",
    "Verif.Props.c74_unambiguous",
    "Verif.Props.c74_in_document_partial"
   ],
   "note": "Proved for all names but five; for these it is refuted: the literals of thumbs_up, thumbs_up_alt, thumbs_down and thumbs_down_alt are a Greek letter followed by a Latin one, and controlNULL has an empty text."
  },
  {
   "property": "C75",
   "status": "partial",
   "theorems": [
    "Verif.Props.c75_pages",
    "Verif.Props.c75_page_sizes",
    "Verif.Props.c75_characters",
    "Verif.Props.c75_parsed",
    "Verif.Props.c75_numbered",
    "Verif.Props.c75_utf8",
    "Verif.Props.c75_no_failure",
    "Verif.Props.c75_full_run",
    "Verif.Props.c75_text_partial"
   ],
   "note": "Proved for text drawn under the clip box of the page; text drawn under another clip box becomes part of a figure and is not printed (refutes the unrestricted claim, C50). Pages with interfering mathematical operators are excluded (C25)."
  },
  {
   "property": "C76",
   "status": "proved",
   "theorems": [
    "Verif.Props.c76_failure_reasons",
    "Verif.Props.c76_jsonl_succeeds"
   ],
   "note": "Assumes that Poppler's coordinates lie between the smallest and largest double value (Drawable) and that std::sort sorts (LibOk). The three reasons are real: c59_wide_character_undefined, c41_missing_rows_undefined."
  },
  {
   "property": "C77",
   "status": "partial",
   "theorems": [
    "Verif.Props.c77_load_failure",
    "Verif.Props.c77_exit_code",
    "Verif.Props.c77_text_partial",
    "Verif.Props.c77_default_text_partial"
   ],
   "note": "Text: proved for text drawn under the clip box of the page (other text becomes part of a figure and is not printed, C50), for pages without interfering operators (C25) and, with dehyphenation, without words hyphenated twice (C37); without these restrictions the claim is false."
  },
  {
   "property": "C78",
   "status": "proved",
   "theorems": [
    "Verif.Props.c78_binary64",
    "Verif.Props.c78_comparisons",
    "Verif.Props.c78_decimals",
    "Verif.Props.c78_round",
    "Verif.Props.c78_comparators",
    "Verif.Props.c78_hull",
    "Verif.Props.c78_overlap_fraction",
    "Verif.Props.c78_overlap_accurate",
    "Verif.Props.c78_gaps",
    "Verif.Props.c78_exact",
    "Verif.Props.c78_between",
    "Verif.Props.c78_huge_refuted"
   ],
   "note": "Above 2^39 the trichotomy of the comparisons fails in double arithmetic (c78_huge_refuted); coordinates of that size do not occur in PDF files. Infinities and NaN are not modelled."
  },
  {
   "property": "C79",
   "status": "proved",
   "theorems": [
    "Verif.Props.c79_order_independent",
    "Verif.Props.c79_same_order",
    "Verif.Props.c79_ties_matter_refuted"
   ],
   "note": "Hypotheses: parsed coordinates, no line without extent at the edge of another element (c57_rule_cuts_through_block). Without the agreement of elements with a common edge the claim is false: c79_ties_matter_refuted (finding)."
  },
  {
   "property": "C80",
   "status": "partial",
   "theorems": [
    "Verif.Props.c80_reads_unique",
    "Verif.Props.c80_file_partial",
    "Verif.Props.c80_no_lengths",
    "Verif.Props.c80_clear_text_only",
    "Verif.Props.c80_covered_partial",
    "Verif.Props.c80_box_partial",
    "Verif.Props.c80_unknown_glyph_partial",
    "Verif.Props.c80_overhang_refuted"
   ],
   "note": "Proved for files in binary form that name the reading command RD (C61, C68), for glyphs without seac and with integer quotients (C48), and for text that runs horizontally or vertically; vertically the outline lies in the box up to a tenth and the rounding. Horizontally the claim is false: c80_overhang_refuted (finding)."
  },
  {
   "property": "C81",
   "status": "partial",
   "theorems": [
    "Verif.Props.c81_words",
    "Verif.Props.c81_segments",
    "Verif.Props.c81_order",
    "Verif.Props.c81_run_partial",
    "Verif.Props.c81_fraction_refuted",
    "Verif.Props.c81_turned_refuted",
    "Verif.Props.c81_any_network_partial",
    "Verif.Props.c81_any_network_premises"
   ],
   "note": "Proved for the whole run, for moves to the right by whole units (any distance downwards), text that is not turned by 90 or 270 degrees, coordinates the program can handle before and after, words with less than 2^32 characters, and under the assumption that the network predicts the same roles in both runs (its features contain positions relative to the page); whatever the network predicts, only the order and the roles of the blocks can be different (c81_any_network_partial). Otherwise the claim is false: a move by a fifth of a unit merges three paragraphs (c81_fraction_refuted), and the trim box of turned text follows the wrong direction (c81_turned_refuted)."
  },
  {
   "property": "C82",
   "status": "partial",
   "theorems": [
    "Verif.Props.c82_released",
    "Verif.Props.c82_no_use_after_release",
    "Verif.Props.c82_nothing_left",
    "Verif.Props.c82_leak_refuted",
    "Verif.Props.c82_order_permutes"
   ],
   "note": "Proved: no double release, no use after a release, for every history of creations cut off at any point; exactly the objects that were handed over to no owner stay allocated, and their number is exact. The part that nothing stays allocated is false: merged hyphenated words, merged text lines, and the trial cuts of the cut choosers have no owner (c82_leak_refuted). That every block appears once in the new reading order is a hypothesis of the theorem on histories and is proved of the modelled stage (c82_order_permutes). Objects that are not part of the document (logger, serializers, Poppler's) are not modelled."
  },
  {
   "property": "C83",
   "status": "proved",
   "theorems": [
    "Verif.Props.c83_pages",
    "Verif.Props.c83_text",
    "Verif.Props.c83_hyphen_refuted",
    "Verif.Props.c83_statistics_refuted",
    "Verif.Props.c83_pages_in_front_refuted"
   ],
   "note": "The premises are necessary: a hyphen at the end joins the words over the page break (c83_hyphen_refuted), changed statistics change the paragraphs before (c83_statistics_refuted). Pages put in front do change the pages behind them, even with equal statistics: footnote labels are collected over the pages in order (c83_pages_in_front_refuted)."
  },
  {
   "property": "C84",
   "status": "partial",
   "theorems": [
    "Verif.Props.c84_paragraphs_partial",
    "Verif.Props.c84_words",
    "Verif.Props.c84_characters",
    "Verif.Props.c84_hyphen_refuted"
   ],
   "note": "Words and characters are proved without restriction (font names without quotes, see C36). The paragraphs are proved for documents in which no line ends with a hyphenated word, or without dehyphenation; otherwise the claim is false: the plain text joins the parts, the JSONL output keeps the hyphen and a blank (c84_hyphen_refuted)."
  },
  {
   "property": "C85",
   "status": "partial",
   "theorems": [
    "Verif.Props.c85_help_page",
    "Verif.Props.c85_help_undefined",
    "Verif.Props.c85_messages",
    "Verif.Props.c85_complete",
    "Verif.Props.c85_switches_read",
    "Verif.Props.c85_choices",
    "Verif.Props.c85_width_refuted"
   ],
   "note": "Proved, including the real option tables; the intended width of 100 characters is refuted (c85_width_refuted: a line of 102 characters, because wrap ignores the indent for the last line). That a switch is read does not mean it has an effect (C45). Boost's tokenisation (for example the guessing of abbreviated names) is not modelled."
  },
  {
   "property": "C86",
   "status": "proved",
   "theorems": [
    "Verif.Props.c86_dehyphenation",
    "Verif.Props.c86_unjoined",
    "Verif.Props.c86_reading_order",
    "Verif.Props.c86_premises"
   ],
   "note": "The switches are the private options --skip-words-dehyphenation and --skip-reading-order-detection (or the configuration in the API); the public option --no-dehyphenation is ignored (C45)."
  },
  {
   "property": "C87",
   "status": "proved",
   "theorems": [
    "Verif.Props.c87_links",
    "Verif.Props.c87_text",
    "Verif.Props.c87_prefixes",
    "Verif.Props.c87_collision_refuted"
   ],
   "note": "The stages do not read the ids; the model of the stages leaves them out, and the theorem takes any document that is the finished document apart from ids, colours and page sizes. The ids may collide (c87_collision_refuted), so their distinctness is a premise. Font names must be free of quotes and the like (C36)."
  },
  {
   "property": "C88",
   "status": "partial",
   "theorems": [
    "Verif.Props.c88_percent",
    "Verif.Props.c88_sum",
    "Verif.Props.c88_percent_refuted",
    "Verif.Props.c88_text",
    "Verif.Props.c88_aligned_partial",
    "Verif.Props.c88_aligned_refuted",
    "Verif.Props.c88_only_adds",
    "Verif.Props.c88_steps",
    "Verif.Props.c88_stdout_refuted"
   ],
   "note": "Refuted parts: a run in which every step takes less than a millisecond has no percentages but 0 / 0 (c88_percent_refuted); the durations are not aligned for five of the program's own steps (c88_aligned_refuted); the report goes to standard output behind the extracted text, so a reader of the text gets it, too (c88_stdout_refuted)."
  },
  {
   "property": "C89",
   "status": "partial",
   "theorems": [
    "Verif.Props.c89_text",
    "Verif.Props.c89_jsonl",
    "Verif.Props.c89_program",
    "Verif.Props.c89_font_refuted",
    "Verif.Props.c89_shorten_refuted"
   ],
   "note": "Premises: the composition of a base character with its mark (utf8proc) gives UTF-8; the code points of the characters are Unicode scalar values (the model's characters can't be lone surrogates, which Poppler would encode, too). Refuted parts: a font name that is not UTF-8 makes the JSONL output invalid (c89_font_refuted); shortening a text for the log cuts characters apart (c89_shorten_refuted)."
  },
  {
   "property": "C90",
   "status": "proved",
   "theorems": [
    "Verif.Props.c90_text",
    "Verif.Props.c90_reordered",
    "Verif.Props.c90_roles_only",
    "Verif.Props.c90_unused",
    "Verif.Props.c90_premises_predicted",
    "Verif.Props.c90_premises",
    "Verif.Props.c90_order_refuted"
   ],
   "note": "Premises: the library contract; for the second part sorting looks at positions only (std::sort with the program's comparators does). Refuted part: a block predicted to be the title is read at another place (c90_order_refuted), so the text as a whole does depend on the prediction."
  },
  {
   "property": "C91",
   "status": "partial",
   "theorems": [
    "Verif.Props.c91_boxes",
    "Verif.Props.c91_contains",
    "Verif.Props.c91_region",
    "Verif.Props.c91_characters_partial",
    "Verif.Props.c91_records",
    "Verif.Props.c91_segments_partial",
    "Verif.Props.c91_upside_down_refuted",
    "Verif.Props.c91_premises"
   ],
   "note": "Boxes, containment of lines and words, and regions are proved for all documents. That a word (and so its line, block and segment) contains its characters is proved for characters with well-formed boxes, and refuted for text that is upside down (c91_upside_down_refuted: the parser records such boxes inside out, C63, and the word, line and block are too small). Segments contain their lines if no word is attached to an operator."
  },
  {
   "property": "C92",
   "status": "partial",
   "theorems": [
    "Verif.Props.c92_upright",
    "Verif.Props.c92_upside_down",
    "Verif.Props.c92_turned_partial",
    "Verif.Props.c92_consecutive",
    "Verif.Props.c92_printed",
    "Verif.Props.c92_turned_refuted",
    "Verif.Props.c92_mixed_refuted",
    "Verif.Props.c92_premises"
   ],
   "note": "Proved for upright text and text standing on its head. For text turned by 90 degrees only the direction within a line is right: the lines are sorted from left to right although the right one is the first (c92_turned_refuted), and lines beside each other that overlap vertically are mixed up (c92_mixed_refuted); what the code does for turned text is c92_turned_partial."
  },
  {
   "property": "C93",
   "status": "partial",
   "theorems": [
    "Verif.Props.c93_same",
    "Verif.Props.c93_roles_only",
    "Verif.Props.c93_premises",
    "Verif.Props.c93_refuted"
   ],
   "note": "Proved for every run with reading order detection (the roles are predicted there, and every block gets one). If it is switched off, the roles of all blocks are left uninitialised (c93_refuted); then the document is the same in everything else, and so are the plain text and the JSONL output without blocks if all roles are printed (c93_roles_only)."
  },
  {
   "property": "C94",
   "status": "proved",
   "theorems": [
    "Verif.Props.c94_result",
    "Verif.Props.c94_text",
    "Verif.Props.c94_records",
    "Verif.Props.c94_premises",
    "Verif.Props.c94_roles_refuted"
   ],
   "note": "The premise on the roles is necessary: the network is given the page number in relation to the number of pages, so that a page without text may change the roles of all paragraphs before it (c94_roles_refuted). It holds when reading order detection is off. In contrast to C83, a hyphen at the end of the last word does no harm."
  },
  {
   "property": "C95",
   "status": "proved",
   "theorems": [
    "Verif.Props.c95_short",
    "Verif.Props.c95_long",
    "Verif.Props.c95_one_line",
    "Verif.Props.c95_closed",
    "Verif.Props.c95_semicolon_refuted"
   ],
   "note": "Quotes in texts are not escaped; still the descriptions can be read unambiguously because the text is the only part of unknown form, also for text lines, where it comes first (read from the end). With a semicolon in a font name this fails (c95_semicolon_refuted). PdfPageSegment::toString lacks the closing parenthesis (part of c95_closed)."
  },
  {
   "property": "C96",
   "status": "proved",
   "theorems": [
    "Verif.Props.c96_words",
    "Verif.Props.c96_characters",
    "Verif.Props.c96_blocks",
    "Verif.Props.c96_detection_order",
    "Verif.Props.c96_lines",
    "Verif.Props.c96_file",
    "Verif.Props.c96_run",
    "Verif.Props.c96_premises",
    "Verif.Props.c96_output_order_refuted",
    "Verif.Props.c96_figures_refuted"
   ],
   "note": "c96_run combines the parts for complete runs on the drawing operations of a file. The rank of a block is not its position in the output when the reading order was detected (c96_output_order_refuted), and figures never get a rank, they are printed with rank -1 (c96_figures_refuted). The ranks of shapes are not modelled beyond the parser (C50)."
  },
  {
   "property": "C97",
   "status": "proved",
   "theorems": [
    "Verif.Props.c97_roles",
    "Verif.Props.c97_records",
    "Verif.Props.c97_more_roles",
    "Verif.Props.c97_program",
    "Verif.Props.c97_exit_code",
    "Verif.Props.c97_premises"
   ],
   "note": "c97_roles and c97_records for documents, c97_program and c97_exit_code for calls of the program (with the formats that the command line offers, txt and txt-extended). An empty list of roles prints nothing (C34)."
  },
  {
   "property": "C98",
   "status": "proved",
   "theorems": [
    "Verif.Props.c98_counter",
    "Verif.Props.c98_counters",
    "Verif.Props.c98_tables",
    "Verif.Props.c98_segments",
    "Verif.Props.c98_ties_refuted",
    "Verif.Props.c98_directions_refuted",
    "Verif.Props.c98_formulas_refuted",
    "Verif.Props.c98_premises",
    "Verif.Props.c98_segments_premises"
   ],
   "note": "c98_counter and c98_counters: no other counter than one with a tie is sensitive to the order (all documents, all outcomes). c98_tables covers the other tables for pages in one direction; on pages that mix directions each segment has the same lines direction by direction (c98_segments); that the directions come in the same order is refuted by c98_directions_refuted (the paragraphs are printed in another order), ties by c98_ties_refuted (the same lines are one paragraph or two) and c98_formulas_refuted (two words change places)."
  },
  {
   "property": "C99",
   "status": "proved",
   "theorems": [
    "Verif.Props.c99_hyphens",
    "Verif.Props.c99_paragraphs",
    "Verif.Props.c99_paragraph",
    "Verif.Props.c99_premises",
    "Verif.Props.c99_premises_paragraphs",
    "Verif.Props.c99_premises_hyphens",
    "Verif.Props.c99_places",
    "Verif.Props.c99_joined",
    "Verif.Props.c99_jsonl",
    "Verif.Props.c99_program",
    "Verif.Props.c99_premises_program"
   ],
   "note": "c99_hyphens: all stages from the characters to the printed text, with the division into paragraphs and the joining of hyphenated words (c99_joined: the joined words are those of C37's specification); c99_places: the corners of the boxes of the words, lines and blocks; c99_jsonl: the records of the paragraphs, words and characters in the JSONL output (numbers printed by an arbitrary printer of JSON numbers); c99_paragraphs: without hyphenated words; c99_paragraph: one justified paragraph, with weaker premises. c99_program: what the whole program writes for a PDF file with such a page. Exact spacing and a font size of 10: other spacings and sizes are not covered (the parser gives characters of size 10 the height 13, unless the embedded font file has glyphs that stick out, as in c99_premises_program). The identities, ranks, glyph names and baselines (the same within a row) of the characters are arbitrary (Marks). c99_premises_program is a PDF file with a paragraph of three rows, c99_premises is a paragraph of three rows, c99_premises_paragraphs a page with two paragraphs, c99_premises_hyphens one with two hyphenated words."
  }
 ]
}