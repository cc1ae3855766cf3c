{
 "claims": [
  {
   "property": "C01",
   "status": "proved",
   "theorems": [
    "Swrs.c01_decrypt_encrypt"
   ],
   "note": ""
  },
  {
   "property": "C02",
   "status": "proved",
   "theorems": [
    "Swrs.c02_length"
   ],
   "note": ""
  },
  {
   "property": "C03",
   "status": "proved",
   "theorems": [
    "Swrs.c03_total",
    "Swrs.c03_bad_length",
    "Swrs.c03_shorter"
   ],
   "note": ""
  },
  {
   "property": "C04",
   "status": "proved",
   "theorems": [
    "Swrs.c04_injective"
   ],
   "note": ""
  },
  {
   "property": "C05",
   "status": "proved",
   "theorems": [
    "Swrs.c05_encrypt_file",
    "Swrs.c05_unreadable",
    "Swrs.c05_outcomes",
    "Swrs.c05_encrypt_sw_file",
    "Swrs.c05_files"
   ],
   "note": ""
  },
  {
   "property": "C06",
   "status": "partial",
   "theorems": [
    "Swrs.c06_crash_false",
    "Swrs.c06_crash_partial",
    "Swrs.c06_in_place_partial"
   ],
   "note": "False of the code when encrypting in place: the file is truncated before the ciphertext is written (c06_crash_false). Proved when the target differs from the source; in place the exact set of states a crash can leave is given."
  },
  {
   "property": "C07",
   "status": "proved",
   "theorems": [
    "Swrs.c07_loads",
    "Swrs.c07_round_trip",
    "Swrs.c07_fails"
   ],
   "note": ""
  },
  {
   "property": "C08",
   "status": "proved",
   "theorems": [
    "Swrs.Color.c08_channels",
    "Swrs.Color.c08_value"
   ],
   "note": ""
  },
  {
   "property": "C09",
   "status": "proved",
   "theorems": [
    "Swrs.Color.c09_accepts",
    "Swrs.Color.c09_six_digits",
    "Swrs.Color.c09_print_parse"
   ],
   "note": ""
  },
  {
   "property": "C10",
   "status": "partial",
   "theorems": [
    "Swrs.Color.c10_round_trip",
    "Swrs.Color.c10_clamp_partial",
    "Swrs.Color.c10_unsigned_not_accepted",
    "Swrs.Color.c10_u64_wraps",
    "Swrs.c10_any_integer_false",
    "Swrs.c10_beyond"
   ],
   "note": "False of the code for 2^63 <= n < 2^64, which wrap around before they are clamped (c10_any_integer_false, c10_u64_wraps), and for numbers beyond the range of f64, which are errors. Proved: the round trip of every colour (c10_round_trip), clamping for all i64 numbers (c10_clamp_partial) and for all other whole numbers that are read (c10_beyond: all up to 10^308, none from 10^309 on). Missing: the numbers for which the property is false."
  },
  {
   "property": "C11",
   "status": "proved",
   "theorems": [
    "Swrs.Api.c11_category_of_color",
    "Swrs.Api.c11_palette_only",
    "Swrs.Api.c11_alpha",
    "Swrs.Api.c11_block_category"
   ],
   "note": ""
  },
  {
   "property": "C12",
   "status": "proved",
   "theorems": [
    "Swrs.c12_records"
   ],
   "note": ""
  },
  {
   "property": "C13",
   "status": "proved",
   "theorems": [
    "Swrs.c13_records_by_key",
    "Swrs.c13_resource_item"
   ],
   "note": "The project record is C82, because it keeps unclaimed members for its flattened field and is stricter about them."
  },
  {
   "property": "C14",
   "status": "partial",
   "theorems": [
    "Swrs.c14_calendar",
    "Swrs.c14_calendar_inverse",
    "Swrs.c14_reads_padded",
    "Swrs.c14_date_round_trip_false",
    "Swrs.c14_date_round_trip_partial"
   ],
   "note": "False of the code: the writer does not zero-pad the date (c14_date_round_trip_false). The partial theorem gives the exact set of dates that survive; calendar inverse and reading of padded dates proved in full."
  },
  {
   "property": "C15",
   "status": "partial",
   "theorems": [
    "Swrs.c15_project_round_trip_false",
    "Swrs.c15_project_round_trip_partial",
    "Swrs.c15_reads_sketchware",
    "Swrs.c15_reconstruct_panics"
   ],
   "note": "False of the code because of the date (c15_project_round_trip_false). The partial theorem gives the exact condition."
  },
  {
   "property": "C16",
   "status": "proved",
   "theorems": [
    "Swrs.c16_activity_options"
   ],
   "note": ""
  },
  {
   "property": "C17",
   "status": "partial",
   "theorems": [
    "Swrs.c17_file_round_trip_false",
    "Swrs.c17_file_round_trip_partial"
   ],
   "note": "False of the code when there are custom views and no activity (refuted by c17_file_round_trip_false); the partial theorem gives the exact condition."
  },
  {
   "property": "C18",
   "status": "proved",
   "theorems": [
    "Swrs.c18_resource_round_trip"
   ],
   "note": ""
  },
  {
   "property": "C19",
   "status": "proved",
   "theorems": [
    "Swrs.c19_library_round_trip"
   ],
   "note": ""
  },
  {
   "property": "C20",
   "status": "proved",
   "theorems": [
    "Swrs.c20_library_parse",
    "Swrs.c20_library_no_panic",
    "Swrs.c20_any_order"
   ],
   "note": ""
  },
  {
   "property": "C21",
   "status": "partial",
   "theorems": [
    "Swrs.c21_view_round_trip_partial",
    "Swrs.c21_view_reads_back",
    "Swrs.c21_view_round_trip_false"
   ],
   "note": "False of the code for the fixed sizes -1 and -2 (c21_view_round_trip_false). The partial theorem gives the exact condition."
  },
  {
   "property": "C22",
   "status": "partial",
   "theorems": [
    "Swrs.c22_view_file_round_trip_partial",
    "Swrs.c22_view_file_round_trip_false",
    "Swrs.c22_view_file_loss",
    "Swrs.c22_reads_separated"
   ],
   "note": "False of the code: the writer puts no blank line between layouts (c22_view_file_round_trip_false). The partial theorem gives the exact condition; c22_reads_separated shows the reader is right on separated files."
  },
  {
   "property": "C23",
   "status": "proved",
   "theorems": [
    "Swrs.c23_variable_round_trip",
    "Swrs.c23_variable_accepts",
    "Swrs.c23_variable_error",
    "Swrs.c23_list_variable_error"
   ],
   "note": ""
  },
  {
   "property": "C24",
   "status": "partial",
   "theorems": [
    "Swrs.c24_variable_pool_partial",
    "Swrs.c24_variable_pool_false"
   ],
   "note": "False of the code: a trailing blank of the last name is trimmed away, a line break splits a name (c24_variable_pool_false). The partial theorem gives the exact condition."
  },
  {
   "property": "C25",
   "status": "partial",
   "theorems": [
    "Swrs.c25_moreblock_pool_partial",
    "Swrs.c25_moreblock_pool_false",
    "Swrs.c25_moreblock_error"
   ],
   "note": "False of the code: ids with a colon, line breaks, outer blanks (c25_moreblock_pool_false). The partial theorem gives the exact condition."
  },
  {
   "property": "C26",
   "status": "proved",
   "theorems": [
    "Swrs.c26_pools_round_trip"
   ],
   "note": ""
  },
  {
   "property": "C27",
   "status": "partial",
   "theorems": [
    "Swrs.c27_header_round_trip_partial",
    "Swrs.c27_header_round_trip_false",
    "Swrs.c27_header_error"
   ],
   "note": "False of the code for names containing .java_ (c27_header_round_trip_false). The partial theorem gives the exact condition."
  },
  {
   "property": "C28",
   "status": "partial",
   "theorems": [
    "Swrs.c28_logic_round_trip_partial",
    "Swrs.c28_empty_screen_false",
    "Swrs.c28_gap_false"
   ],
   "note": "False of the code: empty screens are lost (c28_empty_screen_false) and a screen without block containers cuts the file before later containers (c28_gap_false). The partial theorem gives the exact condition for every logic (c28_LogicOk, spelled out: keys, line breaks, white space at the ends, colons, ids that look like pool headers, empty and misplaced screens); the only hypothesis is that map keys are distinct, which holds by the types of the code."
  },
  {
   "property": "C29",
   "status": "partial",
   "theorems": [
    "Swrs.c29_no_panic_false",
    "Swrs.c29_no_panic_partial"
   ],
   "note": "False of the code: @java_var panics (c29_no_panic_false). The partial theorem gives the exact set of panicking texts."
  },
  {
   "property": "C30",
   "status": "proved",
   "theorems": [
    "Swrs.c30_error_location",
    "Swrs.c30_good_lines"
   ],
   "note": ""
  },
  {
   "property": "C31",
   "status": "proved",
   "theorems": [
    "Swrs.c31_last_declaration"
   ],
   "note": ""
  },
  {
   "property": "C32",
   "status": "proved",
   "theorems": [
    "Swrs.Api.c32_find",
    "Swrs.Api.c32_found",
    "Swrs.Api.c32_update"
   ],
   "note": ""
  },
  {
   "property": "C33",
   "status": "proved",
   "theorems": [
    "Swrs.Api.c33_accepts",
    "Swrs.Api.c33_error",
    "Swrs.Api.c33_tree",
    "Swrs.Api.c33_children"
   ],
   "note": ""
  },
  {
   "property": "C34",
   "status": "proved",
   "theorems": [
    "Swrs.Api.c34_read_back",
    "Swrs.Api.c34_round_trip",
    "Swrs.Api.c34_again"
   ],
   "note": ""
  },
  {
   "property": "C35",
   "status": "proved",
   "theorems": [
    "Swrs.Api.c35_fields",
    "Swrs.Api.c35_entries",
    "Swrs.Api.c35_order"
   ],
   "note": ""
  },
  {
   "property": "C36",
   "status": "partial",
   "theorems": [
    "Swrs.Api.c36_type_id_partial",
    "Swrs.Api.c36_written_partial",
    "Swrs.Api.c36_type_id_false",
    "Swrs.Api.c36_written_false"
   ],
   "note": "Refuted by two witnesses: the type ids of the types 12 to 18 differ from the types, and an edited view type does not change the type written. The partial theorems give the exact types for which it holds and exactly what type and parent type are written."
  },
  {
   "property": "C37",
   "status": "proved",
   "theorems": [
    "Swrs.Api.c37_api_round_trip",
    "Swrs.Api.c37_file_round_trip",
    "Swrs.Api.c37_refused"
   ],
   "note": ""
  },
  {
   "property": "C38",
   "status": "partial",
   "theorems": [
    "Swrs.Api.c38_api_round_trip",
    "Swrs.Api.c38_file_round_trip_partial",
    "Swrs.Api.c38_file_round_trip_false",
    "Swrs.Api.c38_refused"
   ],
   "note": "The API round trip is proved for every event. The file round trip is refuted by a witness (view events lose the target type, activity events the target); the partial theorem gives what is kept."
  },
  {
   "property": "C39",
   "status": "partial",
   "theorems": [
    "Swrs.Api.c39_containers_partial",
    "Swrs.Api.c39_clash_partial",
    "Swrs.Api.c39_views",
    "Swrs.Api.c39_containers_false"
   ],
   "note": "Refuted by two different events with one container id; c39_clash_partial is the exact condition for every pair of events."
  },
  {
   "property": "C40",
   "status": "proved",
   "theorems": [
    "Swrs.Api.c40_get",
    "Swrs.Api.c40_getters",
    "Swrs.Api.c40_remove",
    "Swrs.Api.c40_put",
    "Swrs.Api.c40_history",
    "Swrs.Api.c40_distinct"
   ],
   "note": ""
  },
  {
   "property": "C41",
   "status": "partial",
   "theorems": [
    "Swrs.Api.c41_taken_partial",
    "Swrs.Api.c41_unchanged",
    "Swrs.Api.c41_taken_false"
   ],
   "note": "False for ids of sounds and fonts: c41_taken_false. put_resource looks only at the images; c41_taken_partial is the exact condition."
  },
  {
   "property": "C42",
   "status": "partial",
   "theorems": [
    "Swrs.Api.c42_canonical",
    "Swrs.Api.c42_underscore",
    "Swrs.Api.c42_names",
    "Swrs.Api.c42_words",
    "Swrs.Api.c42_shape",
    "Swrs.Api.c42_injective_partial",
    "Swrs.Api.c42_injective_false"
   ],
   "note": "False: names that differ by an underscore, an upper-case letter after one, or an underscore before a digit are one activity (`c42_injective_false`, witness `a_1` and `a1`); every name `s` is confused with `s_` (`c42_underscore`). Exactly: each name has the activity name of one and only one canonical name, one without upper-case letters in which each underscore stands between a character and a lower-case letter (`c42_canonical`); so the mapping is injective on these (`c42_injective_partial` says it for names of lower-case words). The activity names are the texts without underscore that do not begin with a lower-case letter (`c42_names`)."
  },
  {
   "property": "C43",
   "status": "proved",
   "theorems": [
    "Swrs.Api.c43_terminates",
    "Swrs.Api.c43_accepts",
    "Swrs.Api.c43_once",
    "Swrs.Api.c43_size"
   ],
   "note": ""
  },
  {
   "property": "C44",
   "status": "proved",
   "theorems": [
    "Swrs.Api.c44_ids",
    "Swrs.Api.c44_distinct",
    "Swrs.Api.c44_converts"
   ],
   "note": "The ids are counted with natural numbers; C99 shows that the u32 of the code gives the same container for less than 2^32 - 10 blocks, and panics (with overflow checks) beyond."
  },
  {
   "property": "C45",
   "status": "partial",
   "theorems": [
    "Swrs.Api.c45_chain_partial",
    "Swrs.Api.c45_chain_false",
    "Swrs.Api.c45_chain_iff"
   ],
   "note": "False of the code for containers in which the last top-level block has an id of 2^31 or more: ids are written as i32 pointers, which become negative (c45_chain_false). c45_chain_iff is the exact condition for all containers that have u32 ids; c45_chain_partial is the simple case of up to 2^31 - 10 blocks."
  },
  {
   "property": "C46",
   "status": "partial",
   "theorems": [
    "Swrs.Api.c46_substacks_partial",
    "Swrs.Api.c46_arguments_partial",
    "Swrs.Api.c46_substacks_false",
    "Swrs.Api.c46_arguments_false"
   ],
   "note": "False of the code: a pointer to a substack or an argument is the id of the last block made of it (c46_*_false); the partial theorems say which pointers are written for every block and when they are the head's."
  },
  {
   "property": "C47",
   "status": "partial",
   "theorems": [
    "Swrs.Api.c47_round_trip_partial",
    "Swrs.Api.c47_round_trip_false"
   ],
   "note": "False of the code (c47_round_trip_false); c47_round_trip_partial is an exact characterisation of the lists of blocks that read back."
  },
  {
   "property": "C48",
   "status": "partial",
   "theorems": [
    "Swrs.Api.c48_text_then_parse_partial",
    "Swrs.Api.c48_parse_then_text_partial",
    "Swrs.Api.c48_text_then_parse_false",
    "Swrs.Api.c48_parse_then_text_false",
    "Swrs.Api.c48_accepts"
   ],
   "note": "False of the code in both directions (c48_text_then_parse_false, c48_parse_then_text_false). The partial theorems give the exact condition of each direction."
  },
  {
   "property": "C49",
   "status": "proved",
   "theorems": [
    "Swrs.Api.c49_take",
    "Swrs.Api.c49_apply",
    "Swrs.Api.c49_apply_fails"
   ],
   "note": ""
  },
  {
   "property": "C50",
   "status": "partial",
   "theorems": [
    "Swrs.Api.c50_panics_partial",
    "Swrs.Api.c50_args_panics_partial",
    "Swrs.Api.c50_panics_false",
    "Swrs.Api.c50_plain"
   ],
   "note": "False of the code: a lone % panics (c50_panics_false). The partial theorems give the exact set of panicking specs, with and without arguments."
  },
  {
   "property": "C51",
   "status": "partial",
   "theorems": [
    "Swrs.Api.c51_letters",
    "Swrs.Api.c51_refused",
    "Swrs.Api.c51_round_trip_partial",
    "Swrs.Api.c51_round_trip_false",
    "Swrs.Api.c51_text",
    "Swrs.Api.c51_list_elements"
   ],
   "note": "False of the code: list types lose their type name (c51_round_trip_false). The partial theorem gives the exact condition; the accepted letters are proved in full."
  },
  {
   "property": "C52",
   "status": "proved",
   "theorems": [
    "Swrs.Api.c52_libraries",
    "Swrs.Api.c52_settings"
   ],
   "note": ""
  },
  {
   "property": "C53",
   "status": "partial",
   "theorems": [
    "Swrs.Api.c53_enabled",
    "Swrs.Api.c53_error_partial",
    "Swrs.Api.c53_refused",
    "Swrs.Api.c53_order_false"
   ],
   "note": "False as stated: errors of screens and custom views come before (c53_order_false). c53_error_partial is the exact condition for the error; c53_enabled and c53_refused hold for all projects."
  },
  {
   "property": "C54",
   "status": "partial",
   "theorems": [
    "Swrs.Api.c54_files_lost",
    "Swrs.Api.c54_no_files_written",
    "Swrs.Api.c54_names_partial",
    "Swrs.Api.c54_names_iff",
    "Swrs.Api.c54_reload_fails",
    "Swrs.Api.c54_files_false",
    "Swrs.Api.c54_reload_false"
   ],
   "note": "False: c54_files_false and c54_reload_false, and for every project c54_files_lost and c54_reload_fails. c54_names_iff: names and full names of a section survive exactly if the names are distinct and the used files have the full names they are stored under."
  },
  {
   "property": "C55",
   "status": "partial",
   "theorems": [
    "Swrs.Api.c55_found_partial",
    "Swrs.Api.c55_lost",
    "Swrs.Api.c55_names",
    "Swrs.Api.c55_found_false",
    "Swrs.Api.c55_reads",
    "Swrs.Api.c55_own_iff"
   ],
   "note": "False as stated (c55_found_false): a screen that had no logic in the file is named after its layout, its logic is written under that name and not found again; c55_lost says what is lost, c55_names which screens are affected. c55_reads says for every project and every screen which logic it is read from, and c55_own_iff that all are read from their own exactly if every screen has the class name looked for and the names are distinct."
  },
  {
   "property": "C56",
   "status": "partial",
   "theorems": [
    "Swrs.Api.c56_attached_partial",
    "Swrs.Api.c56_dropped",
    "Swrs.Api.c56_dropped_false"
   ],
   "note": "False as stated (c56_dropped_false): a container that no event or moreblock refers to is dropped, and c56_dropped says that it makes no difference at all. Proved: the containers that are attached are exactly those referred to."
  },
  {
   "property": "C57",
   "status": "proved",
   "theorems": [
    "Swrs.c57_sorted",
    "Swrs.c57_rejects",
    "Swrs.c57_round_trip"
   ],
   "note": ""
  },
  {
   "property": "C58",
   "status": "partial",
   "theorems": [
    "Swrs.c58_panics",
    "Swrs.c58_parts",
    "Swrs.c58_parse",
    "Swrs.c58_first_error",
    "Swrs.c58_project_round_trip_partial",
    "Swrs.c58_encrypted",
    "Swrs.c58_project_round_trip_false"
   ],
   "note": "False of the code (c58_project_round_trip_false, a parsed project whose reconstruction panics). The partial theorem gives the exact condition in terms of C15, C17, C22 and C28 (now without any hypothesis on the parts of the logic); encryption in between is proved in full."
  },
  {
   "property": "C59",
   "status": "partial",
   "theorems": [
    "Swrs.Api.c59_round_trip_partial",
    "Swrs.Api.c59_fab_children",
    "Swrs.Api.c59_round_trip_false"
   ],
   "note": "False as stated (c59_round_trip_false). c59_round_trip_partial gives the exact condition under which a screen survives."
  },
  {
   "property": "C60",
   "status": "proved",
   "theorems": [
    "Swrs.c60_view_no_panic",
    "Swrs.c60_reports",
    "Swrs.c60_error_location"
   ],
   "note": ""
  },
  {
   "property": "C61",
   "status": "proved",
   "theorems": [
    "Swrs.Api.c61_round_trip",
    "Swrs.Api.c61_automatic"
   ],
   "note": ""
  },
  {
   "property": "C62",
   "status": "proved",
   "theorems": [
    "Swrs.c62_resource",
    "Swrs.c62_file",
    "Swrs.c62_library",
    "Swrs.c62_component",
    "Swrs.c62_event",
    "Swrs.c62_block",
    "Swrs.c62_project",
    "Swrs.c62_view"
   ],
   "note": ""
  },
  {
   "property": "C63",
   "status": "proved",
   "theorems": [
    "Swrs.c63_resource",
    "Swrs.c63_file",
    "Swrs.c63_library",
    "Swrs.c63_layout",
    "Swrs.c63_view",
    "Swrs.c63_variable",
    "Swrs.c63_list_variable",
    "Swrs.c63_more_block",
    "Swrs.c63_variables",
    "Swrs.c63_list_variables",
    "Swrs.c63_more_blocks",
    "Swrs.c63_events",
    "Swrs.c63_components",
    "Swrs.c63_logic"
   ],
   "note": ""
  },
  {
   "property": "C64",
   "status": "proved",
   "theorems": [
    "Swrs.c64_encrypt",
    "Swrs.c64_length",
    "Swrs.c64_decrypt"
   ],
   "note": ""
  },
  {
   "property": "C65",
   "status": "partial",
   "theorems": [
    "Swrs.c65_constants",
    "Swrs.c65_reported_false",
    "Swrs.c65_reported_partial",
    "Swrs.c65_default"
   ],
   "note": "False as stated: LEFT and RIGHT contain the bit of CENTER_HORIZONTAL, TOP and BOTTOM that of CENTER_VERTICAL, so a gravity that is only LEFT also reports center_horizontal (c65_reported_false). c65_reported_partial gives the exact condition for every accessor."
  },
  {
   "property": "C66",
   "status": "proved",
   "theorems": [
    "Swrs.c66_count",
    "Swrs.c66_view"
   ],
   "note": ""
  },
  {
   "property": "C67",
   "status": "proved",
   "theorems": [
    "Swrs.c67_file",
    "Swrs.c67_resource",
    "Swrs.c67_file_error",
    "Swrs.c67_library"
   ],
   "note": ""
  },
  {
   "property": "C68",
   "status": "partial",
   "theorems": [
    "Swrs.c68_library_line_false",
    "Swrs.c68_library_line_partial"
   ],
   "note": "The property is false: the counter only counts calls of the outer loop, so the number reported is the zero-based line of the header less the number of sections before it (library reader consumes two lines per section). The partial theorem gives the exact number."
  },
  {
   "property": "C69",
   "status": "proved",
   "theorems": [
    "Swrs.Logic.c69_sections_only",
    "Swrs.Logic.c69_ok",
    "Swrs.Logic.c69_screen",
    "Swrs.Logic.c69_error",
    "Swrs.Logic.c69_panic"
   ],
   "note": ""
  },
  {
   "property": "C70",
   "status": "partial",
   "theorems": [
    "Swrs.Logic.c70_logic_line_partial",
    "Swrs.Logic.c70_logic_line_false"
   ],
   "note": "The property is false: the counter counts sections, not lines. The partial theorem says the number is the number of sections before, where the header really is, and that the two agree exactly for the first section."
  },
  {
   "property": "C71",
   "status": "partial",
   "theorems": [
    "Swrs.Api.c71_menu_false",
    "Swrs.Api.c71_menu_error_false",
    "Swrs.Api.c71_same_partial",
    "Swrs.Api.c71_exact_partial"
   ],
   "note": "False of the code: a menu given a text beginning with @ (c71_menu_false, c71_menu_error_false). The partial theorems give the exact condition."
  },
  {
   "property": "C72",
   "status": "proved",
   "theorems": [
    "Swrs.Api.c72_builder",
    "Swrs.Api.c72_edit",
    "Swrs.Api.c72_take_then_edit"
   ],
   "note": "get_args_mut is modelled by the caller's writes through the references it returns."
  },
  {
   "property": "C73",
   "status": "proved",
   "theorems": [
    "Swrs.Api.c73_accepts",
    "Swrs.Api.c73_error",
    "Swrs.Api.c73_values",
    "Swrs.Api.c73_written_read",
    "Swrs.Api.c73_read_written"
   ],
   "note": ""
  },
  {
   "property": "C74",
   "status": "proved",
   "theorems": [
    "Swrs.Api.c74_apply",
    "Swrs.Api.c74_alone",
    "Swrs.Api.c74_with_args"
   ],
   "note": ""
  },
  {
   "property": "C75",
   "status": "proved",
   "theorems": [
    "Swrs.Api.c75_constructors",
    "Swrs.Api.c75_parameters"
   ],
   "note": "Constructors and the parameters written for arguments (with the exact literal block of a boolean)."
  },
  {
   "property": "C76",
   "status": "proved",
   "theorems": [
    "Swrs.Api.c76_error",
    "Swrs.Api.c76_panic",
    "Swrs.Api.c76_truthful",
    "Swrs.Api.c76_panic_spec"
   ],
   "note": "Exactly which error or panic, by a relation without a bound on calls; and that the error is truthful. A block used twice is reported as not found; the error of a block that an argument refers to is lost (`.ok()`)."
  },
  {
   "property": "C77",
   "status": "proved",
   "theorems": [
    "Swrs.Api.c77_logic",
    "Swrs.Api.c77_logic_panics",
    "Swrs.Api.c77_fab",
    "Swrs.Api.c77_written",
    "Swrs.Api.c77_resources",
    "Swrs.Api.c77_new",
    "Swrs.Api.c77_panics"
   ],
   "note": ""
  },
  {
   "property": "C78",
   "status": "proved",
   "theorems": [
    "Swrs.Api.c78_screen_outcome",
    "Swrs.Api.c78_screen_value"
   ],
   "note": ""
  },
  {
   "property": "C79",
   "status": "proved",
   "theorems": [
    "Swrs.Api.c79_project_outcome",
    "Swrs.Api.c79_project_value"
   ],
   "note": ""
  },
  {
   "property": "C80",
   "status": "proved",
   "theorems": [
    "Swrs.c80_written_empty",
    "Swrs.c80_read_empty",
    "Swrs.c80_logic_written",
    "Swrs.c80_logic_read",
    "Swrs.c80_view_written",
    "Swrs.c80_blocks",
    "Swrs.c80_components"
   ],
   "note": "Proved in full."
  },
  {
   "property": "C81",
   "status": "proved",
   "theorems": [
    "Swrs.c81_accepted",
    "Swrs.c81_nearest",
    "Swrs.c81_f64_round_trip",
    "Swrs.c81_f32_round_trip",
    "Swrs.c81_view",
    "Swrs.c81_color_whole"
   ],
   "note": "The printers are modelled by their specification: the shortest decimal that is read back, not the digit generation algorithms (Grisu/Dragon, ryu); among equally short ones the nearest."
  },
  {
   "property": "C82",
   "status": "proved",
   "theorems": [
    "Swrs.c82_project_read",
    "Swrs.c82_project_rejected",
    "Swrs.c82_project_panics"
   ],
   "note": ""
  },
  {
   "property": "C83",
   "status": "proved",
   "theorems": [
    "Swrs.c83_date_read",
    "Swrs.c83_date_panics",
    "Swrs.c83_date_errors"
   ],
   "note": ""
  },
  {
   "property": "C84",
   "status": "proved",
   "theorems": [
    "Swrs.c84_resource",
    "Swrs.c84_file",
    "Swrs.c84_library",
    "Swrs.c84_component",
    "Swrs.c84_event",
    "Swrs.c84_block",
    "Swrs.c84_view",
    "Swrs.c84_color"
   ],
   "note": ""
  },
  {
   "property": "C85",
   "status": "proved",
   "theorems": [
    "Swrs.c85_full_name",
    "Swrs.c85_full_name_panics",
    "Swrs.c85_filed"
   ],
   "note": ""
  },
  {
   "property": "C86",
   "status": "proved",
   "theorems": [
    "Swrs.c86_raw",
    "Swrs.c86_view",
    "Swrs.c86_palette",
    "Swrs.c86_color"
   ],
   "note": ""
  },
  {
   "property": "C87",
   "status": "proved",
   "theorems": [
    "Swrs.c87_f64_text",
    "Swrs.c87_f64_other",
    "Swrs.c87_f32_text",
    "Swrs.c87_f32_other",
    "Swrs.c87_short",
    "Swrs.c87_whole",
    "Swrs.c87_accuracy",
    "Swrs.c87_range",
    "Swrs.c87_not_nearest"
   ],
   "note": "The library algorithms (Grisu/Dragon, ryu, serde_json's number reader) are modelled by what they compute; serde_json's reading by its own sequence of f64 operations."
  },
  {
   "property": "C88",
   "status": "proved",
   "theorems": [
    "Swrs.c88_utf8",
    "Swrs.c88_len",
    "Swrs.c88_slice",
    "Swrs.c88_lines",
    "Swrs.c88_split_once",
    "Swrs.c88_split_pattern",
    "Swrs.c88_space",
    "Swrs.c88_trim",
    "Swrs.c88_unsigned",
    "Swrs.c88_signed",
    "Swrs.c88_ids",
    "Swrs.c88_written",
    "Swrs.c88_written_int"
   ],
   "note": "`c88_utf8`, `c88_len`, `c88_slice`, `c88_lines`, `c88_split_once`, `c88_split_pattern`, `c88_space`, `c88_trim`, `c88_unsigned`, `c88_signed`, `c88_ids`, `c88_written`, `c88_written_int`."
  },
  {
   "property": "C89",
   "status": "partial",
   "theorems": [
    "Swrs.c89_file",
    "Swrs.c89_library",
    "Swrs.c89_resource",
    "Swrs.c89_view",
    "Swrs.c89_layout",
    "Swrs.c89_logic",
    "Swrs.c89_variable_pools",
    "Swrs.c89_variable",
    "Swrs.c89_list_variable",
    "Swrs.c89_type_value",
    "Swrs.c89_more_block",
    "Swrs.c89_header",
    "Swrs.c89_crypto",
    "Swrs.c89_resource_files",
    "Swrs.c89_project",
    "Swrs.c89_reason",
    "Swrs.c89_reasons",
    "Swrs.Api.c89_block_type",
    "Swrs.Api.c89_block_content",
    "Swrs.Api.c89_block",
    "Swrs.Api.c89_block_debug",
    "Swrs.Api.c89_view_type",
    "Swrs.Api.c89_parse_layout",
    "Swrs.Api.c89_event",
    "Swrs.Api.c89_component",
    "Swrs.Api.c89_screen",
    "Swrs.Api.c89_conversion",
    "Swrs.Api.c89_color",
    "Swrs.Api.c89_id_taken",
    "Swrs.Api.c89_messages_false",
    "Swrs.Api.c89_container_partial",
    "Swrs.Api.c89_screen_partial",
    "Swrs.c89_says_file",
    "Swrs.c89_says_library",
    "Swrs.c89_says_resource",
    "Swrs.c89_says_layout",
    "Swrs.c89_says_view",
    "Swrs.c89_says_logic",
    "Swrs.c89_says_pools",
    "Swrs.c89_says_variable",
    "Swrs.c89_says_lines",
    "Swrs.Api.c89_says_block_content",
    "Swrs.Api.c89_says_block",
    "Swrs.Api.c89_says_screen_parts",
    "Swrs.Api.c89_says_screen",
    "Swrs.Api.c89_says_conversion",
    "Swrs.Api.c89_says_taken"
   ],
   "note": "False: `c89_messages_false`. The message of a taken resource id always says `0` (the format argument is the literal `0.0`, api/mod.rs:229), the errors of floating buttons do not show their line, those of a block container not the number of the block, and names with spaces run together. Exactly which errors have the same message is proved for each of the error types that occur (`c89_file` to `c89_id_taken`; `c89_container_partial` and `c89_screen_partial`: names without spaces can be told). `c89_reason` and `c89_reasons`: when an id is no number, and which reason is given. `c89_says_file` to `c89_says_conversion`: which names and numbers stand in each message, the numbers in decimal."
  },
  {
   "property": "C90",
   "status": "partial",
   "theorems": [
    "Swrs.c90_project",
    "Swrs.c90_view",
    "Swrs.c90_logic",
    "Swrs.c90_blocks_lost",
    "Swrs.c90_logic_false",
    "Swrs.c90_view_false",
    "Swrs.c90_file_false",
    "Swrs.c90_resave_partial",
    "Swrs.c90_infinite_false"
   ],
   "note": "False: `c90_logic_false` (a readable logic file with a screen that has no code before a screen with code: after saving, the screen with code is gone, without an error), `c90_view_false` (two layouts with views: the saved file is refused), `c90_file_false` (custom views without an activity are lost without an error), `c90_infinite_false` (a number too large for `f32` is read as infinite and saved as `null`), and the dates of C14. `c90_resave_partial` is the exact condition for whole projects, `c90_project`, `c90_view` and `c90_logic` for the files; `c90_blocks_lost`: in general a gap between the screens loses a block container without an error."
  },
  {
   "property": "C91",
   "status": "proved",
   "theorems": [
    "Swrs.Api.c91_screens",
    "Swrs.Api.c91_places",
    "Swrs.Api.c91_layout_edit",
    "Swrs.Api.c91_logic_edit",
    "Swrs.Api.c91_options_edit",
    "Swrs.Api.c91_settings_edit",
    "Swrs.Api.c91_resources_edit",
    "Swrs.Api.c91_custom_views_edit",
    "Swrs.Api.c91_event_code",
    "Swrs.Api.c91_moreblock_code",
    "Swrs.Api.c91_read"
   ],
   "note": "`c91_screens` (edit, add, remove), `c91_places` (the places stay), `c91_layout_edit`, `c91_logic_edit`, `c91_options_edit`, `c91_settings_edit`, `c91_resources_edit`, `c91_custom_views_edit`, `c91_event_code`, `c91_moreblock_code`, `c91_read`."
  },
  {
   "property": "C92",
   "status": "partial",
   "theorems": [
    "Swrs.Api.c92_saved_partial",
    "Swrs.Api.c92_two_layouts",
    "Swrs.Api.c92_code_lost",
    "Swrs.Api.c92_round_trip",
    "Swrs.Api.c92_saved_false"
   ],
   "note": "False of the code: `c92_saved_false` is a project whose first screen and whose custom view each have a button; it is saved without an error and can never be opened. `c92_saved_partial` gives the exact condition `c92_Saved` for all projects. `c92_two_layouts`: as soon as a layout other than the last one has views, what is saved can not be opened. `c92_code_lost`: a screen without code before a screen with code makes code disappear without an error. `c92_round_trip`: the whole way API project, texts, API project. `c92_same`: equal parsed projects up to order are opened as the same API project."
  },
  {
   "property": "C93",
   "status": "proved",
   "theorems": [
    "Swrs.c93_decrypt_usage",
    "Swrs.c93_decrypt_success",
    "Swrs.c93_decrypt_failure",
    "Swrs.c93_decrypt_panic",
    "Swrs.c93_encrypt_usage",
    "Swrs.c93_encrypt",
    "Swrs.c93_encrypt_keeps",
    "Swrs.c93_encrypt_missing",
    "Swrs.c93_encrypt_exists",
    "Swrs.c93_round_trip"
   ],
   "note": "`c93_encrypt_exists` and `c93_encrypt_keeps`: no existing file is changed. `c93_round_trip` covers both programs one after the other."
  },
  {
   "property": "C94",
   "status": "partial",
   "theorems": [
    "Swrs.c94_file",
    "Swrs.c94_resource",
    "Swrs.c94_library",
    "Swrs.c94_project",
    "Swrs.c94_view",
    "Swrs.c94_logic",
    "Swrs.c94_debug",
    "Swrs.c94_debug_parts",
    "Swrs.c94_library_tells",
    "Swrs.c94_project_tells",
    "Swrs.c94_file_tells_partial",
    "Swrs.c94_resource_tells_partial",
    "Swrs.c94_tells_false",
    "Swrs.c94_view_tells_partial",
    "Swrs.c94_logic_tells_partial",
    "Swrs.Examples.c94_file_tells",
    "Swrs.Examples.c94_resource_exact",
    "Swrs.Examples.c94_logic_exact"
   ],
   "note": "False as claimed: `c94_tells_false`, two resource files with different names and the same listing. Proved for all files: what each program prints, line by line, and when it fails (`c94_file` to `c94_logic`); equal listings come from equal data for lists of files, libraries and projects, whatever the names are (`c94_file_tells`, `c94_library_tells`, `c94_project_tells`). For resource lists (names without a line break) and for logics that were read it is said exactly when two listings are equal (`c94_resource_exact`, `c94_logic_exact`). `c94_view_tells_partial` gives what is told of views."
  },
  {
   "property": "C95",
   "status": "partial",
   "theorems": [
    "Swrs.c95_event_type",
    "Swrs.c95_run",
    "Swrs.c95_no_resources",
    "Swrs.c95_each_block",
    "Swrs.c95_tells",
    "Swrs.Api.c95_saved_partial",
    "Swrs.Api.c95_saved_false"
   ],
   "note": "False of projects with resources: `c95_saved_false`, a project that is saved and can be opened, on which the program panics; `c95_no_resources`: it panics as soon as the resource file names one image, sound or font, because it hands over no files for them. Proved: when the program succeeds and what it prints (`c95_run`, `c95_each_block`); `c95_tells`: the shape and text of the blocks can be told from the listing if the texts have no newline; `c95_saved_partial`: a project without resources that meets the conditions of C92 is listed."
  },
  {
   "property": "C96",
   "status": "partial",
   "theorems": [
    "Swrs.c96_logic",
    "Swrs.c96_project",
    "Swrs.c96_logic_ends",
    "Swrs.c96_project_ends",
    "Swrs.c96_crypto_ends",
    "Swrs.c96_crypto",
    "Swrs.Api.c96_blocks",
    "Swrs.Api.c96_screen",
    "Swrs.Api.c96_blocks_ends",
    "Swrs.Api.c96_conversion_ends",
    "Swrs.Api.c96_conversion",
    "Swrs.Api.c96_blocks_way",
    "Swrs.c96_texts_false"
   ],
   "note": "`c96_texts_false`: as claimed it is false. The chain does not say which block of a container can not be read, in which line a bad floating button is, or whether a missing resource is an image or a sound. `c96_project`, `c96_logic`, `c96_crypto`, `c96_blocks`, `c96_screen`, `c96_conversion` say exactly what is told; in particular `c96_blocks_way`: the whole way to a block that is wrong is told. The API theorems assume that `{:?}` of a string can be read back (`LawfulDebugText`, with an instance)."
  },
  {
   "property": "C97",
   "status": "proved",
   "theorems": [
    "Swrs.c97_read_back",
    "Swrs.c97_one_line",
    "Swrs.c97_plain",
    "Swrs.c97_lawful",
    "Swrs.c97_tells"
   ],
   "note": "`c97_lawful` discharges the assumption `LawfulDebugText` of C94 to C96 for the escaping of the standard library; only the table of characters that can be printed is left open, and nothing is assumed of it."
  },
  {
   "property": "C98",
   "status": "partial",
   "theorems": [
    "Swrs.Api.c98_self",
    "Swrs.Api.c98_symm",
    "Swrs.Api.c98_trans",
    "Swrs.Api.c98_exact",
    "Swrs.Api.c98_parsed",
    "Swrs.Api.c98_parsed_exact",
    "Swrs.Api.c98_twice_partial",
    "Swrs.Api.c98_again",
    "Swrs.Api.c98_resources",
    "Swrs.Api.c98_nan_text",
    "Swrs.Api.c98_ids_false",
    "Swrs.Api.c98_nan_false",
    "Swrs.Api.c98_zero"
   ],
   "note": "False: without the resource files the file ids are random, so two openings differ (`c98_ids_false`), and a number argument `NaN` is read, so a project need not be equal to itself (`c98_nan_false`; `c98_nan_text` tells which arguments). `c98_zero`: equal projects can be written differently, because of `-0`. Proved: two openings are equal exactly if the resources are and no number is NaN (`c98_twice_partial`); the resources are equal when files were given or there are none (`c98_resources`); symmetric and transitive always; equal means same without negative zeros (`c98_exact`); parsed projects are always equal to themselves (`c98_parsed`)."
  },
  {
   "property": "C99",
   "status": "proved",
   "theorems": [
    "Swrs.c99_bytes",
    "Swrs.c99_file",
    "Swrs.c99_resource",
    "Swrs.c99_library",
    "Swrs.c99_view",
    "Swrs.c99_logic",
    "Swrs.c99_blocks",
    "Swrs.c99_file_limit",
    "Swrs.c99_blocks_limit"
   ],
   "note": "`c99_bytes` gives the bound by the size of the file (less than 4 GiB). The limits are real: `c99_file_limit`, `c99_blocks_limit`."
  },
  {
   "property": "C100",
   "status": "partial",
   "theorems": [
    "Swrs.Api.c100_read_same",
    "Swrs.Api.c100_read_enough",
    "Swrs.Api.c100_read_partial",
    "Swrs.Api.c100_read_bounded_false",
    "Swrs.Api.c100_write_partial",
    "Swrs.Api.c100_write_bounded_false",
    "Swrs.Api.c100_flatten",
    "Swrs.Api.c100_find",
    "Swrs.Api.c100_find_exact",
    "Swrs.Api.c100_layout_exact",
    "Swrs.Api.c100_layout",
    "Swrs.Api.c100_layout_partial",
    "Swrs.Api.c100_layout_bounded_false",
    "Swrs.Api.c100_flatten_bounded_false"
   ],
   "note": "False: for every depth there is an input that is converted without a limit but needs more (`c100_read_bounded_false`, `c100_write_bounded_false`, `c100_layout_bounded_false`, `c100_flatten_bounded_false`). Proved: the exact depth for reading (`c100_read_partial`), writing (`c100_write_partial`) and flattening (`c100_flatten`) — the number of blocks or views inside one another —, for finding a view (`c100_find_exact`) and for layouts (`c100_layout_exact`) — the deepest level that is looked at; in terms of the resulting tree that is its levels or one less (`c100_layout_partial`); the number of blocks plus one, and of views minus one, is enough (`c100_read_enough`, `c100_layout`), so a small file is safe. How many bytes a call takes is not modelled."
  },
  {
   "property": "C101",
   "status": "partial",
   "theorems": [
    "Swrs.c101_project",
    "Swrs.c101_file",
    "Swrs.c101_view",
    "Swrs.c101_logic_saved",
    "Swrs.c101_logic_partial",
    "Swrs.c101_logic_settled",
    "Swrs.c101_logic_false",
    "Swrs.c101_project_partial",
    "Swrs.c101_logic_ends",
    "Swrs.c101_five_saves",
    "Swrs.c101_project_settles"
   ],
   "note": "False of logic files: the first save may lose nothing and only change the order of the screens, and the second one loses the code of a screen (`c101_logic_false`: two screens, one with code, one with a variable). Proved: one save is enough for project, file and view files (`c101_project`, `c101_file`, `c101_view`; library and resource never change, C18, C19); what a save leaves of a logic file (`c101_logic_saved`); two saves are enough for logic files (`c101_logic_partial`) and whole projects (`c101_project_partial`) whose names survive; one save is enough exactly when then no screen without code stands before one with code (`c101_logic_settled`). Whatever the names, saving comes to an end: `c101_logic_ends` (after no more saves than the saved text has characters nothing changes any more, or the file can no longer be read) and `c101_project_settles` (a project that is opened and saved for ever changes only finitely often, with the same bound). `c101_five_saves`: a logic file that changes in each of the first five saves, and then never again. Missing: that one save is enough, which is false."
  },
  {
   "property": "C102",
   "status": "partial",
   "theorems": [
    "Swrs.Api.c102_event_added",
    "Swrs.Api.c102_moreblock_added",
    "Swrs.Api.c102_fab",
    "Swrs.Api.c102_resources",
    "Swrs.Api.c102_custom_view_added",
    "Swrs.Api.c102_kept",
    "Swrs.Api.c102_variables_partial",
    "Swrs.Api.c102_variable_added",
    "Swrs.Api.c102_list_variables_partial",
    "Swrs.Api.c102_components",
    "Swrs.Api.c102_event_code",
    "Swrs.Api.c102_settings",
    "Swrs.Api.c102_layout_last",
    "Swrs.Api.c102_view_not_last",
    "Swrs.Api.c102_view_false",
    "Swrs.Api.c102_remove_false",
    "Swrs.Api.c102_removed",
    "Swrs.Api.c102_screen_added"
   ],
   "note": "False of the code: a button on a screen that is not the last layout makes the project unreadable (`c102_view_false`, in general `c102_view_not_last`), and removing a variable may lose the name of another one (`c102_remove_false`). Proved with exact conditions: any change of the variables and list variables (`c102_variables_partial`, `c102_list_variables_partial`, `c102_variable_added`), components and screen settings always (`c102_components`), the code of an event (`c102_event_code`), a new event (`c102_event_added`), a new moreblock (`c102_moreblock_added`), a floating button (`c102_fab`), a new custom view (`c102_custom_view_added`: the project is lost if another layout has views), a new screen (`c102_screen_added`), screens and custom views removed in any combination (`c102_removed`), the resource files (`c102_resources`), the views of the last layout (`c102_layout_last`), project details, colours and libraries (`c102_settings`). Missing: edits for which the property is false."
  },
  {
   "property": "C103",
   "status": "partial",
   "theorems": [
    "Swrs.c103_logic",
    "Swrs.c103_logic_false",
    "Swrs.c103_panic_false",
    "Swrs.c103_view",
    "Swrs.c103_project",
    "Swrs.c103_file",
    "Swrs.c103_reopen_partial",
    "Swrs.c103_reopen_false"
   ],
   "note": "False of the code: a date with a part below ten (`c58_project_round_trip_false`), views in a layout that is not the last (C90), a code container whose name is taken for a pool when it is written (`c103_logic_false` with an error, `c103_panic_false` and `c103_reopen_false` with a panic). Proved with exact conditions: the view file (`c103_view`), the logic file (`c103_logic`; pools never get in the way), the project file (`c103_project`), the file list (`c103_file`, always), whole projects (`c103_reopen_partial`; saving never fails). Missing: the projects for which the property is false."
  },
  {
   "property": "C104",
   "status": "proved",
   "theorems": [
    "Swrs.Api.c104_edits",
    "Swrs.Api.c104_readme"
   ],
   "note": "The README program does not compile with the pinned library; the model uses `code.0.push` and `BlockContent::parse` in place of `push_block` and `parse_from`."
  },
  {
   "property": "C105",
   "status": "proved",
   "theorems": [
    "Swrs.c105_crypto",
    "Swrs.c105_file",
    "Swrs.c105_library",
    "Swrs.c105_resource",
    "Swrs.c105_layout",
    "Swrs.c105_view",
    "Swrs.c105_variable",
    "Swrs.c105_list_variable",
    "Swrs.c105_lines",
    "Swrs.c105_pools",
    "Swrs.c105_header",
    "Swrs.c105_logic",
    "Swrs.c105_resource_files",
    "Swrs.c105_project",
    "Swrs.Api.c105_color",
    "Swrs.Api.c105_block_type",
    "Swrs.Api.c105_block_content",
    "Swrs.Api.c105_block_content_debug",
    "Swrs.Api.c105_block",
    "Swrs.Api.c105_view_type",
    "Swrs.Api.c105_tree",
    "Swrs.Api.c105_unknown",
    "Swrs.Api.c105_screen",
    "Swrs.Api.c105_addition",
    "Swrs.Api.c105_conversion"
   ],
   "note": "The text of a taken resource id has the number `0` in its place (`c105_addition`), because the argument in the attribute is the literal `0.0`."
  },
  {
   "property": "C106",
   "status": "proved",
   "theorems": [
    "Swrs.c106_change",
    "Swrs.c106_elsewhere",
    "Swrs.c106_cut"
   ],
   "note": "The file format has no checksum, so damage to a file is not noticed by decrypting it; `c106_change` says exactly what is damaged."
  },
  {
   "property": "C107",
   "status": "proved",
   "theorems": [
    "Swrs.c107_common",
    "Swrs.c107_append"
   ],
   "note": "Follows from the fixed initial vector: encrypted files of one project show which of them begin in the same way."
  },
  {
   "property": "C108",
   "status": "proved",
   "theorems": [
    "Swrs.c108_accepted",
    "Swrs.c108_order",
    "Swrs.c108_project",
    "Swrs.c108_stray"
   ],
   "note": "With two different files of one kind and name the last one wins, so there the order decides (`c108_order`, left to right)."
  },
  {
   "property": "C109",
   "status": "proved",
   "theorems": [
    "Swrs.Api.c109_opens",
    "Swrs.Api.c109_only",
    "Swrs.Api.c109_good",
    "Swrs.Api.c109_rounds",
    "Swrs.Api.c109_files"
   ],
   "note": "`c109_files`: a project that has been opened without its resource files and has resources can not be opened with the list of files that saving it gives, because the test of `automatic_res_file_ids` is the wrong way round in the code (see C54)."
  },
  {
   "property": "C110",
   "status": "proved",
   "theorems": [
    "Swrs.c110_logic",
    "Swrs.c110_view",
    "Swrs.c110_project",
    "Swrs.Api.c110_code",
    "Swrs.Api.c110_api",
    "Swrs.Api.c110_code_false"
   ],
   "note": "c110_code_false shows that the condition on the first block is needed."
  },
  {
   "property": "C111",
   "status": "proved",
   "theorems": [
    "Swrs.c111_round_trip",
    "Swrs.c111_text",
    "Swrs.c111_by_key",
    "Swrs.c111_read"
   ],
   "note": ""
  },
  {
   "property": "C112",
   "status": "partial",
   "theorems": [
    "Swrs.c112_library",
    "Swrs.c112_resource",
    "Swrs.c112_file",
    "Swrs.c112_view_record",
    "Swrs.c112_view",
    "Swrs.c112_view_false",
    "Swrs.c112_project",
    "Swrs.c112_full_width",
    "Swrs.c112_project_false",
    "Swrs.c112_records",
    "Swrs.c112_logic_partial",
    "Swrs.c112_logic_empty",
    "Swrs.c112_logic_false",
    "Swrs.c112_whole_partial",
    "Swrs.Api.c112_api_partial"
   ],
   "note": "Proved without exceptions: libraries, resource lists, file lists (also those C17 loses), components, events, blocks. Views with finite numbers have one text exactly when they differ at most in giving a size as a kind or as the number of that kind; view files with single-line names exactly when names and texts of views are the same in the same order (false with a line break in a name: c112_view_false). Project files have one text exactly when they differ at most in the creation time and the digits of both dates run together alike; dates of full width collide with no other date of the years 1000 to 9999; 2022-01-11 and 2022-11-01 do collide (c112_project_false). Logics: proved for all whose screens are filed under their names and can be told apart in the text (the conditions of C28 on each screen), also where a block container is lost in reading; empty screens are not written (c112_logic_empty); false otherwise (c112_logic_false: screen A with container B.java_c, and screen A.java_B with container c). Whole projects: all parts combined; API projects that are kept (C102) and saved as the same texts are the same."
  },
  {
   "property": "C113",
   "status": "proved",
   "theorems": [
    "Swrs.c113_file",
    "Swrs.c113_resource",
    "Swrs.c113_view",
    "Swrs.c113_logic",
    "Swrs.Api.c113_screen",
    "Swrs.Api.c113_converted",
    "Swrs.Api.c113_opened"
   ],
   "note": ""
  },
  {
   "property": "C114",
   "status": "proved",
   "theorems": [
    "Swrs.c114_file",
    "Swrs.c114_resource",
    "Swrs.c114_library",
    "Swrs.c114_view",
    "Swrs.c114_logic",
    "Swrs.c114_project",
    "Swrs.c114_refused",
    "Swrs.c114_opened",
    "Swrs.c114_bom_lists",
    "Swrs.c114_bom_rest",
    "Swrs.c114_same_false"
   ],
   "note": "The loss without an error is a fault of the code."
  },
  {
   "property": "C115",
   "status": "proved",
   "theorems": [
    "Swrs.Logic.c115_logic_last",
    "Swrs.Logic.c115_logic",
    "Swrs.View.c115_view",
    "Swrs.Api.c115_screen",
    "Swrs.Api.c115_conv",
    "Swrs.Api.c115_opened",
    "Swrs.c115_logic_false"
   ],
   "note": "c115_logic_false: with two sections for the same thing the later one is kept, so the order matters."
  },
  {
   "property": "C116",
   "status": "proved",
   "theorems": [
    "Swrs.c116_file",
    "Swrs.c116_file_whole",
    "Swrs.c116_resource",
    "Swrs.c116_resource_whole",
    "Swrs.c116_project",
    "Swrs.c116_library",
    "Swrs.c116_project_cut",
    "Swrs.c116_library_written",
    "Swrs.View.c116_view",
    "Swrs.View.c116_view_read",
    "Swrs.Logic.c116_logic",
    "Swrs.Logic.c116_logic_read",
    "Swrs.Logic.c116_logic_false",
    "Swrs.c116_view_false"
   ],
   "note": "c116_logic_false, c116_view_false: a cut within a line of a logic or view file can go unnoticed: a variable abc becomes ab, and the header of a floating button becomes the header of an empty layout that replaces the layout of the screen."
  },
  {
   "property": "C117",
   "status": "proved",
   "theorems": [
    "Swrs.c117_logic",
    "Swrs.View.c117_view",
    "Swrs.View.c117_view_ok",
    "Swrs.c117_file",
    "Swrs.c117_file_rest",
    "Swrs.c117_resource",
    "Swrs.c117_resource_rest",
    "Swrs.c117_library",
    "Swrs.c117_library_ok",
    "Swrs.c117_project",
    "Swrs.c117_opened",
    "Swrs.c117_space_false",
    "Swrs.c117_one_blank_false"
   ],
   "note": "c117_space_false: a line with a space at the end is refused by the lists of files and resources, views and logic files. c117_one_blank_false: what follows one blank line is read in views and logic files."
  },
  {
   "property": "C118",
   "status": "proved",
   "theorems": [
    "Swrs.c118_file_read",
    "Swrs.c118_resource_read",
    "Swrs.c118_file_order",
    "Swrs.c118_resource_order",
    "Swrs.c118_apart",
    "Swrs.c118_spread",
    "Swrs.c118_spread_resource"
   ],
   "note": ""
  },
  {
   "property": "C119",
   "status": "proved",
   "theorems": [
    "Swrs.c119_file",
    "Swrs.c119_resource",
    "Swrs.c119_library",
    "Swrs.View.c119_view",
    "Swrs.Logic.c119_logic",
    "Swrs.c119_project"
   ],
   "note": ""
  },
  {
   "property": "C120",
   "status": "proved",
   "theorems": [
    "Swrs.Api.c120_project",
    "Swrs.Api.c120_file",
    "Swrs.Api.c120_library",
    "Swrs.Api.c120_resource",
    "Swrs.Api.c120_view",
    "Swrs.Api.c120_logic"
   ],
   "note": ""
  },
  {
   "property": "C121",
   "status": "proved",
   "theorems": [
    "Swrs.c121_file",
    "Swrs.c121_resource",
    "Swrs.c121_library",
    "Swrs.c121_project",
    "Swrs.View.c121_ends",
    "Swrs.View.c121_view",
    "Swrs.Logic.c121_logic"
   ],
   "note": ""
  },
  {
   "property": "C122",
   "status": "proved",
   "theorems": [
    "Swrs.c122_file",
    "Swrs.c122_resource",
    "Swrs.c122_file_less",
    "Swrs.c122_resource_less",
    "Swrs.c122_library",
    "Swrs.View.c122_view",
    "Swrs.View.c122_view_less",
    "Swrs.Logic.c122_logic",
    "Swrs.Logic.c122_logic_less"
   ],
   "note": ""
  },
  {
   "property": "C123",
   "status": "proved",
   "theorems": [
    "Swrs.Api.c123_activity",
    "Swrs.Api.c123_customView",
    "Swrs.Api.c123_variable",
    "Swrs.Api.c123_listVariable",
    "Swrs.Api.c123_component",
    "Swrs.Api.c123_event",
    "Swrs.Api.c123_image",
    "Swrs.Api.c123_sound",
    "Swrs.Api.c123_font",
    "Swrs.Api.c123_tree",
    "Swrs.Api.c123_view",
    "Swrs.Api.c123_view_refused"
   ],
   "note": ""
  },
  {
   "property": "C124",
   "status": "proved",
   "theorems": [
    "Swrs.Api.c124_blocks",
    "Swrs.Api.c124_files",
    "Swrs.Api.c124_resources",
    "Swrs.Api.c124_screen",
    "Swrs.Api.c124_file_lines",
    "Swrs.Api.c124_resource_lines",
    "Swrs.Api.c124_opened",
    "Swrs.Api.c124_first_false",
    "Swrs.Api.c124_number_false",
    "Swrs.Api.c124_malformed_false",
    "Swrs.Api.c124_files_false",
    "Swrs.Api.c124_resources_false",
    "Swrs.Api.c124_screen_false",
    "Swrs.Api.c124_component_false",
    "Swrs.Api.c124_header_false",
    "Swrs.Api.c124_views",
    "Swrs.Api.c124_views_false"
   ],
   "note": ""
  },
  {
   "property": "C125",
   "status": "proved",
   "theorems": [
    "Swrs.Api.c125_block",
    "Swrs.Api.c125_block_more",
    "Swrs.Api.c125_leaf",
    "Swrs.Api.c125_parent",
    "Swrs.Api.c125_activity",
    "Swrs.Api.c125_customView",
    "Swrs.Api.c125_image",
    "Swrs.Api.c125_sound",
    "Swrs.Api.c125_font",
    "Swrs.Api.c125_event",
    "Swrs.Api.c125_component",
    "Swrs.Api.c125_block_false",
    "Swrs.Api.c125_activity_false",
    "Swrs.Api.c125_image_false",
    "Swrs.Api.c125_event_false"
   ],
   "note": ""
  },
  {
   "property": "C126",
   "status": "proved",
   "theorems": [
    "Swrs.Api.c126_code",
    "Swrs.Api.c126_exists",
    "Swrs.Api.c126_screen",
    "Swrs.Api.c126_project",
    "Swrs.Api.c126_same",
    "Swrs.Api.c126_code_false"
   ],
   "note": ""
  },
  {
   "property": "C127",
   "status": "proved",
   "theorems": [
    "Swrs.Api.c127_layout",
    "Swrs.Api.c127_find",
    "Swrs.Api.c127_flatten",
    "Swrs.Api.c127_screen",
    "Swrs.Api.c127_project",
    "Swrs.Api.c127_layout_false",
    "Swrs.Api.c127_root_false"
   ],
   "note": ""
  },
  {
   "property": "C128",
   "status": "proved",
   "theorems": [
    "Swrs.Api.c128_read",
    "Swrs.Api.c128_written",
    "Swrs.Api.c128_read_false",
    "Swrs.Api.c128_written_false"
   ],
   "note": ""
  },
  {
   "property": "C129",
   "status": "proved",
   "theorems": [
    "Swrs.Api.c129_row",
    "Swrs.Api.c129_cut",
    "Swrs.Api.c129_rest",
    "Swrs.Api.c129_skip",
    "Swrs.Api.c129_join",
    "Swrs.Api.c129_join_false"
   ],
   "note": ""
  },
  {
   "property": "C130",
   "status": "proved",
   "theorems": [
    "Swrs.Api.c130_move",
    "Swrs.Api.c130_refused",
    "Swrs.Api.c130_move_false"
   ],
   "note": ""
  },
  {
   "property": "C131",
   "status": "proved",
   "theorems": [
    "Swrs.Api.c131_merge",
    "Swrs.Api.c131_merge_resources",
    "Swrs.Api.c131_opened",
    "Swrs.Api.c131_merge_false",
    "Swrs.Api.c131_merge_resources_false"
   ],
   "note": ""
  },
  {
   "property": "C132",
   "status": "proved",
   "theorems": [
    "Swrs.Api.c132_paste",
    "Swrs.Api.c132_replace",
    "Swrs.Api.c132_fill",
    "Swrs.Api.c132_empty",
    "Swrs.Api.c132_fill_false"
   ],
   "note": ""
  },
  {
   "property": "C133",
   "status": "proved",
   "theorems": [
    "Swrs.Layout.c133_layout_reads",
    "Swrs.Layout.c133_layout_error",
    "Swrs.Layout.c133_layout_no_panic",
    "Swrs.Layout.c133_layout_round_trip",
    "Swrs.Layout.c133_view_before"
   ],
   "note": ""
  },
  {
   "property": "C134",
   "status": "proved",
   "theorems": [
    "Swrs.Api.c134_edit"
   ],
   "note": ""
  },
  {
   "property": "C135",
   "status": "proved",
   "theorems": [
    "Swrs.Api.c135_screen",
    "Swrs.Api.c135_project",
    "Swrs.Api.c135_one",
    "Swrs.Api.c135_label"
   ],
   "note": ""
  },
  {
   "property": "C136",
   "status": "proved",
   "theorems": [
    "Swrs.Api.c136_row"
   ],
   "note": ""
  },
  {
   "property": "C137",
   "status": "proved",
   "theorems": [
    "Swrs.Api.c137_text",
    "Swrs.Api.c137_label",
    "Swrs.Api.c137_paste",
    "Swrs.Api.c137_skip",
    "Swrs.Api.c137_same",
    "Swrs.Api.c137_order"
   ],
   "note": ""
  },
  {
   "property": "C138",
   "status": "proved",
   "theorems": [
    "Swrs.Api.c138_edit",
    "Swrs.Api.c138_text",
    "Swrs.Api.c138_refused",
    "Swrs.Api.c138_changed",
    "Swrs.Api.c138_move",
    "Swrs.Api.c138_move_refused",
    "Swrs.Api.c138_leaf",
    "Swrs.Api.c138_order"
   ],
   "note": ""
  },
  {
   "property": "C139",
   "status": "proved",
   "theorems": [
    "Swrs.Api.c139_variables",
    "Swrs.Api.c139_lists",
    "Swrs.Api.c139_components",
    "Swrs.Api.c139_events",
    "Swrs.Api.c139_moreBlock"
   ],
   "note": ""
  },
  {
   "property": "C140",
   "status": "proved",
   "theorems": [
    "Swrs.Api.c140_argument"
   ],
   "note": ""
  },
  {
   "property": "C141",
   "status": "proved",
   "theorems": [
    "Swrs.Api.c141_project",
    "Swrs.Api.c141_library",
    "Swrs.Api.c141_activity",
    "Swrs.Api.c141_customView",
    "Swrs.Api.c141_image",
    "Swrs.Api.c141_sound",
    "Swrs.Api.c141_font"
   ],
   "note": ""
  },
  {
   "property": "C142",
   "status": "proved",
   "theorems": [
    "Swrs.Api.c142_value",
    "Swrs.Api.c142_fill"
   ],
   "note": ""
  },
  {
   "property": "C143",
   "status": "proved",
   "theorems": [
    "Swrs.Api.c143_variable",
    "Swrs.Api.c143_list_variable",
    "Swrs.Api.c143_component",
    "Swrs.Api.c143_options",
    "Swrs.Api.c143_library",
    "Swrs.Api.c143_image",
    "Swrs.Api.c143_sound",
    "Swrs.Api.c143_font",
    "Swrs.Api.c143_view",
    "Swrs.Api.c143_event_code",
    "Swrs.Api.c143_moreblock_code"
   ],
   "note": ""
  },
  {
   "property": "C144",
   "status": "proved",
   "theorems": [
    "Swrs.Api.c144_container",
    "Swrs.Api.c144_event",
    "Swrs.Api.c144_moreblock"
   ],
   "note": ""
  },
  {
   "property": "C145",
   "status": "proved",
   "theorems": [
    "Swrs.Api.c145_container",
    "Swrs.Api.c145_event",
    "Swrs.Api.c145_moreblock"
   ],
   "note": ""
  },
  {
   "property": "C146",
   "status": "proved",
   "theorems": [
    "Swrs.Api.c146_variables",
    "Swrs.Api.c146_list_variables",
    "Swrs.Api.c146_components"
   ],
   "note": ""
  },
  {
   "property": "C147",
   "status": "proved",
   "theorems": [
    "Swrs.Api.c147_metadata",
    "Swrs.Api.c147_time",
    "Swrs.Api.c147_colors"
   ],
   "note": ""
  },
  {
   "property": "C148",
   "status": "proved",
   "theorems": [
    "Swrs.Api.c148_images",
    "Swrs.Api.c148_sounds",
    "Swrs.Api.c148_fonts"
   ],
   "note": ""
  },
  {
   "property": "C149",
   "status": "proved",
   "theorems": [
    "Swrs.Api.c149_add",
    "Swrs.Api.c149_remove"
   ],
   "note": ""
  },
  {
   "property": "C150",
   "status": "proved",
   "theorems": [
    "Swrs.Api.c150_edit",
    "Swrs.Api.c150_add",
    "Swrs.Api.c150_remove",
    "Swrs.Api.c150_fab"
   ],
   "note": ""
  },
  {
   "property": "C151",
   "status": "proved",
   "theorems": [
    "Swrs.Api.c151_button_change",
    "Swrs.Api.c151_custom_views"
   ],
   "note": ""
  },
  {
   "property": "C152",
   "status": "proved",
   "theorems": [
    "Swrs.Api.c152_logic_text",
    "Swrs.Api.c152_screens"
   ],
   "note": ""
  },
  {
   "property": "C153",
   "status": "proved",
   "theorems": [
    "Swrs.Api.c153_event_run"
   ],
   "note": ""
  },
  {
   "property": "C154",
   "status": "proved",
   "theorems": [
    "Swrs.Api.c154_moreblock_run"
   ],
   "note": ""
  }
 ]
}