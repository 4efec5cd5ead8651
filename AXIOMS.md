# Axioms of the property theorems

Generated by `tools/axioms.lean.txt`.

* C01_eof_iff: Classical.choice, Quot.sound, propext
* C01_eof_sticky: Classical.choice, Quot.sound, propext
* C01_progress: Classical.choice, Quot.sound, propext
* C01_reaches_eof: Classical.choice, Quot.sound, propext
* C02_whole_words: Classical.choice, Quot.sound, propext
* C02_words_are_read: Classical.choice, Quot.sound, propext
* C03_blanks: Classical.choice, Quot.sound, propext
* C03_blanks_exchange: Classical.choice, Quot.sound, propext
* C04_final: Classical.choice, Quot.sound, propext
* C04_layout_invisible: Classical.choice, Quot.sound, propext
* C05_case_insensitive: Classical.choice, Quot.sound, propext
* C05_keyword_iff: Classical.choice, Quot.sound, propext
* C06_member_name: Classical.choice, Quot.sound, propext
* C06_one_token: Classical.choice, Quot.sound, propext
* C06_two_dots: Classical.choice, Quot.sound, propext
* C07_round_trip: Classical.choice, Quot.sound, propext
* C07_string_tokens: Classical.choice, Quot.sound, propext
* C07_value_form: Classical.choice, Quot.sound, propext
* C08_letter_after: Classical.choice, Quot.sound, propext
* C08_number: Classical.choice, Quot.sound, propext
* C08_number_inv: Classical.choice, Quot.sound, propext
* C09_date: Classical.choice, Quot.sound, propext
* C09_date_inv: Classical.choice, Quot.sound, propext
* C09_one_line: Classical.choice, Quot.sound, propext
* C09_unique: Classical.choice, Quot.sound, propext
* C10_position: Classical.choice, Quot.sound, propext
* C11_idempotent: Classical.choice, Quot.sound, propext
* C11_invalid_differs: propext
* C11_length: Classical.choice, Quot.sound, propext
* C11_lower: Classical.choice, Quot.sound, propext
* C11_old_agrees: Classical.choice, Quot.sound, propext
* C12_agrees_partial: Classical.choice, Quot.sound, propext
* C12_hangs: Quot.sound, propext
* C12_returns_partial: Classical.choice, Quot.sound, propext
* C12_violated: Quot.sound, propext
* C13_bytes_and_characters: Classical.choice, Quot.sound, propext
* C13_decodes_unique: Classical.choice, Quot.sound, propext
* C13_next: Classical.choice, Quot.sound, propext
* C14_linear: Classical.choice, Quot.sound, propext
* C14_terminates: Classical.choice, Quot.sound, propext
* C15_numbers_unique: Quot.sound, propext
* C15_sound: Classical.choice, Quot.sound, propext
* C16_accepted_is_program: Classical.choice, Quot.sound, propext
* C16_accepted_partial: Classical.choice, Quot.sound, propext
* C16_any_layout_partial: Classical.choice, Quot.sound, propext
* C16_exactly_partial: Classical.choice, Quot.sound, propext
* C16_layout_irrelevant_partial: Classical.choice, Quot.sound, propext
* C16_program_unique: Classical.choice, Quot.sound, propext
* C16_shown_partial: Classical.choice, Quot.sound, propext
* C16_violated: Classical.choice, Quot.sound, propext
* C17_blank: Classical.choice, Quot.sound, propext
* C17_no_tokens: Classical.choice, Quot.sound, propext
* C18_lexical_errors: Classical.choice, Quot.sound, propext
* C18_recorded: Classical.choice, Quot.sound, propext
* C19_final: Classical.choice, Quot.sound, propext
* C19_no_recovery: Classical.choice, Quot.sound, propext
* C19_syntax_error_stops: Classical.choice, Quot.sound, propext
* C20_get: propext
* C20_indices_partial: Classical.choice, Quot.sound, propext
* C20_only_after_error_partial: Classical.choice, Quot.sound, propext
* C20_violated: Classical.choice, Quot.sound, propext
* C21_loops_partial: Classical.choice, Quot.sound, propext
* C21_violated: Classical.choice, Quot.sound, propext
* C22_throw: Classical.choice, Quot.sound, propext
* C23_return: Classical.choice, Quot.sound, propext
* C24_globals: Classical.choice, Quot.sound, propext
* C24_globals_in_order: Classical.choice, Quot.sound, propext
* C25_locals: Classical.choice, Quot.sound, propext
* C26_order: Classical.choice, Quot.sound, propext
* C27_blocks_partial: Classical.choice, Quot.sound, propext
* C27_violated: Classical.choice, Quot.sound, propext
* C28_branches_partial: Classical.choice, Quot.sound, propext
* C28_violated: Classical.choice, Quot.sound, propext
* C29_minus_partial: Classical.choice, Quot.sound, propext
* C29_not_partial: Classical.choice, Quot.sound, propext
* C29_violated: Classical.choice, Quot.sound, propext
* C30_binary: Classical.choice, Quot.sound, propext
* C30_everywhere: Classical.choice, Quot.sound, propext
* C30_minus: Classical.choice, Quot.sound, propext
* C30_not: Classical.choice, Quot.sound, propext
* C30_not_right: Classical.choice, Quot.sound, propext
* C31_headers: Classical.choice, Quot.sound, propext
* C32_colons: Classical.choice, Quot.sound, propext
* C33_accepts: Classical.choice, Quot.sound, propext
* C33_lexical_error: Classical.choice, Quot.sound, propext
* C33_same_tokens: Classical.choice, Quot.sound, propext
* C34_exact_iff: Classical.choice, Quot.sound, propext
* C34_integers_partial: Classical.choice, Quot.sound, propext
* C34_violated: Classical.choice, Quot.sound, propext
* C35_signs_partial: Classical.choice, Quot.sound, propext
* C35_violated: Classical.choice, Quot.sound, propext
* C36_globals_partial: Classical.choice, Quot.sound, propext
* C36_violated: Classical.choice, Quot.sound, propext
* C37_tokens_partial: Classical.choice, Quot.sound, propext
* C37_violated: Classical.choice, Quot.sound, propext
* C38_roundtrip_partial: Classical.choice, Quot.sound, propext
* C38_violated: Classical.choice, Quot.sound, propext
* C39_determined: Classical.choice, Quot.sound, propext
* C39_order: Classical.choice, Quot.sound, propext
* C40_any_callback: Quot.sound, propext
* C40_walk_visits: Quot.sound, propext
* C41_reported: Classical.choice, Quot.sound, propext
* C41_root_partial: Quot.sound, propext
* C41_violated: Classical.choice, Quot.sound, propext
* C42_replaced_partial: propext
* C42_unchanged: propext
* C42_violated: Classical.choice, Quot.sound, propext
* C43_accepted_partial: Classical.choice, Quot.sound, propext
* C43_modules_iff_partial: Classical.choice, Quot.sound, propext
* C43_modules_partial: Classical.choice, Quot.sound, propext
* C43_statements_partial: Classical.choice, Quot.sound, propext
* C43_violated: Classical.choice, Quot.sound, propext
* C44_again_partial: Classical.choice, Quot.sound, propext
* C44_blank: Classical.choice, Quot.sound, propext
* C44_same_partial: Classical.choice, Quot.sound, propext
* C44_violated: Classical.choice, Quot.sound, propext
* C45_accesses: Classical.choice, Quot.sound, propext
* C45_accesses_panic: Classical.choice, Quot.sound, propext
* C45_any_schedule: Classical.choice, Quot.sound, propext
* C45_panic: Classical.choice, Quot.sound, propext
* C45_rounds: Classical.choice, Quot.sound, propext
* C46_iff: Classical.choice, Quot.sound, propext
* C46_program: Classical.choice, Quot.sound, propext
* C47_end: Classical.choice, Quot.sound, propext
* C47_first: Classical.choice, Quot.sound, propext
* C47_named: Classical.choice, Quot.sound, propext
* C48_syntax_partial: Classical.choice, Quot.sound, propext
* C48_violated: Classical.choice, Quot.sound, propext
* C49_accepted: Classical.choice, Quot.sound, propext
* C49_error: Classical.choice, Quot.sound, propext
* C49_texts: Classical.choice, Quot.sound, propext
* C49_tokens: Classical.choice, Quot.sound, propext
* C49_unique: Classical.choice, Quot.sound, propext
* C50_exact_partial: Classical.choice, Quot.sound, propext
* C50_same_partial: Classical.choice, Quot.sound, propext
* C50_violated: Classical.choice, Quot.sound, propext
* C51_whole: Classical.choice, Quot.sound, propext
* C52_json: Classical.choice, Quot.sound, propext
* C52_print: Classical.choice, Quot.sound, propext
* C53_from_text: Classical.choice, Quot.sound, propext
* C53_tokens: Classical.choice, Quot.sound, propext
* C54_joined_partial: Classical.choice, Quot.sound, propext
* C54_violated: Classical.choice, Quot.sound, propext
* C55_accepted_iff: Classical.choice, Quot.sound, propext
* C55_accepts: Classical.choice, Quot.sound, propext
* C55_one_name: Classical.choice, Quot.sound, propext
* C55_renamed: Classical.choice, Quot.sound, propext
* C56_calls: Quot.sound, propext
* C56_parent: Classical.choice, Quot.sound, propext
* C57_last: Classical.choice, Quot.sound, propext
* C57_only: Classical.choice, Quot.sound, propext
* C57_panics: Classical.choice, Quot.sound, propext
* C57_rules: Classical.choice, Quot.sound, propext
* C57_true: Classical.choice, Quot.sound, propext
* C58_growth: Classical.choice, Quot.sound, propext
* C58_old: Classical.choice, Quot.sound, propext
* C58_one: propext
* C58_reads: Classical.choice, Quot.sound, propext
* C59_apart_partial: Classical.choice, Quot.sound, propext
* C59_local: propext
* C59_store_partial: Classical.choice, Quot.sound, propext
* C59_violated: Classical.choice, Quot.sound, propext
* C60_no_slice: Classical.choice, Quot.sound, propext
* C60_parse: Classical.choice, Quot.sound, propext
* C60_position: Classical.choice, Quot.sound, propext
* C60_same: Classical.choice, Quot.sound, propext
* C61_keyword: Classical.choice, Quot.sound, propext
* C61_readable: Classical.choice, Quot.sound, propext
* C61_same: Classical.choice, Quot.sound, propext
* C61_same_accepts: Classical.choice, Quot.sound, propext
* C61_tokens: Classical.choice, Quot.sound, propext
* C62_lines: Classical.choice, Quot.sound, propext
* C62_one_line: Classical.choice, Quot.sound, propext
* C62_text_lines: Classical.choice, Quot.sound, propext
* C63_only: Classical.choice, Quot.sound, propext
* C63_safe: Classical.choice, Quot.sound, propext
* C63_same: Classical.choice, Quot.sound, propext
* C63_valid: Classical.choice, Quot.sound, propext
* C64_default: Classical.choice, Quot.sound, propext
* C64_lines: Classical.choice, Quot.sound, propext
* C64_part: Classical.choice, Quot.sound, propext
* C64_text_lines: Classical.choice, Quot.sound, propext
* C65_reads_partial: Classical.choice, Quot.sound, propext
* C65_turned_partial: Classical.choice, Quot.sound, propext
* C65_violated: Classical.choice, Quot.sound, propext
* C66_apart: Classical.choice, Quot.sound, propext
* C67_accepts: Classical.choice, Quot.sound, propext
* C67_accepts_iff: Classical.choice, Quot.sound, propext
* C67_names: Classical.choice, Quot.sound, propext
* C67_parse: Classical.choice, Quot.sound, propext
* C67_tokens: Classical.choice, Quot.sound, propext
* C68_at_most: Classical.choice, Quot.sound, propext
* C68_exponential: Classical.choice, Quot.sound, propext
* C68_length_partial: Classical.choice, Quot.sound, propext
* C68_no_power: Classical.choice, Quot.sound, propext
* C68_print_walk: Classical.choice, Quot.sound, propext
* C68_size_partial: Classical.choice, Quot.sound, propext
* C68_tokens: Classical.choice, Quot.sound, propext
* C68_violated: Classical.choice, Quot.sound, propext
* C69_place: Classical.choice, Quot.sound, propext
* C69_printable: Classical.choice, Quot.sound, propext
* C69_quote: Classical.choice, Quot.sound, propext
* C69_some: Classical.choice, Quot.sound, propext
* C69_text: Classical.choice, Quot.sound, propext
* C70_accepted: Classical.choice, Quot.sound, propext
* C70_kept: Classical.choice, Quot.sound, propext
* C70_tokens: Classical.choice, Quot.sound, propext
* C71_calls: Classical.choice, Quot.sound, propext
* C71_linear: Classical.choice, Quot.sound, propext
* C71_same: Classical.choice, Quot.sound, propext
* C72_lines: Classical.choice, Quot.sound, propext
* C72_quiet_partial: Classical.choice, Quot.sound, propext
* C72_violated: Classical.choice, Quot.sound, propext
* C73_accepted_partial: Classical.choice, Quot.sound, propext
* C73_at_most: Classical.choice, Quot.sound, propext
* C73_counted: Classical.choice, Quot.sound, propext
* C73_only: Classical.choice, Quot.sound, propext
* C73_quadratic: Classical.choice, Quot.sound, propext
* C73_violated: Classical.choice, Quot.sound, propext
* C74_printed_partial: Classical.choice, Quot.sound, propext
* C74_text: Classical.choice, Quot.sound, propext
* C74_violated: Classical.choice, Quot.sound, propext
* C75_comment_partial: Classical.choice, Quot.sound, propext
* C75_foreign: Classical.choice, Quot.sound, propext
* C75_violated: Classical.choice, Quot.sound, propext
* C75_violated_bytes: Classical.choice, Quot.sound, propext
* C76_exact_partial: Classical.choice, Quot.sound, propext
* C76_same_partial: Classical.choice, Quot.sound, propext
* C76_turned_partial: Classical.choice, Quot.sound, propext
* C76_twice_partial: Classical.choice, Quot.sound, propext
* C76_violated: Classical.choice, Quot.sound, propext
* C77_same_partial: Classical.choice, Quot.sound, propext
* C77_violated: Classical.choice, Quot.sound, propext
* C78_headers_partial: Classical.choice, Quot.sound, propext
* C78_violated: Classical.choice, Quot.sound, propext
* C78_written_partial: Classical.choice, Quot.sound, propext
* C79_parsed: Classical.choice, Quot.sound, propext
* C79_reads_partial: Classical.choice, Quot.sound, propext
* C79_same_partial: Classical.choice, Quot.sound, propext
* C79_violated: Classical.choice, Quot.sound, propext
* C80_accepted: Classical.choice, Quot.sound, propext
* C80_trees: Classical.choice, Quot.sound, propext
* C81_labels_partial: Classical.choice, Quot.sound, propext
* C81_violated: Classical.choice, Quot.sound, propext
* C82_is_method: Classical.choice, Quot.sound, propext
* C83_call_partial: Classical.choice, Quot.sound, propext
* C83_new_name: Classical.choice, Quot.sound, propext
* C83_new_partial: Classical.choice, Quot.sound, propext
* C83_violated: Classical.choice, Quot.sound, propext
* C84_arrays: Classical.choice, Quot.sound, propext
* C84_longest: Classical.choice, Quot.sound, propext
* C84_shared: Classical.choice, Quot.sound, propext
* C84_statements: Classical.choice, Quot.sound, propext
* C85_append: propext
* C85_calls: Quot.sound, propext
* C85_procedure: Classical.choice, Quot.sound, propext
* C85_replaced: propext
* C85_told: Classical.choice, Quot.sound, propext
* C85_visits: Quot.sound, propext
* C86_rest: Classical.choice, Quot.sound, propext
* C86_shown_partial: Classical.choice, Quot.sound, propext
* C86_violated: Classical.choice, Quot.sound, propext
* C87_calls_partial: Classical.choice, Quot.sound, propext
* C87_length_partial: Classical.choice, Quot.sound, propext
* C87_violated: Classical.choice, Quot.sound, propext
