Ocr.CList.c01_lists_are_sequences: propext, Classical.choice, Quot.sound
Ocr.CList.c01_in_array: propext, Classical.choice, Quot.sound
Ocr.CList.c01_empty_processes_all: propext, Classical.choice, Quot.sound
Ocr.Table.c02_tables_are_stores: propext, Classical.choice, Quot.sound
Ocr.Table.c02_lookup_hits: propext, Classical.choice, Quot.sound
Ocr.Table.c02_in_array: propext, Classical.choice, Quot.sound
Ocr.Table.c02_empty: propext, Classical.choice, Quot.sound
Ocr.Table.c02_store: propext, Classical.choice, Quot.sound
Ocr.Sort.c03_sort_permutes: propext, Classical.choice, Quot.sound
Ocr.Sort.c03_sort_sorts: propext, Classical.choice, Quot.sound
Ocr.c04_terms_by_key: propext, Classical.choice, Quot.sound
Ocr.c04_terms_by_count: propext, Classical.choice, Quot.sound
Ocr.c04_confusions: propext, Classical.choice, Quot.sound
Ocr.c04_ngrams_by_value: propext, Classical.choice, Quot.sound
Ocr.c04_ngrams_by_count: propext, Classical.choice, Quot.sound
Ocr.c04_false_beyond_int_range: propext, Quot.sound
Ocr.c05_ustrcmp: propext, Classical.choice, Quot.sound
Ocr.Text.c06_decodes: propext, Classical.choice, Quot.sound
Ocr.Text.c06_rejects: propext, Classical.choice, Quot.sound
Ocr.Text.c07_markers: propext, Classical.choice, Quot.sound
Ocr.Text.c08_normal_form: propext, Classical.choice, Quot.sound
Ocr.Text.c09_content: propext, Classical.choice, Quot.sound
Ocr.Text.c09_keeps_visible: propext, Classical.choice, Quot.sound
Ocr.Text.c10_fits_partial: propext, Classical.choice, Quot.sound
Ocr.Text.c10_overflow: propext, Classical.choice, Quot.sound
Ocr.Text.c11_report_chars: propext, Classical.choice, Quot.sound
Ocr.Text.c12_keys: propext, Classical.choice, Quot.sound
Ocr.Text.c12_five_characters_collide: propext, Classical.choice, Quot.sound
Ocr.Text.c13_round_trip: propext, Classical.choice, Quot.sound
Ocr.Text.c13_round_trip_header: propext, Classical.choice, Quot.sound
Ocr.Text.c13_false_for_combining: propext, Classical.choice, Quot.sound
Ocr.Text.c14_header_skipped: propext, Classical.choice, Quot.sound
Ocr.Text.c14_no_header: propext, Classical.choice, Quot.sound
Ocr.Text.c14_false_for_long_lines: propext, Classical.choice, Quot.sound
Ocr.Charclass.c15_class: propext, Classical.choice, Quot.sound
Ocr.Charclass.c15_same: propext, Classical.choice, Quot.sound
Ocr.Charclass.c15_last: propext, Classical.choice, Quot.sound
Ocr.Sync.c16_optimal: propext, Classical.choice, Quot.sound
Ocr.Sync.c17_alignment: propext, Classical.choice, Quot.sound
Ocr.Sync.c18_no_error: propext, Classical.choice, Quot.sound
Ocr.Sync.c19_alignment: propext, Classical.choice, Quot.sound
Ocr.Sync.c19_refuses: propext
Ocr.Sync.c20_transpose: propext, Classical.choice, Quot.sound
Ocr.Acc.c21_consistent: propext, Classical.choice, Quot.sound
Ocr.Acc.c21_exact: propext, Classical.choice, Quot.sound
Ocr.Acc.c21_last: propext, Classical.choice, Quot.sound
Ocr.Acc.c22_edit_distance: propext, Classical.choice, Quot.sound
Ocr.Acc.c23_zero_errors: propext, Classical.choice, Quot.sound
Ocr.Acc.c24_confusions: propext, Classical.choice, Quot.sound
Ocr.Acc.c25_keys: propext, Classical.choice, Quot.sound
Ocr.Edo.c26_round_trip: propext, Classical.choice, Quot.sound
Ocr.Edo.c27_sum: propext, Classical.choice, Quot.sound
Ocr.Edo.c27_order: propext, Classical.choice, Quot.sound
Ocr.Edo.c27_written: propext, Classical.choice, Quot.sound
Ocr.Edo.c27_terminates: propext, Classical.choice, Quot.sound
Ocr.Acc.c28_round_trip: propext, Classical.choice, Quot.sound
Ocr.Acc.c28_accuracy: propext, Classical.choice, Quot.sound
Ocr.Acc.c28_wide: propext, Classical.choice, Quot.sound
Ocr.Acc.c28_terminates: propext, Classical.choice, Quot.sound
Ocr.Acc.c29_sum: propext, Classical.choice, Quot.sound
Ocr.Acc.c29_order: propext, Classical.choice, Quot.sound
Ocr.Acc.c29_written: propext, Classical.choice, Quot.sound
Ocr.Wac.c30_round_trip: propext, Classical.choice, Quot.sound
Ocr.Wac.c30_wide: propext, Classical.choice, Quot.sound
Ocr.Wac.c30_terminates: propext, Classical.choice, Quot.sound
Ocr.Wordacc.c30_wordacc: propext, Classical.choice, Quot.sound
Ocr.Wac.c31_sum: propext, Classical.choice, Quot.sound
Ocr.Wac.c31_order: propext, Classical.choice, Quot.sound
Ocr.Wac.c31_written: propext, Classical.choice, Quot.sound
Ocr.Wordacc.c32_lcs: propext, Classical.choice, Quot.sound
Ocr.Wordacc.c32_too_long: propext, Classical.choice, Quot.sound
Ocr.Wordacc.c32_misrecognized: propext, Classical.choice, Quot.sound
Ocr.Wordacc.c33_exact: propext, Classical.choice, Quot.sound
Ocr.Wordacc.c33_consistent: propext, Classical.choice, Quot.sound
Ocr.Wordacc.c33_long: propext, Classical.choice, Quot.sound
Ocr.Wordacc.c34_phrases: propext, Classical.choice, Quot.sound
Ocr.Word.c35_words: propext, Classical.choice, Quot.sound
Ocr.Word.c35_dropped: propext, Quot.sound
Ocr.Word.c36_uax: propext, Classical.choice, Quot.sound
Ocr.Word.c36_unique: propext, Classical.choice, Quot.sound
Ocr.Word.c36_deviation: propext, Quot.sound
Ocr.Word.c37_search: propext, Quot.sound
Ocr.Word.c37_table: propext, Quot.sound
Ocr.Word.c37_property: propext, Quot.sound
Ocr.Stopword.c38_file: propext, Classical.choice, Quot.sound
Ocr.Stopword.c38_default: propext, Classical.choice, Quot.sound
Ocr.Stopword.c38_calls: propext, Classical.choice, Quot.sound
Ocr.Vote.c39_vote: propext, Classical.choice, Quot.sound
Ocr.Vote.c39_unique: propext, Quot.sound
Ocr.Vote.c40_matched: propext, Quot.sound
Ocr.Vote.c40_unanimous: propext, Classical.choice, Quot.sound
Ocr.Vote.c41_marks: propext
Ocr.Vote.c41_unmarked: propext, Classical.choice, Quot.sound
Ocr.Vote.c42_fraction: propext, Classical.choice, Quot.sound
Ocr.Vote.c42_settings: propext, Classical.choice, Quot.sound
Ocr.Vote.c43_select: propext, Classical.choice, Quot.sound
Ocr.Vote.c43_closest: propext, Classical.choice, Quot.sound
Ocr.Ngram.c44_option: propext, Classical.choice, Quot.sound
Ocr.Ngram.c44_report: propext, Classical.choice, Quot.sound
Ocr.Ngram.c44_totals: propext, Classical.choice, Quot.sound
Ocr.Ngram.c44_unique: propext, Classical.choice, Quot.sound
Ocr.Wordfreq.c45_report: propext, Classical.choice, Quot.sound
Ocr.Wordfreq.c45_unique: propext, Classical.choice, Quot.sound
Ocr.Dist.c46_bounds: propext, Classical.choice, Quot.sound
Ocr.Dist.c46_survival: propext, Classical.choice, Quot.sound
Ocr.Dist.c46_monotone: propext, Classical.choice, Quot.sound
Ocr.Dist.c46_written: propext, Classical.choice, Quot.sound
Ocr.Ci.c47_any: propext, Classical.choice, Quot.sound
Ocr.Ci.c47_jackknife: propext, Classical.choice, Quot.sound
Ocr.Ci.c47_range: propext, Classical.choice, Quot.sound
Ocr.Ci.c47_error: propext, Classical.choice, Quot.sound
Ocr.Ci.c47_order: propext, Classical.choice, Quot.sound
Ocr.Ci.c47_collapse: propext, Classical.choice, Quot.sound
Ocr.Edo.c48_cost: propext, Classical.choice, Quot.sound
Ocr.Edo.c48_difference: propext, Classical.choice, Quot.sound
Ocr.Edo.c49_moves: propext, Classical.choice, Quot.sound
Ocr.Edo.c49_editop: propext, Classical.choice, Quot.sound
Ocr.Nonstopacc.c50_general: propext, Classical.choice, Quot.sound
Ocr.Nonstopacc.c50_exact: propext, Classical.choice, Quot.sound
Ocr.Nonstopacc.c50_program: propext, Classical.choice, Quot.sound
Ocr.Nonstopacc.c50_wordacc: propext, Classical.choice, Quot.sound
Ocr.Groupacc.c51_report: propext, Classical.choice, Quot.sound
Ocr.Groupacc.c51_program: propext, Classical.choice, Quot.sound
Ocr.Groupacc.c51_last: propext, Classical.choice, Quot.sound
Ocr.Groupacc.c51_repeated: propext, Classical.choice, Quot.sound
Ocr.Args.c52_accepts: propext, Classical.choice, Quot.sound
Ocr.Args.c52_rejects: propext, Classical.choice, Quot.sound
Ocr.Args.c52_total: propext, Classical.choice, Quot.sound
Ocr.Args.c52_many: propext, Classical.choice, Quot.sound
Ocr.Args.c52_null: propext, Classical.choice, Quot.sound
Ocr.Args.c53_base: propext, Quot.sound
Ocr.Args.c53_long: propext, Quot.sound
Ocr.Accdist.c54_accdist: propext, Classical.choice, Quot.sound
Ocr.Wordaccdist.c54_wordaccdist: propext, Classical.choice, Quot.sound
Ocr.Accci.c54_accci: propext, Classical.choice, Quot.sound
Ocr.Wordaccci.c54_wordaccci: propext, Classical.choice, Quot.sound
Ocr.Wordaccci.c54_written: propext, Classical.choice, Quot.sound
Ocr.Synctext.c55_document: propext, Classical.choice, Quot.sound
Ocr.Synctext.c55_content: propext, Classical.choice, Quot.sound
Ocr.Synctext.c55_restores: propext, Classical.choice, Quot.sound
Ocr.Synctext.c55_refuses: propext, Classical.choice, Quot.sound
Ocr.Synctext.c55_transposed: propext, Classical.choice, Quot.sound
Ocr.Synctext.c55_program: propext, Classical.choice, Quot.sound
Ocr.Edo.c56_differences: propext, Classical.choice, Quot.sound
Ocr.Text.c57_page: propext, Classical.choice, Quot.sound
Ocr.Text.c57_total: propext, Classical.choice, Quot.sound
Ocr.Text.c57_text: propext, Classical.choice, Quot.sound
Ocr.Text.c57_list: propext, Classical.choice, Quot.sound
Ocr.Text.c57_written: propext, Classical.choice, Quot.sound
Ocr.Prog.c58_accuracy: propext, Classical.choice, Quot.sound
Ocr.Prog.c58_refuses: propext, Classical.choice, Quot.sound
Ocr.Prog.c58_total: propext, Classical.choice, Quot.sound
Ocr.Prog.c59_wordacc: propext, Classical.choice, Quot.sound
Ocr.Prog.c59_refuses: propext, Classical.choice, Quot.sound
Ocr.Prog.c60_editop: propext, Classical.choice, Quot.sound
Ocr.Prog.c60_total: propext, Classical.choice, Quot.sound
Ocr.Prog.c61_vote: propext, Classical.choice, Quot.sound
Ocr.Prog.c61_unanimous: propext, Classical.choice, Quot.sound
Ocr.Prog.c62_editop: propext, Classical.choice, Quot.sound
Ocr.Prog.c62_accuracy: propext, Classical.choice, Quot.sound
Ocr.Prog.c62_wordacc: propext, Classical.choice, Quot.sound
Ocr.Sync.c63_greedy: propext, Classical.choice, Quot.sound
Ocr.Sync.c63_determined: propext, Quot.sound
Ocr.Sync.c63_two: propext, Classical.choice, Quot.sound
Ocr.Sync.c63_longest: propext, Classical.choice, Quot.sound
Ocr.Sync.c63_three: propext, Classical.choice, Quot.sound
Ocr.Prog.c64_ngram: propext, Classical.choice, Quot.sound
Ocr.Prog.c64_ngram_refuses: propext, Classical.choice, Quot.sound
Ocr.Prog.c64_ngram_total: propext, Classical.choice, Quot.sound
Ocr.Prog.c64_wordfreq: propext, Classical.choice, Quot.sound
Ocr.Prog.c64_wordfreq_refuses: propext, Classical.choice, Quot.sound
Ocr.Prog.c65_accdist: propext, Classical.choice, Quot.sound
Ocr.Prog.c65_accci: propext, Classical.choice, Quot.sound
Ocr.Prog.c65_wordaccdist: propext, Classical.choice, Quot.sound
Ocr.Prog.c65_wordaccci: propext, Classical.choice, Quot.sound
Ocr.Prog.c66_groupacc: propext, Classical.choice, Quot.sound
Ocr.Prog.c66_groupacc_refuses: propext, Classical.choice, Quot.sound
Ocr.Prog.c66_nonstopacc: propext, Classical.choice, Quot.sound
Ocr.Prog.c66_nonstopacc_refuses: propext, Classical.choice, Quot.sound
Ocr.Prog.c66_synctext: propext, Classical.choice, Quot.sound
Ocr.Prog.c66_synctext_restores: propext, Classical.choice, Quot.sound
Ocr.Prog.c66_synctext_transposed: propext, Classical.choice, Quot.sound
Ocr.Prog.c66_synctext_refuses: propext, Classical.choice, Quot.sound
Ocr.Acc.c67_confusions: propext, Classical.choice, Quot.sound
Ocr.Acc.c67_report: propext, Classical.choice, Quot.sound
Ocr.Acc.c67_abbreviated: propext, Classical.choice, Quot.sound
Ocr.Prog.c68_classes: propext, Classical.choice, Quot.sound
Ocr.Prog.c68_accuracy: propext, Classical.choice, Quot.sound
Ocr.Prog.c68_wordacc: propext, Classical.choice, Quot.sound
Ocr.Prog.c68_editop: propext, Classical.choice, Quot.sound
Ocr.Prog.c68_accsum: propext, Classical.choice, Quot.sound
Ocr.Prog.c68_wordaccsum: propext, Classical.choice, Quot.sound
Ocr.Prog.c68_editopsum: propext, Classical.choice, Quot.sound
Ocr.AnyReport.c69_lines: propext, Quot.sound
Ocr.AnyReport.c69_editop: propext, Classical.choice, Quot.sound
Ocr.AnyReport.c69_wordacc: propext, Classical.choice, Quot.sound
Ocr.AnyReport.c69_accuracy: propext, Classical.choice, Quot.sound
Ocr.AnyReport.c69_rows: propext, Classical.choice, Quot.sound
Ocr.AnyReport.c69_char: propext, Classical.choice, Quot.sound
Ocr.AnyReport.c69_unique: propext, Classical.choice, Quot.sound
Ocr.AnyReport.c69_decimal: propext, Classical.choice, Quot.sound
Ocr.AnyReport.c69_decimals: propext, Classical.choice, Quot.sound
Ocr.AnyReport.c69_hexadecimal: propext, Classical.choice, Quot.sound
Ocr.AnyReport.c69_printed: propext, Classical.choice, Quot.sound
Ocr.Text.c70_cstring: propext, Classical.choice, Quot.sound
Ocr.Text.c70_unique: propext, Classical.choice, Quot.sound
Ocr.Text.c70_same: propext, Classical.choice, Quot.sound
Ocr.Ending.c71_editopsum: propext, Classical.choice, Quot.sound
Ocr.Ending.c71_editopcost: propext, Classical.choice, Quot.sound
Ocr.Ending.c71_wordaccsum: propext, Classical.choice, Quot.sound
Ocr.Ending.c71_wordaccdist: propext, Classical.choice, Quot.sound
Ocr.Ending.c71_wordaccci: propext, Classical.choice, Quot.sound
Ocr.Ending.c71_accsum: propext, Classical.choice, Quot.sound
Ocr.Ending.c71_accdist: propext, Classical.choice, Quot.sound
Ocr.Ending.c71_accci: propext, Classical.choice, Quot.sound
Ocr.AnyText.c72_read: propext, Classical.choice, Quot.sound
Ocr.AnyText.c72_refused: propext, Classical.choice, Quot.sound
Ocr.AnyText.c72_one: propext, Classical.choice, Quot.sound
Ocr.AnyText.c72_body: propext, Classical.choice, Quot.sound
Ocr.AnyText.c72_holds: propext, Classical.choice, Quot.sound
Ocr.Ending.c73_accuracy: propext, Classical.choice, Quot.sound
Ocr.Ending.c73_editop: propext, Classical.choice, Quot.sound
Ocr.Ending.c73_wordfreq: propext, Classical.choice, Quot.sound
Ocr.Ending.c73_ngram: propext, Classical.choice, Quot.sound
Ocr.Ending.c74_wordacc: propext, Classical.choice, Quot.sound
Ocr.Ending.c74_groupacc: propext, Classical.choice, Quot.sound
Ocr.Ending.c74_nonstopacc: propext, Classical.choice, Quot.sound
Ocr.Ending.c75_result: propext, Classical.choice, Quot.sound
Ocr.Ending.c75_fits: propext, Classical.choice, Quot.sound
Ocr.Ending.c75_vote: propext, Classical.choice, Quot.sound
Ocr.Ending.c75_synctext: propext, Classical.choice, Quot.sound
Ocr.Edo.c76_moves: propext, Classical.choice, Quot.sound
Ocr.Edo.c76_saving: propext, Classical.choice, Quot.sound
Ocr.Edo.c76_editop: propext, Classical.choice, Quot.sound
Ocr.Prog.c76_program: propext, Classical.choice, Quot.sound
Ocr.Vote.c77_select: propext, Classical.choice, Quot.sound
Ocr.Ending.c77_program: propext, Classical.choice, Quot.sound
Ocr.Fp.c78_nearest: propext, Classical.choice, Quot.sound
Ocr.Fp.c78_range: propext, Classical.choice, Quot.sound
Ocr.Fp.c78_format: propext, Classical.choice, Quot.sound
Ocr.Fp.c78_monotone: propext, Classical.choice, Quot.sound
Ocr.Fp.c78_full: propext, Classical.choice, Quot.sound
Ocr.Prog.c78_accuracy: propext, Classical.choice, Quot.sound
Ocr.Dist.c79_update: propext, Classical.choice, Quot.sound
Ocr.Ending.c79_accdist: propext, Classical.choice, Quot.sound
Ocr.Ending.c79_wordaccdist: propext, Classical.choice, Quot.sound
Ocr.Vote.c80_select: propext, Classical.choice, Quot.sound
Ocr.Vote.c80_limit: propext, Classical.choice, Quot.sound
Ocr.Ending.c80_program: propext, Classical.choice, Quot.sound
Ocr.FileOrder.c81_editopsum: propext, Classical.choice, Quot.sound
Ocr.FileOrder.c81_accsum: propext, Classical.choice, Quot.sound
Ocr.FileOrder.c81_wordaccsum: propext, Classical.choice, Quot.sound
Ocr.FileOrder.c81_accdist: propext, Classical.choice, Quot.sound
Ocr.FileOrder.c81_wordaccdist: propext, Classical.choice, Quot.sound
Ocr.FileOrder.c81_accci: propext, Classical.choice, Quot.sound
Ocr.FileOrder.c81_wordaccci: propext, Classical.choice, Quot.sound
Ocr.FileOrder.c81_wordfreq: propext, Classical.choice, Quot.sound
Ocr.FileOrder.c81_ngram: propext, Classical.choice, Quot.sound
Ocr.Across.c82_accuracy: propext, Classical.choice, Quot.sound
Ocr.Across.c82_triangle: propext, Classical.choice, Quot.sound
Ocr.Across.c82_pages: propext, Classical.choice, Quot.sound
Ocr.Across.c82_editop: propext, Classical.choice, Quot.sound
Ocr.Across.c82_wordacc: propext, Classical.choice, Quot.sound
Ocr.Across.c82_perfect: propext, Classical.choice, Quot.sound
Ocr.Sync.c83_transposed: propext, Classical.choice, Quot.sound
Ocr.Sync.c83_longest: propext, Classical.choice, Quot.sound
Ocr.Sync.c83_same: propext, Classical.choice, Quot.sound
Ocr.Edo.c83_editop: propext, Classical.choice, Quot.sound
Ocr.Edo.c83_zero: propext, Classical.choice, Quot.sound
Ocr.Across.c83_programs: propext, Classical.choice, Quot.sound
Ocr.Vote.c84_neighbours: propext, Classical.choice, Quot.sound
Ocr.Vote.c84_but_one: propext, Classical.choice, Quot.sound
Ocr.Vote.c84_lost: propext, Classical.choice, Quot.sound
Ocr.Vote.c84_optimized: propext, Classical.choice, Quot.sound
Ocr.Vote.c84_anagram: propext, Classical.choice, Quot.sound
Ocr.Vote.c84_three: propext, Classical.choice, Quot.sound
Ocr.Vote.c84_wins: propext, Classical.choice, Quot.sound
Ocr.Prog.c84_files: propext, Classical.choice, Quot.sound
Ocr.Ci.c85_range: propext, Classical.choice, Quot.sound
Ocr.Ci.c85_outcome: propext, Classical.choice, Quot.sound
Ocr.Ci.c85_error: propext, Classical.choice, Quot.sound
Ocr.Ci.c85_report: propext, Classical.choice, Quot.sound
Ocr.Ending.c85_accci: propext, Classical.choice, Quot.sound
Ocr.Ending.c85_wordaccci: propext, Classical.choice, Quot.sound
Ocr.Ending.c85_accci_ends: propext, Classical.choice, Quot.sound
Ocr.Ending.c85_wordaccci_ends: propext, Classical.choice, Quot.sound
Ocr.Sync.c86_same: propext, Classical.choice, Quot.sound
Ocr.Sync.c86_work: propext, Classical.choice, Quot.sound
Ocr.Sync.c86_ukkonen: propext, Classical.choice, Quot.sound
Ocr.Sync.c86_reduction: propext, Classical.choice, Quot.sound
Ocr.Sync.c86_items: propext, Classical.choice, Quot.sound
Ocr.Process.c87_number: propext, Classical.choice, Quot.sound
Ocr.Process.c87_words: propext, Classical.choice, Quot.sound
Ocr.Process.c87_lists: propext, Classical.choice, Quot.sound
Ocr.Process.c87_values: propext, Classical.choice, Quot.sound
Ocr.Process.c87_texts: propext, Classical.choice, Quot.sound
Ocr.Process.c87_reports: propext, Classical.choice, Quot.sound
Ocr.Process.c87_command: propext, Classical.choice, Quot.sound
Ocr.Process.c87_editop: propext, Classical.choice, Quot.sound
Ocr.Process.c87_wordacc: propext, Classical.choice, Quot.sound
Ocr.Process.c87_accuracy: propext, Classical.choice, Quot.sound
Ocr.Process.c87_cases: propext, Classical.choice, Quot.sound
Ocr.Process.c87_utf8: propext, Classical.choice, Quot.sound
Ocr.Process.c87_pair: propext, Classical.choice, Quot.sound
Ocr.Process.c87_many: propext, Classical.choice, Quot.sound
Ocr.Process.c87_create: propext, Classical.choice, Quot.sound
Ocr.Process.c87_quiet: propext, Classical.choice, Quot.sound
Ocr.Process.c87_warnings: propext, Classical.choice, Quot.sound
Ocr.Process.c87_text_cases: propext, Classical.choice, Quot.sound
Ocr.Heap.c88_synchronize: propext, Classical.choice, Quot.sound
Ocr.Heap.c88_transpose: propext, Classical.choice, Quot.sound
Ocr.Heap.c88_editop: propext, Classical.choice, Quot.sound
Ocr.Heap.c88_editop_total: propext, Classical.choice, Quot.sound
Ocr.Paths.c89_fastukk: propext, Classical.choice, Quot.sound
Ocr.Paths.c89_start: none
Ocr.Sort.c90_sort: propext, Classical.choice, Quot.sound
Ocr.Sort.c90_sorted: propext, Classical.choice, Quot.sound
Ocr.Sort.c90_equal: propext, Classical.choice, Quot.sound
Ocr.Sort.c90_wordfreq: propext, Classical.choice, Quot.sound
Ocr.Sort.c90_ngram: propext, Classical.choice, Quot.sound
Ocr.Wordacc.c91_work: propext, Classical.choice, Quot.sound
Ocr.Wordacc.c91_equal: propext, Classical.choice, Quot.sound
Ocr.Wordacc.c91_reverse: propext, Classical.choice, Quot.sound
Ocr.TextHeap.c92_any_use: propext, Classical.choice, Quot.sound
Ocr.TextHeap.c92_read: propext, Classical.choice, Quot.sound
Ocr.TextHeap.c92_wordfreq: propext, Classical.choice, Quot.sound
Ocr.TextHeap.c92_ngram: propext, Classical.choice, Quot.sound
Ocr.TextHeap.c92_stopword: propext, Classical.choice, Quot.sound
Ocr.Temp.c93_fits: propext, Classical.choice, Quot.sound
Ocr.Temp.c93_processes: propext, Classical.choice, Quot.sound
Ocr.Temp.c93_clash: propext, Classical.choice, Quot.sound
Ocr.Temp.c93_session: propext, Classical.choice, Quot.sound
Ocr.Temp.c93_none: propext, Classical.choice, Quot.sound
Ocr.Temp.c93_endless: propext, Classical.choice, Quot.sound
Ocr.Acc.c94_accuracy: propext, Classical.choice, Quot.sound
Ocr.Edo.c94_editop: propext, Classical.choice, Quot.sound
Ocr.Wordacc.c94_wordacc: propext, Classical.choice, Quot.sound
Ocr.Ranges.c94_long: propext, Classical.choice, Quot.sound
Ocr.Vote.c95_values: propext, Classical.choice, Quot.sound
Ocr.Vote.c95_same: propext, Classical.choice, Quot.sound
Ocr.Vote.c95_program: propext, Classical.choice, Quot.sound
Ocr.Sync.c96_longest: propext, Classical.choice, Quot.sound
Ocr.Sync.c96_synchronize: propext, Classical.choice, Quot.sound
Ocr.Sync.c96_refused: propext
Ocr.Sync.c96_transpose: propext, Classical.choice, Quot.sound
Ocr.Sync.c96_apart: propext, Classical.choice, Quot.sound
Ocr.Disk.c97_unnamed: propext, Classical.choice, Quot.sound
Ocr.Disk.c97_reports: propext, Classical.choice, Quot.sound
Ocr.Disk.c97_texts: propext, Classical.choice, Quot.sound
Ocr.Disk.c97_output: propext, Classical.choice, Quot.sound
Ocr.Disk.c97_stdout: propext, Classical.choice, Quot.sound
Ocr.Disk.c97_batch: propext, Classical.choice, Quot.sound
Ocr.Disk.c97_streams: propext
Ocr.Signal.c98_setup: propext, Quot.sound
Ocr.Signal.c98_killed: propext, Classical.choice, Quot.sound
Ocr.Signal.c98_once: propext, Classical.choice, Quot.sound
Ocr.Signal.c98_files: propext, Classical.choice, Quot.sound
Ocr.Signal.c98_part: propext, Classical.choice, Quot.sound
Ocr.Disk.c99_onto: propext, Classical.choice, Quot.sound
Ocr.Disk.c99_editop: propext, Classical.choice, Quot.sound
Ocr.Disk.c99_wordacc: propext, Classical.choice, Quot.sound
Ocr.Gen.c100_generate: propext, Classical.choice, Quot.sound
Ocr.Gen.c100_shipped: propext, Classical.choice, Quot.sound
Ocr.Gen.c100_unique: propext, Classical.choice, Quot.sound
Ocr.Gen.c100_any: propext, Classical.choice, Quot.sound
Ocr.Gen.c100_refused: propext, Classical.choice, Quot.sound
Ocr.Text.c101_unique: propext, Classical.choice, Quot.sound
Ocr.Text.c101_char: propext, Classical.choice, Quot.sound
Ocr.Text.c101_file: propext, Classical.choice, Quot.sound
Ocr.Text.c101_names: propext, Classical.choice, Quot.sound
Ocr.Text.c101_ngram: propext, Classical.choice, Quot.sound
Ocr.Prog.c102_crash_words: propext, Classical.choice, Quot.sound
Ocr.Prog.c102_left: propext, Classical.choice, Quot.sound
Ocr.Prog.c102_left_accuracy: propext, Classical.choice, Quot.sound
Ocr.Disk.c102_reports: propext, Classical.choice, Quot.sound
Ocr.Disk.c102_texts: propext, Classical.choice, Quot.sound
Ocr.Disk.c102_editop: propext, Classical.choice, Quot.sound
Ocr.Disk.c102_wordacc: propext, Classical.choice, Quot.sound
Ocr.Disk.c102_accuracy: propext, Classical.choice, Quot.sound
Ocr.Disk.c102_sums: propext, Classical.choice, Quot.sound
Ocr.Disk.c102_crash: propext, Classical.choice, Quot.sound
Ocr.Disk.c102_safe: propext, Classical.choice, Quot.sound
Ocr.Alike.c103_synchronize: propext, Classical.choice, Quot.sound
Ocr.Alike.c103_two: propext, Classical.choice, Quot.sound
Ocr.Alike.c103_editop: propext, Classical.choice, Quot.sound
Ocr.Alike.c103_accuracy: propext, Classical.choice, Quot.sound
Ocr.Alike.c103_vote: propext, Classical.choice, Quot.sound
Ocr.Across.c104_accuracy: propext, Classical.choice, Quot.sound
Ocr.Across.c104_wordacc: propext, Classical.choice, Quot.sound
Ocr.Across.c104_words: propext, Classical.choice, Quot.sound
Ocr.Across.c104_editop: propext, Classical.choice, Quot.sound
