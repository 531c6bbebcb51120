{
 "claims": [
  {
   "property": "C01",
   "status": "proved",
   "theorems": [
    "Ocr.CList.c01_lists_are_sequences",
    "Ocr.CList.c01_in_array",
    "Ocr.CList.c01_empty_processes_all"
   ],
   "note": "Pointer-level model of list.c with a shared heap; refinement to sequences by induction over legal histories."
  },
  {
   "property": "C02",
   "status": "proved",
   "theorems": [
    "Ocr.Table.c02_tables_are_stores",
    "Ocr.Table.c02_lookup_hits",
    "Ocr.Table.c02_in_array",
    "Ocr.Table.c02_empty",
    "Ocr.Table.c02_store"
   ],
   "note": "Pointer-level table.c on the list.c heap, several tables sharing one heap; lookup/count/array/empty for all legal histories. c02_store: with the contents of the entries in memory, find-or-create, table_in_array (with its order) and table_empty refine the list of entries (Store) over which the programs are modelled."
  },
  {
   "property": "C03",
   "status": "proved",
   "theorems": [
    "Ocr.Sort.c03_sort_permutes",
    "Ocr.Sort.c03_sort_sorts"
   ],
   "note": "Arbitrary comparator: terminates in bounds and permutes; total preorder on the elements: sorted. Element addressing is checked; comparator is a pure function."
  },
  {
   "property": "C04",
   "status": "proved",
   "theorems": [
    "Ocr.c04_terms_by_key",
    "Ocr.c04_terms_by_count",
    "Ocr.c04_confusions",
    "Ocr.c04_ngrams_by_value",
    "Ocr.c04_ngrams_by_count",
    "Ocr.c04_false_beyond_int_range"
   ],
   "note": "All five comparators; narrowing of long to int modelled exactly; c04_false_beyond_int_range shows the 2^31 bound is sharp."
  },
  {
   "property": "C05",
   "status": "proved",
   "theorems": [
    "Ocr.c05_ustrcmp"
   ],
   "note": "NUL-terminated strings modelled with checked byte access."
  },
  {
   "property": "C06",
   "status": "proved",
   "theorems": [
    "Ocr.Text.c06_decodes",
    "Ocr.Text.c06_rejects"
   ],
   "note": "UTF-8 encoding taken from Lean core's String.utf8EncodeChar; utf8proc_iterate/encode/utf8class modelled from utf8proc 2.x."
  },
  {
   "property": "C07",
   "status": "proved",
   "theorems": [
    "Ocr.Text.c07_markers"
   ],
   "note": "Position-by-position specification `marked`."
  },
  {
   "property": "C08",
   "status": "proved",
   "theorems": [
    "Ocr.Text.c08_normal_form"
   ],
   "note": "For every blank classification."
  },
  {
   "property": "C09",
   "status": "proved",
   "theorems": [
    "Ocr.Text.c09_content",
    "Ocr.Text.c09_keeps_visible"
   ],
   "note": "Full functional specification of compress_spacing plus preservation of visible characters."
  },
  {
   "property": "C10",
   "status": "partial",
   "theorems": [
    "Ocr.Text.c10_fits_partial",
    "Ocr.Text.c10_overflow"
   ],
   "note": "False in the code for marked unprintable characters from U+100000 on (c10_overflow); proved for everything else."
  },
  {
   "property": "C11",
   "status": "proved",
   "theorems": [
    "Ocr.Text.c11_report_chars"
   ],
   "note": "Under facts true of every Unicode version: NUL and surrogates not graphic, no ASCII combining marks."
  },
  {
   "property": "C12",
   "status": "proved",
   "theorems": [
    "Ocr.Text.c12_keys",
    "Ocr.Text.c12_five_characters_collide"
   ],
   "note": "Same Unicode facts; collision exhibited for five characters."
  },
  {
   "property": "C13",
   "status": "proved",
   "theorems": [
    "Ocr.Text.c13_round_trip",
    "Ocr.Text.c13_round_trip_header",
    "Ocr.Text.c13_false_for_combining"
   ],
   "note": "With and without header; failure for combining characters proved."
  },
  {
   "property": "C14",
   "status": "proved",
   "theorems": [
    "Ocr.Text.c14_header_skipped",
    "Ocr.Text.c14_no_header",
    "Ocr.Text.c14_false_for_long_lines"
   ],
   "note": "For lines that fit the 98-byte read buffer; failure beyond that proved with a witness."
  },
  {
   "property": "C15",
   "status": "proved",
   "theorems": [
    "Ocr.Charclass.c15_class",
    "Ocr.Charclass.c15_same",
    "Ocr.Charclass.c15_last"
   ],
   "note": "Initialization loop over the full range table with checked writes; class names for all code points below U+10FFFF; the out-of-range lookup for U+10FFFF is proved (c15_last)."
  },
  {
   "property": "C16",
   "status": "proved",
   "theorems": [
    "Ocr.Sync.c16_optimal"
   ],
   "note": "Level-by-level invariant of the pruned diagonal search (min_k/max_k pruning included), then backtrace; optimality against an inductive definition of edit scripts. diag values are unbounded integers (the F type is 64-bit; the length check against it is not modelled)."
  },
  {
   "property": "C17",
   "status": "proved",
   "theorems": [
    "Ocr.Sync.c17_alignment"
   ],
   "note": "Substrings tile both texts; matches equal, nonempty, reject-free; cells numbered consecutively."
  },
  {
   "property": "C18",
   "status": "proved",
   "theorems": [
    "Ocr.Sync.c18_no_error"
   ],
   "note": "All array reads in the model are checked and all loops have explicit bounds; the result is never ub, fuel or an error."
  },
  {
   "property": "C19",
   "status": "proved",
   "theorems": [
    "Ocr.Sync.c19_alignment",
    "Ocr.Sync.c19_refuses"
   ],
   "note": "Includes termination: a match is never adjacent to an older match, so the recursion only visits fresh unmatched regions. The model finds the item again by its match cell instead of holding a pointer."
  },
  {
   "property": "C20",
   "status": "proved",
   "theorems": [
    "Ocr.Sync.c20_transpose"
   ],
   "note": "Termination by the number of unmatched characters; exhaustion by maximality of longest_match."
  },
  {
   "property": "C21",
   "status": "proved",
   "theorems": [
    "Ocr.Acc.c21_consistent",
    "Ocr.Acc.c21_exact",
    "Ocr.Acc.c21_last"
   ],
   "note": "process_synclist on the result of fastukk_sync with checked array accesses; includes exact class counts and class sums. Hypothesis: correct text without U+10FFFF; with it the program provably accesses elements outside of its tables (c21_last)."
  },
  {
   "property": "C22",
   "status": "proved",
   "theorems": [
    "Ocr.Acc.c22_edit_distance"
   ],
   "note": "Follows the real fastukk_sync model; edit distance is an independent inductive definition."
  },
  {
   "property": "C23",
   "status": "proved",
   "theorems": [
    "Ocr.Acc.c23_zero_errors"
   ],
   "note": "Only the correct text needs to be free of '~'. Texts are those after reading (normalization: C08/C09)."
  },
  {
   "property": "C24",
   "status": "proved",
   "theorems": [
    "Ocr.Acc.c24_confusions"
   ],
   "note": "Also: keys distinct, counts positive, marked <= errors."
  },
  {
   "property": "C25",
   "status": "proved",
   "theorems": [
    "Ocr.Acc.c25_keys"
   ],
   "note": "Side buffers (28 bytes) and the key buffer (100 bytes) with checked strcat/sprintf, for all categories."
  },
  {
   "property": "C26",
   "status": "proved",
   "theorems": [
    "Ocr.Edo.c26_round_trip"
   ],
   "note": "For all data with long counters, non-negative moves of length 1..100 and no moves by length without a positive total."
  },
  {
   "property": "C27",
   "status": "proved",
   "theorems": [
    "Ocr.Edo.c27_sum",
    "Ocr.Edo.c27_order",
    "Ocr.Edo.c27_written",
    "Ocr.Edo.c27_terminates"
   ],
   "note": "Sum for arbitrary readable files; order independence for arbitrary files when one order succeeds; report of the sum for written reports; termination for every file."
  },
  {
   "property": "C28",
   "status": "proved",
   "theorems": [
    "Ocr.Acc.c28_round_trip",
    "Ocr.Acc.c28_accuracy",
    "Ocr.Acc.c28_wide",
    "Ocr.Acc.c28_terminates"
   ],
   "note": "Round trip for all Reportable data (counts < 10^8); data computed by accuracy for texts of less than 10^8 characters in total are shown reportable (c28_accuracy); wrong column for larger counts (c28_wide); reading terminates for every file.  %8.2f is a parameter with contract PctFormat."
  },
  {
   "property": "C29",
   "status": "proved",
   "theorems": [
    "Ocr.Acc.c29_sum",
    "Ocr.Acc.c29_order",
    "Ocr.Acc.c29_written"
   ],
   "note": "Sum for arbitrary readable files; byte-identical output for permuted files when summed confusion counts are in [0,2^31); report of the sum for written reports."
  },
  {
   "property": "C30",
   "status": "proved",
   "theorems": [
    "Ocr.Wac.c30_round_trip",
    "Ocr.Wac.c30_wide",
    "Ocr.Wac.c30_terminates",
    "Ocr.Wordacc.c30_wordacc"
   ],
   "note": "Round trip for all Reportable data (counts < 10^8, words of at most 68 bytes); wrong column for words counted 10^8 times or more (c30_wide); reading terminates for every file.  %8.2f is a parameter with contract PctFormat."
  },
  {
   "property": "C31",
   "status": "proved",
   "theorems": [
    "Ocr.Wac.c31_sum",
    "Ocr.Wac.c31_order",
    "Ocr.Wac.c31_written"
   ],
   "note": "Sum for arbitrary readable files; byte-identical output for permuted files, without bound on counts; report of the sum for written reports."
  },
  {
   "property": "C32",
   "status": "proved",
   "theorems": [
    "Ocr.Wordacc.c32_lcs",
    "Ocr.Wordacc.c32_too_long",
    "Ocr.Wordacc.c32_misrecognized"
   ],
   "note": "c32_lcs: for all word sequences with at most 65535 words of the correct text occurring in the other, the pruned O(ND) search terminates without invalid access and the flagged words are a longest common subsequence; c32_misrecognized: Misrecognized = Words - LCS length (words of at most 50 bytes, see C33); c32_too_long: beyond the limit the program stops with an error."
  },
  {
   "property": "C33",
   "status": "proved",
   "theorems": [
    "Ocr.Wordacc.c33_exact",
    "Ocr.Wordacc.c33_consistent",
    "Ocr.Wordacc.c33_long"
   ],
   "note": "c33_exact: every figure equals the independent count (Spec.Wordacc.Exact); c33_consistent: the sum identities; c33_long: any word of more than 50 bytes is counted outside the array (the bounds claim is false as it stands, shown by c33_long; the other theorems assume words of 1..50 bytes). Recognition flags are those produced by the alignment."
  },
  {
   "property": "C34",
   "status": "proved",
   "theorems": [
    "Ocr.Wordacc.c34_phrases"
   ],
   "note": "c34_phrases: counts of windows and of windows with a misrecognized word for L=1..8 (words of 1..50 bytes, otherwise c33_long)."
  },
  {
   "property": "C35",
   "status": "proved",
   "theorems": [
    "Ocr.Word.c35_words",
    "Ocr.Word.c35_dropped"
   ],
   "note": "c35_words: for every text with a character other than Extend/Format (or empty), find_words terminates without invalid access, the segments are nonempty, concatenate to the text, are cut exactly where the rules say (C36), and the words are the NFC strings of the segments starting with a word character. c35_dropped: a text of Extend/Format characters only yields no word (the claim is false there). Word break property, general category and NFC are arbitrary parameters; values below 0x110000."
  },
  {
   "property": "C36",
   "status": "proved",
   "theorems": [
    "Ocr.Word.c36_uax",
    "Ocr.Word.c36_unique",
    "Ocr.Word.c36_deviation"
   ],
   "note": "c35_words (rules with Extend/Format skipped, on the whole text; the rules are data in Spec/Word), c36_unique (the cuts determine the segments), c36_uax (exactly UAX #29 for Unicode 8.0 when no Extend/Format stands at the start or directly after CR/LF/Newline), c36_deviation (otherwise the program differs from UAX #29)."
  },
  {
   "property": "C37",
   "status": "proved",
   "theorems": [
    "Ocr.Word.c37_search",
    "Ocr.Word.c37_table",
    "Ocr.Word.c37_property"
   ],
   "note": "c37_search for every sorted table, c37_table for the table of word_break_property.h (all 1093 ranges, transcribed by a script), c37_property for every value."
  },
  {
   "property": "C38",
   "status": "proved",
   "theorems": [
    "Ocr.Stopword.c38_file",
    "Ocr.Stopword.c38_default",
    "Ocr.Stopword.c38_calls"
   ],
   "note": "For every list of words (file contents read and segmented) and for the 110 defaults; every order of calls of init_stopwords and is_stopword is covered."
  },
  {
   "property": "C39",
   "status": "proved",
   "theorems": [
    "Ocr.Vote.c39_vote",
    "Ocr.Vote.c39_unique"
   ],
   "note": "Region output decided round by round by plurality (Elected: most weighted votes, ties to the earliest proposal); the region ends when ending it is elected, so the remaining characters of the other voters are dropped (behaviour of the code, made explicit in the spec). Uniqueness of the result proved."
  },
  {
   "property": "C40",
   "status": "proved",
   "theorems": [
    "Ocr.Vote.c40_matched",
    "Ocr.Vote.c40_unanimous"
   ],
   "note": "For equal reject-free texts, with and without -O; texts shorter than 2^31 characters. Also: every matched region is reproduced for any texts."
  },
  {
   "property": "C41",
   "status": "proved",
   "theorems": [
    "Ocr.Vote.c41_marks",
    "Ocr.Vote.c41_unmarked"
   ],
   "note": "Mark iff votes <= threshold; without -s nothing is marked (weights are at least 1 by C42)."
  },
  {
   "property": "C42",
   "status": "proved",
   "theorems": [
    "Ocr.Vote.c42_fraction",
    "Ocr.Vote.c42_settings"
   ],
   "note": "For signed and unsigned char; c42_settings gives the complete behaviour of validate_args."
  },
  {
   "property": "C43",
   "status": "proved",
   "theorems": [
    "Ocr.Vote.c43_select",
    "Ocr.Vote.c43_closest"
   ],
   "note": "Medians and distances are exact (twice the value as an integer); float/double rounding above 2^23 / 2^52 is not modelled. Counts below 2^31. Medians and distances are exact in this model; C80 relates it to float and double."
  },
  {
   "property": "C44",
   "status": "proved",
   "theorems": [
    "Ocr.Ngram.c44_option",
    "Ocr.Ngram.c44_report",
    "Ocr.Ngram.c44_totals",
    "Ocr.Ngram.c44_unique"
   ],
   "note": "For all lists of readable files and n in 1..3: the listing, counts, suspect figures and totals; the listing is the only one with these figures in this order. Counters unbounded."
  },
  {
   "property": "C45",
   "status": "proved",
   "theorems": [
    "Ocr.Wordfreq.c45_report",
    "Ocr.Wordfreq.c45_unique"
   ],
   "note": "For all lists of readable files; both listings and totals. Counters unbounded."
  },
  {
   "property": "C46",
   "status": "proved",
   "theorems": [
    "Ocr.Dist.c46_bounds",
    "Ocr.Dist.c46_survival",
    "Ocr.Dist.c46_monotone",
    "Ocr.Dist.c46_written"
   ],
   "note": "Exact rational accuracies (equal to the comparison of doubles for counts below 2^46). c46_bounds: the write is in bounds iff the accuracy is below 101 percent. Counters unbounded."
  },
  {
   "property": "C47",
   "status": "proved",
   "theorems": [
    "Ocr.Ci.c47_any",
    "Ocr.Ci.c47_jackknife",
    "Ocr.Ci.c47_range",
    "Ocr.Ci.c47_error",
    "Ocr.Ci.c47_order",
    "Ocr.Ci.c47_collapse"
   ],
   "note": "Exact real arithmetic. c47_jackknife gives the value of the interval; division by zero is a distinct outcome (ub) that does not occur if no count is negative."
  },
  {
   "property": "C48",
   "status": "proved",
   "theorems": [
    "Ocr.Edo.c48_cost",
    "Ocr.Edo.c48_difference"
   ],
   "note": "One report and difference of two reports; the complete output of 101 lines."
  },
  {
   "property": "C49",
   "status": "proved",
   "theorems": [
    "Ocr.Edo.c49_moves",
    "Ocr.Edo.c49_editop"
   ],
   "note": "Moves is an independent relation: every counted move takes consecutive blocks to another place; the recorded lengths are the numbers of characters moved (capped at 100). Composed with transpose_sync for editop itself."
  },
  {
   "property": "C50",
   "status": "proved",
   "theorems": [
    "Ocr.Nonstopacc.c50_general",
    "Ocr.Nonstopacc.c50_exact",
    "Ocr.Nonstopacc.c50_program",
    "Ocr.Nonstopacc.c50_wordacc"
   ],
   "note": "c50_general covers repeated words (subtracted as often as listed); c50_exact, c50_program and c50_wordacc are for lists without repetitions. %6.2f is a parameter."
  },
  {
   "property": "C51",
   "status": "proved",
   "theorems": [
    "Ocr.Groupacc.c51_report",
    "Ocr.Groupacc.c51_program",
    "Ocr.Groupacc.c51_last",
    "Ocr.Groupacc.c51_repeated"
   ],
   "note": "For group files without U+10FFFF; with U+10FFFF the array access is out of bounds (c51_last). A character listed twice counts twice (c51_repeated)."
  },
  {
   "property": "C52",
   "status": "proved",
   "theorems": [
    "Ocr.Args.c52_accepts",
    "Ocr.Args.c52_rejects",
    "Ocr.Args.c52_total",
    "Ocr.Args.c52_many",
    "Ocr.Args.c52_null"
   ],
   "note": "For every option table with distinct names and every command line of at most 32768 arguments: success exactly if the arguments parse, exact operands and variables, exact message otherwise, no other outcome. show_usage is the outcome err \"usage\"."
  },
  {
   "property": "C53",
   "status": "proved",
   "theorems": [
    "Ocr.Args.c53_base",
    "Ocr.Args.c53_long"
   ],
   "note": "For paths of at most 32768 bytes; c53_long: beyond that (to 65535) the short position wraps and the result is undefined."
  },
  {
   "property": "C54",
   "status": "proved",
   "theorems": [
    "Ocr.Accdist.c54_accdist",
    "Ocr.Wordaccdist.c54_wordaccdist",
    "Ocr.Accci.c54_accci",
    "Ocr.Wordaccci.c54_wordaccci",
    "Ocr.Wordaccci.c54_written"
   ],
   "note": "For all sequences of readable reports; the printed result is that of the single reports' figures. c54_written composes with the report writer."
  },
  {
   "property": "C55",
   "status": "proved",
   "theorems": [
    "Ocr.Synctext.c55_document",
    "Ocr.Synctext.c55_content",
    "Ocr.Synctext.c55_restores",
    "Ocr.Synctext.c55_refuses",
    "Ocr.Synctext.c55_transposed",
    "Ocr.Synctext.c55_program"
   ],
   "note": "The printout of synctext is that of a document containing every text (c55_document, c55_content); from a printout without -s of brace-free texts a decoding function finds every text (c55_restores); -T: c55_transposed. Texts containing braces can be confused with marks, so restoration from the bytes alone is stated for brace-free texts."
  },
  {
   "property": "C56",
   "status": "proved",
   "theorems": [
    "Ocr.Edo.c56_differences"
   ],
   "note": "List.diff is multiset difference."
  },
  {
   "property": "C57",
   "status": "proved",
   "theorems": [
    "Ocr.Text.c57_page",
    "Ocr.Text.c57_total",
    "Ocr.Text.c57_text",
    "Ocr.Text.c57_list",
    "Ocr.Text.c57_written"
   ],
   "note": "c57_page: for files without a header, an equivalence with the byte-level description IsPage; c57_total: for every file, all options; c57_text: files with a header whose lines fit the 100-byte line buffer (longer header lines are split by fgets; then only c57_total applies)."
  },
  {
   "property": "C58",
   "status": "proved",
   "theorems": [
    "Ocr.Prog.c58_accuracy",
    "Ocr.Prog.c58_refuses",
    "Ocr.Prog.c58_total"
   ],
   "note": "accuracyMain with the file system as a function; HoldsText allows a vendor header on the generated file. Texts of together under 10^8 characters (report columns, C28). The output file is assumed creatable. c58_total covers arbitrary files and arguments."
  },
  {
   "property": "C59",
   "status": "proved",
   "theorems": [
    "Ocr.Prog.c59_wordacc",
    "Ocr.Prog.c59_refuses"
   ],
   "note": "Words of 1 to 50 bytes (C33: longer ones overflow an array), at most 65535 common words; the words are those described in C35/C36, NFC a parameter. c59_refuses: wrong number of files, missing stopword file."
  },
  {
   "property": "C60",
   "status": "proved",
   "theorems": [
    "Ocr.Prog.c60_editop",
    "Ocr.Prog.c60_total"
   ],
   "note": "The list of moves is that of C49; -D output not modelled. c60_total covers arbitrary files and arguments."
  },
  {
   "property": "C61",
   "status": "proved",
   "theorems": [
    "Ocr.Prog.c61_vote",
    "Ocr.Prog.c61_unanimous"
   ],
   "note": "Plurality as in C40/C41, options as in C42, choice of voters with -O as in C43. Texts of printable characters other than the marker (Writable)."
  },
  {
   "property": "C62",
   "status": "proved",
   "theorems": [
    "Ocr.Prog.c62_editop",
    "Ocr.Prog.c62_accuracy",
    "Ocr.Prog.c62_wordacc"
   ],
   "note": "Composition of C58-C60 with C29, C31, C27 and C48. The total size of the pages is below 10^8 (accuracy, wordacc) or 2^62 (editop), so that the columns of the reports suffice; U+10FFFF excluded in correct texts (C21)."
  },
  {
   "property": "C63",
   "status": "proved",
   "theorems": [
    "Ocr.Sync.c63_greedy",
    "Ocr.Sync.c63_determined",
    "Ocr.Sync.c63_two",
    "Ocr.Sync.c63_longest",
    "Ocr.Sync.c63_three"
   ],
   "note": "Greedy (Spec/Greedy.lean) describes the outcome in terms of strings, independently of positions in the synchronization list; c63_determined shows that it leaves no choice. c63_three is the counterexample to completeness for three texts (finding B17)."
  },
  {
   "property": "C64",
   "status": "proved",
   "theorems": [
    "Ocr.Prog.c64_ngram",
    "Ocr.Prog.c64_ngram_refuses",
    "Ocr.Prog.c64_ngram_total",
    "Ocr.Prog.c64_wordfreq",
    "Ocr.Prog.c64_wordfreq_refuses"
   ],
   "note": "Composition of C44/C45 with the argument parser (C52) and the file system. The total number of n-grams (words) is below 2^31, the range of the counters. Totality is shown for ngram only; wordfreq can overflow the word buffer (C33)."
  },
  {
   "property": "C65",
   "status": "proved",
   "theorems": [
    "Ocr.Prog.c65_accdist",
    "Ocr.Prog.c65_accci",
    "Ocr.Prog.c65_wordaccdist",
    "Ocr.Prog.c65_wordaccci"
   ],
   "note": "Composition of C58/C59 with C46, C47 and C54; arithmetic exact (rationals for dist, reals for ci), `%.2f` a parameter. Pages below 10^8 characters (report columns); U+10FFFF excluded in correct texts (C21)."
  },
  {
   "property": "C66",
   "status": "proved",
   "theorems": [
    "Ocr.Prog.c66_groupacc",
    "Ocr.Prog.c66_groupacc_refuses",
    "Ocr.Prog.c66_nonstopacc",
    "Ocr.Prog.c66_nonstopacc_refuses",
    "Ocr.Prog.c66_synctext",
    "Ocr.Prog.c66_synctext_restores",
    "Ocr.Prog.c66_synctext_transposed",
    "Ocr.Prog.c66_synctext_refuses"
   ],
   "note": "Composition of C58/C59 with C50, C51, C55 and the argument parser (C52). Group files without U+10FFFF (C51 exception). The refusal of a missing report by nonstopacc is stated only when the stopword file is missing (the stopwords are read first, C33)."
  },
  {
   "property": "C67",
   "status": "proved",
   "theorems": [
    "Ocr.Acc.c67_confusions",
    "Ocr.Acc.c67_report",
    "Ocr.Acc.c67_abbreviated"
   ],
   "note": "U+10FFFF excluded in correct texts (C21); for reports, pages below 10^8 characters (report columns)."
  },
  {
   "property": "C68",
   "status": "proved",
   "theorems": [
    "Ocr.Prog.c68_classes",
    "Ocr.Prog.c68_accuracy",
    "Ocr.Prog.c68_wordacc",
    "Ocr.Prog.c68_editop",
    "Ocr.Prog.c68_accsum",
    "Ocr.Prog.c68_wordaccsum",
    "Ocr.Prog.c68_editopsum"
   ],
   "note": "Spec.accuracyText, wordaccText, editopText are written independently of the writing functions; `%8.2f` a parameter. accsum: no confusion counted 2^31 times or more (the comparison of confusions narrows to int, C04)."
  },
  {
   "property": "C69",
   "status": "proved",
   "theorems": [
    "Ocr.AnyReport.c69_lines",
    "Ocr.AnyReport.c69_editop",
    "Ocr.AnyReport.c69_wordacc",
    "Ocr.AnyReport.c69_accuracy",
    "Ocr.AnyReport.c69_rows",
    "Ocr.AnyReport.c69_char",
    "Ocr.AnyReport.c69_unique",
    "Ocr.AnyReport.c69_decimal",
    "Ocr.AnyReport.c69_decimals",
    "Ocr.AnyReport.c69_hexadecimal",
    "Ocr.AnyReport.c69_printed"
   ],
   "note": "Numbers are those found by the modelled sscanf (integers, no overflow of long). Spec/AnyReport.lean defines the meaning on lines; the C buffer's stale bytes are not modelled, reading them is undefined in the model."
  },
  {
   "property": "C70",
   "status": "proved",
   "theorems": [
    "Ocr.Text.c70_cstring",
    "Ocr.Text.c70_unique",
    "Ocr.Text.c70_same"
   ],
   "note": "utf8proc_iterate with length -1 is modelled byte by byte from the source of utf8proc 2. The project's unit tests (test/text_test.c, test/word_test.c) are checked as computations of the model in Props/CString.lean."
  },
  {
   "property": "C71",
   "status": "proved",
   "theorems": [
    "Ocr.Ending.c71_editopsum",
    "Ocr.Ending.c71_editopcost",
    "Ocr.Ending.c71_wordaccsum",
    "Ocr.Ending.c71_wordaccdist",
    "Ocr.Ending.c71_wordaccci",
    "Ocr.Ending.c71_accsum",
    "Ocr.Ending.c71_accdist",
    "Ocr.Ending.c71_accci"
   ],
   "note": "A division of doubles by zero (accci, wordaccci) counts as undefined, see Model/Ci.lean; in C it yields an infinity or a NaN."
  },
  {
   "property": "C72",
   "status": "proved",
   "theorems": [
    "Ocr.AnyText.c72_read",
    "Ocr.AnyText.c72_refused",
    "Ocr.AnyText.c72_one",
    "Ocr.AnyText.c72_body",
    "Ocr.AnyText.c72_holds"
   ],
   "note": "The decoded text is described by IsPage (C57)."
  },
  {
   "property": "C73",
   "status": "proved",
   "theorems": [
    "Ocr.Ending.c73_accuracy",
    "Ocr.Ending.c73_editop",
    "Ocr.Ending.c73_wordfreq",
    "Ocr.Ending.c73_ngram"
   ],
   "note": "For wordfreq the assumption Lower (lower-case letters are code points) is needed. Writing the output file is not modelled."
  },
  {
   "property": "C74",
   "status": "proved",
   "theorems": [
    "Ocr.Ending.c74_wordacc",
    "Ocr.Ending.c74_groupacc",
    "Ocr.Ending.c74_nonstopacc"
   ],
   "note": "Needs the assumption Lower for wordacc and nonstopacc (lower-case letters are code points). Writing the output file is not modelled."
  },
  {
   "property": "C75",
   "status": "proved",
   "theorems": [
    "Ocr.Ending.c75_result",
    "Ocr.Ending.c75_fits",
    "Ocr.Ending.c75_vote",
    "Ocr.Ending.c75_synctext"
   ],
   "note": "The result of the vote is the model function voteTexts, characterised by C39 to C43; the selection of voters is shown total without the bound on the lengths of the texts that C43 needs. The output of option -D of vote is not modelled."
  },
  {
   "property": "C76",
   "status": "proved",
   "theorems": [
    "Ocr.Edo.c76_moves",
    "Ocr.Edo.c76_saving",
    "Ocr.Edo.c76_editop",
    "Ocr.Prog.c76_program"
   ],
   "note": "Each move is best among all moves of one block; the printed trace is the sequence of states."
  },
  {
   "property": "C77",
   "status": "proved",
   "theorems": [
    "Ocr.Vote.c77_select",
    "Ocr.Ending.c77_program"
   ],
   "note": "The ranking printed is the one used by -O; exact distances; the rest of the run is unchanged by -D. Medians and distances are exact in this model; C80 relates it to float and double."
  },
  {
   "property": "C78",
   "status": "proved",
   "theorems": [
    "Ocr.Fp.c78_nearest",
    "Ocr.Fp.c78_range",
    "Ocr.Fp.c78_format",
    "Ocr.Fp.c78_monotone",
    "Ocr.Fp.c78_full",
    "Ocr.Prog.c78_accuracy"
   ],
   "note": "IEEE 754 rounding and correctly rounded printf are part of the model; the contract assumed elsewhere for percentages is proved for it."
  },
  {
   "property": "C79",
   "status": "proved",
   "theorems": [
    "Ocr.Dist.c79_update",
    "Ocr.Ending.c79_accdist",
    "Ocr.Ending.c79_wordaccdist"
   ],
   "note": "The percentages of the rows are printed by the model of C78 in both programs. An example shows that the bound is needed (one error in 2^60)."
  },
  {
   "property": "C80",
   "status": "proved",
   "theorems": [
    "Ocr.Vote.c80_select",
    "Ocr.Vote.c80_limit",
    "Ocr.Ending.c80_program"
   ],
   "note": "C43 and C77 are about exact medians and distances; this is what the C code computes below 2^23 characters. c80_limit shows a wrong selection for texts of 2^24 characters (B19)."
  },
  {
   "property": "C81",
   "status": "proved",
   "theorems": [
    "Ocr.FileOrder.c81_editopsum",
    "Ocr.FileOrder.c81_accsum",
    "Ocr.FileOrder.c81_wordaccsum",
    "Ocr.FileOrder.c81_accdist",
    "Ocr.FileOrder.c81_wordaccdist",
    "Ocr.FileOrder.c81_accci",
    "Ocr.FileOrder.c81_wordaccci",
    "Ocr.FileOrder.c81_wordfreq",
    "Ocr.FileOrder.c81_ngram"
   ],
   "note": "Whole programs. accci and wordaccci in real arithmetic: with doubles the sums depend on the order in the last bits. The bound for accsum is that of the comparison of counts as int."
  },
  {
   "property": "C82",
   "status": "proved",
   "theorems": [
    "Ocr.Across.c82_accuracy",
    "Ocr.Across.c82_triangle",
    "Ocr.Across.c82_pages",
    "Ocr.Across.c82_editop",
    "Ocr.Across.c82_wordacc",
    "Ocr.Across.c82_perfect"
   ],
   "note": "Whole programs. Texts with a reject character are left out, since it never matches, and files with a header, since the first file may have none."
  },
  {
   "property": "C83",
   "status": "proved",
   "theorems": [
    "Ocr.Sync.c83_transposed",
    "Ocr.Sync.c83_longest",
    "Ocr.Sync.c83_same",
    "Ocr.Edo.c83_editop",
    "Ocr.Edo.c83_zero",
    "Ocr.Across.c83_programs"
   ],
   "note": "c83_transposed, c83_longest, c83_same, c83_editop (iff, hence uniqueness), c83_zero, c83_programs"
  },
  {
   "property": "C84",
   "status": "proved",
   "theorems": [
    "Ocr.Vote.c84_neighbours",
    "Ocr.Vote.c84_but_one",
    "Ocr.Vote.c84_lost",
    "Ocr.Vote.c84_optimized",
    "Ocr.Vote.c84_anagram",
    "Ocr.Vote.c84_three",
    "Ocr.Vote.c84_wins",
    "Ocr.Prog.c84_files"
   ],
   "note": "c84_neighbours, c84_but_one, c84_three, c84_optimized, c84_wins, c84_files; c84_lost and c84_anagram show that a majority alone is not enough (finding B20)"
  },
  {
   "property": "C85",
   "status": "proved",
   "theorems": [
    "Ocr.Ci.c85_range",
    "Ocr.Ci.c85_outcome",
    "Ocr.Ci.c85_error",
    "Ocr.Ci.c85_report",
    "Ocr.Ending.c85_accci",
    "Ocr.Ending.c85_wordaccci",
    "Ocr.Ending.c85_accci_ends",
    "Ocr.Ending.c85_wordaccci_ends"
   ],
   "note": "c85_range, c85_outcome, c85_error, c85_report, c85_accci, c85_wordaccci, c85_accci_ends, c85_wordaccci_ends; assumes no fused multiply-add and no extra precision"
  },
  {
   "property": "C86",
   "status": "proved",
   "theorems": [
    "Ocr.Sync.c86_same",
    "Ocr.Sync.c86_work",
    "Ocr.Sync.c86_ukkonen",
    "Ocr.Sync.c86_reduction",
    "Ocr.Sync.c86_items"
   ],
   "note": "The functions of sync.c with counters (Model/SyncCost.lean) compute the same paths. Counted: calls of compute_f, evaluations of its while condition, iterations of initial_f's loop. save_match and list operations are not counted (a constant number per path)."
  },
  {
   "property": "C87",
   "status": "proved",
   "theorems": [
    "Ocr.Process.c87_number",
    "Ocr.Process.c87_words",
    "Ocr.Process.c87_lists",
    "Ocr.Process.c87_values",
    "Ocr.Process.c87_texts",
    "Ocr.Process.c87_reports",
    "Ocr.Process.c87_command",
    "Ocr.Process.c87_editop",
    "Ocr.Process.c87_wordacc",
    "Ocr.Process.c87_accuracy",
    "Ocr.Process.c87_cases",
    "Ocr.Process.c87_utf8",
    "Ocr.Process.c87_pair",
    "Ocr.Process.c87_many",
    "Ocr.Process.c87_create",
    "Ocr.Process.c87_quiet",
    "Ocr.Process.c87_warnings",
    "Ocr.Process.c87_text_cases"
   ],
   "note": "The text of utf8proc_errmsg is a parameter; which files can be created is a parameter. Not modelled: failures while writing (no program looks at the results of fprintf and fclose), the texts of failed assertions."
  },
  {
   "property": "C88",
   "status": "proved",
   "theorems": [
    "Ocr.Heap.c88_synchronize",
    "Ocr.Heap.c88_transpose",
    "Ocr.Heap.c88_editop",
    "Ocr.Heap.c88_editop_total"
   ],
   "note": "fastukk_sync is in C89. Allocation is assumed to succeed and addresses are not reused. That the numbers (match) that are not needed any more have been freed is not proved; after editop the first list still points to freed numbers, which are not used any more (shown in an example)."
  },
  {
   "property": "C89",
   "status": "proved",
   "theorems": [
    "Ocr.Paths.c89_fastukk",
    "Ocr.Paths.c89_start"
   ],
   "note": "Allocation is assumed to succeed and addresses are not reused; an array is allocated with zeros, but it is shown to be filled before it is read. The counters under #ifdef SHOW_FASTUKK_REDUCTION are not part of this model (see C86)."
  },
  {
   "property": "C90",
   "status": "proved",
   "theorems": [
    "Ocr.Sort.c90_sort",
    "Ocr.Sort.c90_sorted",
    "Ocr.Sort.c90_equal",
    "Ocr.Sort.c90_wordfreq",
    "Ocr.Sort.c90_ngram"
   ],
   "note": "For ngram the statement is about the entries of the table. The size of the stack is not modelled."
  },
  {
   "property": "C91",
   "status": "proved",
   "theorems": [
    "Ocr.Wordacc.c91_work",
    "Ocr.Wordacc.c91_equal",
    "Ocr.Wordacc.c91_reverse"
   ],
   "note": "Only the arrays of the paths are counted, not the tables and words. That the memory is never freed is not stated."
  },
  {
   "property": "C92",
   "status": "proved",
   "theorems": [
    "Ocr.TextHeap.c92_any_use",
    "Ocr.TextHeap.c92_read",
    "Ocr.TextHeap.c92_wordfreq",
    "Ocr.TextHeap.c92_ngram",
    "Ocr.TextHeap.c92_stopword"
   ],
   "note": "The default stop words, the totals of ngram and the entries of tables (as opposed to their keys) are not part of this heap."
  },
  {
   "property": "C93",
   "status": "proved",
   "theorems": [
    "Ocr.Temp.c93_fits",
    "Ocr.Temp.c93_processes",
    "Ocr.Temp.c93_clash",
    "Ocr.Temp.c93_session",
    "Ocr.Temp.c93_none",
    "Ocr.Temp.c93_endless"
   ],
   "note": "unlink is taken to succeed; signals are not modelled."
  },
  {
   "property": "C94",
   "status": "proved",
   "theorems": [
    "Ocr.Acc.c94_accuracy",
    "Ocr.Edo.c94_editop",
    "Ocr.Wordacc.c94_wordacc",
    "Ocr.Ranges.c94_long"
   ],
   "note": "The words have at most 50 bytes and at most 65535 of them occur in both texts, as in C33; sums of reports can overflow (C10)."
  },
  {
   "property": "C95",
   "status": "proved",
   "theorems": [
    "Ocr.Vote.c95_values",
    "Ocr.Vote.c95_same",
    "Ocr.Vote.c95_program"
   ],
   "note": "Invalid options are refused (C42)."
  },
  {
   "property": "C96",
   "status": "proved",
   "theorems": [
    "Ocr.Sync.c96_longest",
    "Ocr.Sync.c96_synchronize",
    "Ocr.Sync.c96_refused",
    "Ocr.Sync.c96_transpose",
    "Ocr.Sync.c96_apart"
   ],
   "note": "Counted are the evaluations of the conditions at sync.c:124-125 and 127-129, the calls of recursive_sync and the iterations of the while loop of transpose_sync."
  },
  {
   "property": "C97",
   "status": "proved",
   "theorems": [
    "Ocr.Disk.c97_unnamed",
    "Ocr.Disk.c97_reports",
    "Ocr.Disk.c97_texts",
    "Ocr.Disk.c97_output",
    "Ocr.Disk.c97_stdout",
    "Ocr.Disk.c97_batch",
    "Ocr.Disk.c97_streams"
   ],
   "note": "For accuracy and vote the part about runs that end with a message assumes that all files hold bytes (c97_texts); for accuracy also facts about the Unicode tables. Write errors and a full disk are not modelled."
  },
  {
   "property": "C98",
   "status": "proved",
   "theorems": [
    "Ocr.Signal.c98_setup",
    "Ocr.Signal.c98_killed",
    "Ocr.Signal.c98_once",
    "Ocr.Signal.c98_files",
    "Ocr.Signal.c98_part"
   ],
   "note": "Handlers stay installed (BSD and GNU semantics of signal); calling stdio functions from a handler, which the C standard leaves undefined, is assumed to work. Runs with undefined behaviour are left out."
  },
  {
   "property": "C99",
   "status": "proved",
   "theorems": [
    "Ocr.Disk.c99_onto",
    "Ocr.Disk.c99_editop",
    "Ocr.Disk.c99_wordacc"
   ],
   "note": "The redirection is done by the shell and is defined in Spec/Scripts.lean; it is not part of /repo."
  },
  {
   "property": "C100",
   "status": "proved",
   "theorems": [
    "Ocr.Gen.c100_generate",
    "Ocr.Gen.c100_shipped",
    "Ocr.Gen.c100_unique",
    "Ocr.Gen.c100_any",
    "Ocr.Gen.c100_refused"
   ],
   "note": "Python 2 with byte strings; numbers with a sign or 0x are refused in the model; the decompression is left out. The data file is given by its ranges, without comments."
  },
  {
   "property": "C101",
   "status": "proved",
   "theorems": [
    "Ocr.Text.c101_unique",
    "Ocr.Text.c101_char",
    "Ocr.Text.c101_file",
    "Ocr.Text.c101_names",
    "Ocr.Text.c101_ngram"
   ],
   "note": "The categories are a parameter (utf8proc); surrogates are assumed not to be printable."
  },
  {
   "property": "C102",
   "status": "proved",
   "theorems": [
    "Ocr.Prog.c102_crash_words",
    "Ocr.Prog.c102_left",
    "Ocr.Prog.c102_left_accuracy",
    "Ocr.Disk.c102_reports",
    "Ocr.Disk.c102_texts",
    "Ocr.Disk.c102_editop",
    "Ocr.Disk.c102_wordacc",
    "Ocr.Disk.c102_accuracy",
    "Ocr.Disk.c102_sums",
    "Ocr.Disk.c102_crash",
    "Ocr.Disk.c102_safe"
   ],
   "note": "The room does not grow when an old file is emptied; stdout always has room; buffering is not modelled (what is kept is a prefix either way)."
  },
  {
   "property": "C103",
   "status": "proved",
   "theorems": [
    "Ocr.Alike.c103_synchronize",
    "Ocr.Alike.c103_two",
    "Ocr.Alike.c103_editop",
    "Ocr.Alike.c103_accuracy",
    "Ocr.Alike.c103_vote"
   ],
   "note": "The classes and confusions in an accuracy report, and -O of vote, do depend on the characters."
  },
  {
   "property": "C104",
   "status": "proved",
   "theorems": [
    "Ocr.Across.c104_accuracy",
    "Ocr.Across.c104_wordacc",
    "Ocr.Across.c104_words",
    "Ocr.Across.c104_editop"
   ],
   "note": "The positions of the alignments may differ; only the totals agree."
  }
 ]
}