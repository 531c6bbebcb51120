{"id": "C01", "title": "Linked lists behave like sequences", "statement": "After any legal history of insert-first/last/before/after, remove, in_array and empty calls on any number of lists sharing one heap, following `first`/`next` (and `last`/`prev` backwards) on each list visits exactly the items of the abstract sequence that the history denotes, `count` is its length, `array` is either NULL or lists exactly those items in order, and operations on one list never disturb another.", "quantifier": "all histories of list operations of any length, over any number of lists and items", "why_tests_cant": "the pointer structure after an unbounded number of operations and all aliasing patterns cannot be enumerated", "anchors": ["src/list.c:list_insert", "src/list.c:list_remove", "src/list.c:list_in_array", "src/list.c:list_empty"]}
{"id": "C02", "title": "Hash tables behave like a keyed store", "statement": "After any history of inserts and removes, looking up a key returns the most recently inserted entry with exactly that key that has not been removed (NULL if none), `count` is the number of live entries, and the array built by table_in_array holds every live entry exactly once.", "quantifier": "all histories of table operations and all keys, including keys that collide in the 503 buckets", "why_tests_cant": "hash collisions and operation histories are unbounded", "anchors": ["src/table.c:table_index", "src/table.c:table_lookup", "src/table.c:table_insert", "src/table.c:table_remove", "src/table.c:table_in_array"]}
{"id": "C03", "title": "sort() terminates, stays in bounds, permutes and sorts", "statement": "For any array and any comparison routine that is a total preorder, sort() terminates, never reads or writes outside the array, leaves a permutation of the original elements, and the result is in nondecreasing order; for an arbitrary (even inconsistent) comparator it still terminates in bounds and permutes.", "quantifier": "all array lengths, contents and comparators", "why_tests_cant": "every length and every comparator behaviour must be covered", "anchors": ["src/sort.c:quicksort", "src/sort.c:sort"]}
{"id": "C04", "title": "Report comparators define a unique order", "statement": "Each comparison routine used for reports (term key, count-then-key, n-gram value, n-gram count/suspect/value, confusion errors/marked/key) is a total order on distinct entries whenever counts differ by less than 2^31, so the printed order depends only on the set of entries and not on insertion or hash order.  (For larger count differences the long-to-int conversion breaks this.)", "quantifier": "all pairs/triples of entries and all permutations of the table contents", "why_tests_cant": "needs all triples (transitivity) and all insertion orders", "anchors": ["src/wordfreq.c:order_by_key", "src/wordfreq.c:order_by_count", "src/ngram.c:order_by_value", "src/ngram.c:order_by_count", "src/accrpt.c:compare_conf", "src/wacrpt.c:compare_term"]}
{"id": "C05", "title": "ustrcmp is bytewise lexicographic comparison", "statement": "ustrcmp returns 0 exactly for equal strings, -1 exactly when the first string precedes the second in unsigned bytewise lexicographic order, and 1 otherwise.", "quantifier": "all pairs of NUL-terminated byte strings", "why_tests_cant": "all string pairs", "anchors": ["src/util.c:ustrcmp"]}
{"id": "C06", "title": "Reading decodes valid UTF-8 exactly and rejects everything else", "statement": "read_text on a file that is the UTF-8 encoding of a sequence of Unicode scalar values (no markers, no normalization) appends exactly those values in order; on a file that is not well-formed UTF-8 the program stops with an error instead of producing characters.", "quantifier": "all byte strings", "why_tests_cant": "the space of byte strings is infinite, including all truncated and overlong forms", "anchors": ["src/text.c:read_contents", "src/text.c:cstring_to_text", "src/text.c:encode_or_die"]}
{"id": "C07", "title": "Suspect markers mark exactly the following character", "statement": "With marker interpretation on, the characters read are the non-marker characters of the file in order, and a character is suspect exactly when it is immediately preceded by at least one marker; markers at the end of file vanish.", "quantifier": "all files, all marker characters", "why_tests_cant": "arbitrary runs and positions of markers", "anchors": ["src/text.c:read_contents"]}
{"id": "C08", "title": "Spacing normalization reaches a normal form and is idempotent", "statement": "After normalization no line starts or ends with a blank, there are no two adjacent blanks, no empty lines, no blanks other than U+0020, and normalizing again changes nothing.", "quantifier": "all texts and all Unicode classifications of blanks", "why_tests_cant": "all interleavings of blanks, newlines and other characters", "anchors": ["src/text.c:compress_spacing", "src/text.c:is_blank"]}
{"id": "C09", "title": "Normalization preserves the non-blank content", "statement": "Normalization keeps every character that is neither blank nor newline, in order and with its suspect mark, separates two such characters by a newline exactly when the original had a newline between them and by a single blank exactly when it had only blanks between them, and only touches the portion of the text appended by the current read.", "quantifier": "all texts", "why_tests_cant": "all interleavings", "anchors": ["src/text.c:compress_spacing", "src/text.c:read_text"]}
{"id": "C10", "title": "char_to_string fits in STRING_SIZE bytes", "statement": "The string stored by char_to_string, including its terminator, never needs more than STRING_SIZE (9) bytes, for every character value that can be read from a UTF-8 file, marked or not.", "quantifier": "all character values, suspect flags and newline modes", "why_tests_cant": "1.1M code points times flags and an external Unicode category table", "anchors": ["src/text.c:char_to_string", "src/text.h:STRING_SIZE"]}
{"id": "C11", "title": "A character written to an accuracy report is read back as the same character", "statement": "For every character value, the bracketed representation printed in the per-character section of an accuracy report is decoded by read_accrpt to that same value.", "quantifier": "all character values and all category assignments", "why_tests_cant": "all code points under any Unicode version", "anchors": ["src/text.c:char_to_string", "src/accrpt.c:read_char", "src/accrpt.c:write_class"]}
{"id": "C12", "title": "N-gram keys identify n-grams", "statement": "For n <= 3 (the largest n accepted) building the ngram table key never overruns its buffer, and two different sequences of n characters never produce the same key, so counts of different n-grams are never merged; with five characters they could be.", "quantifier": "all pairs of n-character sequences, n in 1..3, all category assignments", "why_tests_cant": "quadratically many pairs over all code points", "anchors": ["src/ngram.c:process_file", "src/vote.c:count_sequences", "src/text.c:char_to_string"]}
{"id": "C13", "title": "Text written by write_text reads back unchanged", "statement": "write_text followed by read_text (markers on, no normalization) restores the same characters and suspect marks, provided the text contains only newlines and printable non-combining characters other than the marker; with combining characters it does not (a dotted circle is inserted).", "quantifier": "all texts", "why_tests_cant": "all texts", "anchors": ["src/text.c:write_text", "src/text.c:read_contents", "src/text.c:char_to_string"]}
{"id": "C14", "title": "The vendor header is skipped exactly", "statement": "If a file consists of a title line, a divider line, header lines that are not dividers, a second divider and then a body, read_text with find_header reads exactly the body and sets found_header; if the first line is not a title, the whole file is read from the beginning.", "quantifier": "all headers and bodies", "why_tests_cant": "unbounded header content, line lengths around the 98-byte fgets limit", "anchors": ["src/text.c:read_header", "src/text.c:write_text"]}
{"id": "C15", "title": "charclass assigns every character its documented class", "statement": "For every character value, charclass returns the class whose name is that of the last table range containing the value, or \"Unassigned\" if no range does, the class number is always a valid argument of charclass_name, and the lookup stays within the table.  (False for U+10FFFF: the tables have one element too few.)", "quantifier": "all code points", "why_tests_cant": "out-of-bounds access at one specific code point; whole domain", "anchors": ["src/charclass.c:initialize_charclass", "src/charclass.c:charclass", "src/charclass.c:charclass_name"]}
{"id": "C16", "title": "fastukk_sync is optimal", "statement": "The synchronization returned by fastukk_sync for two texts costs (sum over unmatched regions of the longer side) exactly the minimum number of single-character insertions, deletions and substitutions transforming one text into the other, where the reject character '~' never matches anything.", "quantifier": "all pairs of texts", "why_tests_cant": "optimality quantifies over all alternative alignments of all input pairs; the diagonal pruning makes boundary cases subtle", "anchors": ["src/sync.c:fastukk_sync", "src/sync.c:compute_pathlist", "src/sync.c:compute_f", "src/sync.c:initial_f", "src/sync.c:obtain_matches"]}
{"id": "C17", "title": "fastukk_sync returns a valid alignment", "statement": "The substrings of the resulting list, in order, partition each text exactly; matched entries have equal length and equal characters on both sides, none of them the reject character; no entry is empty on both sides; match numbers are 1,2,3,... in order.", "quantifier": "all pairs of texts", "why_tests_cant": "all inputs", "anchors": ["src/sync.c:fastukk_sync", "src/sync.c:save_match", "src/sync.c:number_matches"]}
{"id": "C18", "title": "fastukk_sync terminates and never hits its internal error", "statement": "For every pair of texts the computation terminates, performs no out-of-range table access, and never reports \"internal synchronization error\".", "quantifier": "all pairs of texts", "why_tests_cant": "non-termination and rare pruning states cannot be excluded by sampling", "anchors": ["src/sync.c:compute_pathlist", "src/sync.c:initial_f"]}
{"id": "C19", "title": "synchronize returns a valid multi-way alignment and terminates", "statement": "For 2 to 16 texts, synchronize terminates; the substrings of the result partition every text; matched entries have equal length and identical non-reject characters in all texts; match numbers are consecutive.", "quantifier": "all tuples of texts", "why_tests_cant": "recursion depth and shape are unbounded", "anchors": ["src/sync.c:synchronize", "src/sync.c:recursive_sync", "src/sync.c:longest_match", "src/sync.c:save_match"]}
{"id": "C20", "title": "transpose_sync matches greedily to exhaustion", "statement": "transpose_sync terminates; each result list partitions its text; each match number labels exactly one substring in each list and the two substrings are equal and reject-free; and when it stops no non-reject character occurs in unmatched portions of both texts.", "quantifier": "all pairs of texts", "why_tests_cant": "unbounded iteration", "anchors": ["src/sync.c:transpose_sync", "src/sync.c:longest_match", "src/sync.c:save_match"]}
{"id": "C21", "title": "Accuracy report totals are consistent", "statement": "For every pair of texts the report satisfies: characters = number of non-'~' characters in the correct text = total class count; errors = total Errors; for marked, unmarked and total rows errors = ins + subst + del; total = marked + unmarked columnwise; reject characters and suspect markers are the numbers of '~' and of marked non-'~' characters in the generated text; 0 <= missed <= count for every class; class counts sum to the total.", "quantifier": "all pairs of texts", "why_tests_cant": "accounting identities over all inputs", "anchors": ["src/accuracy.c:process_synclist", "src/accrpt.c:add_class", "src/accuracy.c:add_ops"]}
{"id": "C22", "title": "accuracy errors equal the edit distance", "statement": "If the correct text contains no '~', the Errors figure equals the minimum number of character insertions, substitutions and deletions needed to turn the generated text into the correct text ('~' in the generated text always being an error).", "quantifier": "all pairs of texts", "why_tests_cant": "all alternative edit scripts", "anchors": ["src/accuracy.c:process_synclist", "src/sync.c:fastukk_sync"]}
{"id": "C23", "title": "Zero errors exactly for identical texts", "statement": "When neither text contains '~', accuracy reports zero errors if and only if the normalized texts are identical.", "quantifier": "all pairs of texts", "why_tests_cant": "all inputs, both directions", "anchors": ["src/accuracy.c:process_synclist"]}
{"id": "C24", "title": "Confusions account for all errors", "statement": "The Errors column of the confusion section sums to the report's Errors figure and the Marked column sums to the marked Errors figure.", "quantifier": "all pairs of texts", "why_tests_cant": "hash-table accumulation with key collisions over all inputs", "anchors": ["src/accuracy.c:process_synclist", "src/accrpt.c:add_conf", "src/accuracy.c:make_key"]}
{"id": "C25", "title": "Confusion keys never overflow their buffers", "statement": "Building a confusion key never writes past the 28-byte side buffers or the 100-byte key buffer, whatever the lengths and contents of the confused substrings.", "quantifier": "all substrings and categories", "why_tests_cant": "unbounded substring lengths", "anchors": ["src/accuracy.c:make_key"]}
{"id": "C26", "title": "Edit operation reports round-trip", "statement": "Reading a report written by write_edorpt into zeroed data restores every field, provided the counters are in range and moves by length are consistent with the total.", "quantifier": "all edit operation data", "why_tests_cant": "all counter values including wide numbers", "anchors": ["src/edorpt.c:write_edorpt", "src/edorpt.c:read_edorpt"]}
{"id": "C27", "title": "editopsum adds reports", "statement": "Summing any list of reports yields, field by field, the sum of their figures, independent of the order of the files.", "quantifier": "all lists of reports", "why_tests_cant": "unbounded lists, all orders", "anchors": ["src/edorpt.c:read_edorpt", "src/editopsum.c:main"]}
{"id": "C28", "title": "Accuracy reports round-trip", "statement": "Reading a report written by write_accrpt for internally consistent data restores all figures, class enumerations and confusions, provided counts are below 10^8 (the column width); above that the confusion key is read from the wrong column.", "quantifier": "all consistent accuracy data", "why_tests_cant": "all counter values, keys and character sets", "anchors": ["src/accrpt.c:write_accrpt", "src/accrpt.c:read_accrpt"]}
{"id": "C29", "title": "accsum adds reports", "statement": "Summing accuracy reports adds every figure, class count and confusion count, independent of the order of the files.", "quantifier": "all lists of reports", "why_tests_cant": "unbounded lists, all orders", "anchors": ["src/accrpt.c:read_accrpt", "src/accsum.c:main"]}
{"id": "C30", "title": "Word accuracy reports round-trip", "statement": "Reading a report written by write_wacrpt for internally consistent data restores all figures, histograms and word tables, provided counts are below 10^8 and words fit on a line.", "quantifier": "all consistent word accuracy data", "why_tests_cant": "all counter values and words", "anchors": ["src/wacrpt.c:write_wacrpt", "src/wacrpt.c:read_wacrpt"]}
{"id": "C31", "title": "wordaccsum adds reports", "statement": "Summing word accuracy reports adds every figure, independent of the order of the files.", "quantifier": "all lists of reports", "why_tests_cant": "unbounded lists, all orders", "anchors": ["src/wacrpt.c:read_wacrpt", "src/wordaccsum.c:main"]}
{"id": "C32", "title": "wordacc recognizes a longest common subsequence", "statement": "The words of the correct text flagged as recognized by wordacc form a common subsequence of the two word sequences of maximum length; hence Misrecognized = Words - LCS length.", "quantifier": "all pairs of word sequences (up to the 65535-word limit)", "why_tests_cant": "all alternative alignments; uncomputed table cells are read as zero", "anchors": ["src/wordacc.c:setup_array", "src/wordacc.c:initial_f", "src/wordacc.c:compute_f", "src/wordacc.c:compute_pathlist", "src/wordacc.c:obtain_matches"]}
{"id": "C33", "title": "Word accuracy totals are consistent", "statement": "Total words = stopwords + non-stopwords = number of words in the correct text; the same for misrecognized; each length histogram sums to its total; each distinct-occurrence histogram sums to the number of distinct non-stopwords; and all histogram writes are in bounds.  (The bounds claim is false: a word longer than 50 bytes is counted outside the array.)", "quantifier": "all word sequences and recognition flags", "why_tests_cant": "unbounded word lengths and counts", "anchors": ["src/wordacc.c:process_terms", "src/wordacc.c:determine_wacdata", "src/wacrpt.h:MAX_WORDLENGTH"]}
{"id": "C34", "title": "Phrase statistics are exact", "statement": "For L = 1..8 the phrase count of length L is the number of windows of L consecutive words of the correct text, and its missed figure is the number of those windows containing at least one misrecognized word.", "quantifier": "all recognition sequences", "why_tests_cant": "all sequences", "anchors": ["src/wordacc.c:process_phrases"]}
{"id": "C35", "title": "Word segmentation partitions the text", "statement": "find_words cuts the text into consecutive nonempty segments that concatenate to the whole text, terminates, and appends exactly the NFC strings of the segments starting with a word character, in order.  (False for a nonempty text consisting only of Extend/Format characters, whose segment is dropped.)", "quantifier": "all texts and word-break property assignments", "why_tests_cant": "all texts", "anchors": ["src/word.c:find_words", "src/word.c:find_next_boundary", "src/word.c:append_word"]}
{"id": "C36", "title": "Word boundaries follow the UAX #29 rules", "statement": "Between two consecutive segments the boundary rules WB3-WB14, evaluated on the whole text with Extend/Format skipped, demand a break, and inside a segment they forbid one - independent of where earlier segments were cut.", "quantifier": "all texts", "why_tests_cant": "contexts of unbounded skipped characters", "anchors": ["src/word.c:find_next_boundary", "src/word.c:skip_to_next", "src/word.c:skip_to_end_of_extend"]}
{"id": "C37", "title": "Word-break property lookup is exact", "statement": "The binary search returns the property of the table range containing the code point, and Other if there is none, for every 32-bit value; the table is sorted and its ranges are disjoint.", "quantifier": "all code points / all 32-bit values", "why_tests_cant": "4 billion values; also correctness of search for any sorted table", "anchors": ["src/word.c:search_for_property", "src/word.c:property", "src/word_break_property.h"]}
{"id": "C38", "title": "Stopword membership is exact", "statement": "After initialization is_stopword is true exactly for the configured words (the 110 defaults if no file is given); initializing twice or querying before initialization is an error; duplicates only warn.", "quantifier": "all stopword lists and all query strings", "why_tests_cant": "all strings, hash collisions", "anchors": ["src/stopword.c:init_stopwords", "src/stopword.c:is_stopword", "src/stopword.c:save_stopword"]}
{"id": "C39", "title": "Voting terminates and elects a plurality", "statement": "For each synchronized region the voting loop terminates, and every output character is the one with the largest weighted vote at that position, ties going to the candidate proposed by the earliest voter; positions where only reject characters are present yield '~'.", "quantifier": "all synchronized regions, weights and voter counts", "why_tests_cant": "unbounded regions", "anchors": ["src/vote.c:perform_vote", "src/vote.c:place_vote", "src/vote.c:winner"]}
{"id": "C40", "title": "Unanimous input is reproduced", "statement": "If all voters submit the same reject-free text, the output has exactly the same characters.", "quantifier": "all texts and all numbers of voters 2..16", "why_tests_cant": "all texts", "anchors": ["src/vote.c:perform_vote", "src/sync.c:synchronize"]}
{"id": "C41", "title": "Output suspect marks follow the threshold", "statement": "An output character is marked suspect exactly when its votes are at most the threshold; with no -s option no output character is marked.", "quantifier": "all inputs, weights, thresholds", "why_tests_cant": "all inputs", "anchors": ["src/vote.c:winner", "src/vote.c:validate_args"]}
{"id": "C42", "title": "Fraction options are validated exactly", "statement": "A -s/-w argument is accepted exactly when it is the three-character string \"m/n\" with digits 1 <= m <= n <= 9, and never reads past the end of the argument.", "quantifier": "all strings", "why_tests_cant": "all strings", "anchors": ["src/vote.c:valid_fraction"]}
{"id": "C43", "title": "Voter optimization keeps the closest voters", "statement": "With -O the voters used are those with the smallest distance to the median digram counts (ties by argument order), they are distinct, and their number is min(3, number of files).", "quantifier": "all voter sets", "why_tests_cant": "all inputs", "anchors": ["src/vote.c:select_voters", "src/vote.c:compute_median", "src/vote.c:compute_distance", "src/vote.c:compare_distances"]}
{"id": "C44", "title": "ngram counts are exact", "statement": "Each n-gram's count is the number of positions at which it occurs over all input files, its suspect figure the number of those occurrences containing a suspect character; totals are the sums; each file of length L contributes max(0, L-n+1).", "quantifier": "all lists of files, n in 1..3", "why_tests_cant": "all inputs", "anchors": ["src/ngram.c:process_file", "src/ngram.c:add_sequence", "src/ngram.c:write_array"]}
{"id": "C45", "title": "wordfreq counts are exact", "statement": "Each distinct word appears once with its number of occurrences over all files, totals are sums, and the two listings are ordered by key and by decreasing count then key.", "quantifier": "all lists of word sequences", "why_tests_cant": "all inputs", "anchors": ["src/wordfreq.c:process_file", "src/wordfreq.c:write_report", "src/wacrpt.c:add_term"]}
{"id": "C46", "title": "Accuracy distribution is a survival function", "statement": "After any sequence of updates, entry i of the distribution is the total count of the reports whose accuracy is at least i percent; entries are nonincreasing in i, entry 0 is at most the total, and updates stay in bounds when 0 <= missed.", "quantifier": "all sequences of (count, missed) observations", "why_tests_cant": "all sequences", "anchors": ["src/dist.c:update_dist", "src/dist.c:write_dist"]}
{"id": "C47", "title": "Confidence intervals are well formed", "statement": "When compute_ci does not report an error, no division by zero occurs, 0 <= lower <= upper <= 100, the interval does not depend on the order of observations, and it collapses to the common accuracy when all observations have the same accuracy.", "quantifier": "all observation lists (exact real arithmetic)", "why_tests_cant": "all lists of observations", "anchors": ["src/ci.c:compute_ci", "src/ci.c:append_obs", "src/ci.c:valid_obslist"]}
{"id": "C48", "title": "editopcost converts moves at threshold T", "statement": "The cost printed for threshold T is insertions + sum over moves of min(length, T) when the total number of moves equals the sum by length.", "quantifier": "all edit operation data and all T in 0..100", "why_tests_cant": "all data", "anchors": ["src/editopcost.c:write_results", "src/editopcost.c:decrement_edodata"]}
{"id": "C49", "title": "editop's move counting terminates and sorts the blocks", "statement": "Counting moves terminates for every arrangement of matched blocks; each counted move strictly reduces the number of blocks, so moves < number of blocks; zero moves are counted exactly when the blocks are already in order; the moves by length sum to the total; and performing the moves puts the blocks in correct order.", "quantifier": "all permutations of matched blocks with arbitrary lengths", "why_tests_cant": "unboundedly many permutations", "anchors": ["src/editop.c:count_moves", "src/editop.c:combine_adjacent", "src/editop.c:find_candidates", "src/editop.c:find_move", "src/editop.c:perform_move"]}
{"id": "C50", "title": "nonstopacc reports accuracy without the first i stopwords", "statement": "Line i of nonstopacc is the accuracy over all words other than the first i listed stopwords, provided the stopword file lists no word twice (with duplicates the word is subtracted twice).", "quantifier": "all reports and stopword lists", "why_tests_cant": "all lists", "anchors": ["src/nonstopacc.c:write_results", "src/nonstopacc.c:find_stopword"]}
{"id": "C51", "title": "groupacc totals the selected characters", "statement": "groupacc prints one line for each non-blank group-file character that occurs in the report, with that character's figures, and the Total line is the sum of the printed lines.", "quantifier": "all reports and group files", "why_tests_cant": "all inputs", "anchors": ["src/groupacc.c:write_report"]}
{"id": "C52", "title": "Command-line parsing separates options from operands exactly", "statement": "initialize leaves in argv exactly the non-option arguments in order, sets each option at most once, takes a string option's value from the rest of the argument or the next argument, and rejects unknown, duplicate or malformed options.", "quantifier": "all argument vectors and option tables", "why_tests_cant": "all argument vectors", "anchors": ["src/util.c:parse_args", "src/util.c:split_option"]}
{"id": "C53", "title": "basefilename returns the last path component", "statement": "basefilename returns the longest suffix of the path containing no '/', for paths of at most 32768 bytes; for 32769 to 65535 bytes its short position wraps and it returns a pointer before the path.", "quantifier": "all path strings of at most 65535 bytes", "why_tests_cant": "all strings (short index wraps beyond 32767)", "anchors": ["src/util.c:basefilename"]}
{"id": "C54", "title": "Per-report observations are recovered from running sums", "statement": "accdist, accci, wordaccdist and wordaccci feed each report's own figures (difference of running totals) to the distribution or confidence interval, for every sequence of reports.", "quantifier": "all sequences of reports", "why_tests_cant": "all sequences", "anchors": ["src/accdist.c:process_file", "src/accci.c:process_file", "src/wordaccdist.c:process_file", "src/wordaccci.c:process_file"]}
{"id": "C55", "title": "synctext output identifies all differences", "statement": "The matched text and numbered footnotes written by synctext carry enough information to restore every input: replacing the i-th footnote mark by the i-th footnote's entry for a file yields that file's text.", "quantifier": "all texts and synchronizations", "why_tests_cant": "all inputs", "anchors": ["src/synctext.c:write_matches", "src/synctext.c:write_differences"]}
{"id": "C56", "title": "editop's insertions and deletions are multiset differences", "statement": "For any two texts, the number of insertions counted by editop is the size of the multiset difference of the correct text (without reject characters) and the generated text, and the number of deletions is the size of the opposite difference.", "quantifier": "all pairs of texts", "why_tests_cant": "all texts, all arrangements of the matched blocks", "anchors": ["src/editop.c:count_insertions", "src/editop.c:count_deletions", "src/sync.c:transpose_sync"]}
{"id": "C57", "title": "Any file is read or refused, and what it holds is determined by its bytes", "statement": "Reading any file of bytes with any options ends with a text or with an error message, never with undefined behaviour or an endless loop. A file without a vendor header is read as a page exactly if it is well-formed UTF-8, and then yields the text determined by its characters: suspect markers taken off, spacing normalized, letters folded if asked for. A header is skipped up to its second divider line and noted.", "quantifier": "all byte sequences, all reading options", "why_tests_cant": "all files, including malformed UTF-8 at any place and header lines of any shape", "anchors": ["src/text.c:read_text", "src/text.c:read_header", "src/text.c:read_contents", "src/text.c:compress_spacing"]}
{"id": "C58", "title": "accuracy as a whole program", "statement": "For any command line with a correct file, a generated file and possibly a report file, accuracy writes to the report file or standard output a report from which figures can be read that are consistent with the two texts (character count, reject and suspect marks), with the number of errors equal to the edit distance of the texts if the correct text has no reject characters. Other numbers of files, missing files and a vendor header in the correct file are refused with a message; no run ends in undefined behaviour for files under 50 MB without U+10FFFF.", "quantifier": "all command lines, all file systems, all file contents", "why_tests_cant": "combines argument parsing, reading, synchronization, counting, writing: the whole input space", "anchors": ["src/accuracy.c:main", "src/util.c:initialize", "src/util.c:open_file", "src/text.c:read_text"]}
{"id": "C59", "title": "wordacc as a whole program", "statement": "For any command line with an optional stopword file, a correct file, a generated file and possibly a report file, the report written carries exactly the counts, by length, stopword status, word and number of recognitions, for the words of the correct text flagged along a longest common subsequence with the words of the generated text.", "quantifier": "all command lines, all file systems, all texts with words of at most 50 bytes", "why_tests_cant": "whole input space of the program including option order", "anchors": ["src/wordacc.c:main", "src/wordacc.c:setup", "src/stopword.c:init_stopwords", "src/word.c:find_words"]}
{"id": "C60", "title": "editop as a whole program", "statement": "For any command line with a correct file, a generated file and possibly a report file, the report read back gives the sizes of the multiset differences of the texts as insertions and deletions, and moves that put the matching blocks in order. Every run ends with a report or a message.", "quantifier": "all command lines, all file systems, all file contents", "why_tests_cant": "whole input space of the program", "anchors": ["src/editop.c:main", "src/editop.c:count_moves", "src/edorpt.c:write_edorpt"]}
{"id": "C61", "title": "vote as a whole program", "statement": "For any command line naming 2 to 16 files with any valid options, the output file decodes to the concatenated results of the regions of a synchronization of the chosen texts, each decided by plurality of the weighted votes; if all files hold the same characters, the output is a page with these characters.", "quantifier": "all command lines, all file systems, all printable texts", "why_tests_cant": "whole input space of the program, all combinations of options", "anchors": ["src/vote.c:main", "src/vote.c:validate_args", "src/vote.c:perform_vote"]}
{"id": "C62", "title": "Reports of whole programs, processed by the report programs", "statement": "If every file named on the command line of accsum, wordaccsum or editopsum is the report written by some run of accuracy, wordacc or editop, the sum is written, can be read back, and each figure is the sum of the figures of the pages: the characters and, without reject characters, the sum of the edit distances; the words and the words left over by longest common subsequences; the sizes of the multiset differences. editopcost, given the sum, prints the sum of the costs of the pages for every threshold.", "quantifier": "all numbers of pages, all texts, all command lines and file systems", "why_tests_cant": "composition of several programs over all lists of pages", "anchors": ["src/accsum.c:main", "src/wordaccsum.c:main", "src/editopsum.c:main", "src/editopcost.c:main"]}
{"id": "C63", "title": "synchronize matches the longest common strings", "statement": "For 2 to 16 texts, synchronize splits the texts at the first longest string common to the first two, narrowed by each further text in turn, and treats the parts to the left and to the right likewise; the outcome is thereby determined. For two texts no non-reject character occurs on both sides of an unmatched item, and the longest match is as long as any common string. For three texts a common character may remain unmatched.", "quantifier": "all tuples of texts", "why_tests_cant": "maximality ranges over all common substrings of texts of any length", "anchors": ["src/sync.c:synchronize", "src/sync.c:recursive_sync", "src/sync.c:longest_match", "src/sync.c:save_match"]}
{"id": "C64", "title": "ngram and wordfreq as whole programs", "statement": "For any command line naming at least one file with a valid -n, ngram writes to standard output two listings of all runs of n consecutive characters of the files, each exactly once with its number of occurrences and of suspect occurrences, first ordered by characters and then by frequency; wordfreq does likewise for the words. A missing file, a wrong -n and no files at all are refused. For arbitrary files and arguments ngram ends with the listings or a message, never with undefined behaviour.", "quantifier": "all command lines, all file systems, all texts", "why_tests_cant": "whole input space of the programs", "anchors": ["src/ngram.c:main", "src/ngram.c:get_n", "src/wordfreq.c:main"]}
{"id": "C65", "title": "Distribution and confidence interval of the reports of whole runs", "statement": "If every file named on the command line of accdist or accci is the report of some run of accuracy, the distribution (the interval) is that of the pages' figures: number of characters without reject characters, and, without reject characters in the correct text, the edit distance. Likewise wordaccdist and wordaccci with the reports of wordacc, the words left over by longest common subsequences being the misrecognized ones. The interval programs refuse fewer than two files and fewer than two pages with characters (words).", "quantifier": "all numbers of pages, all texts, all command lines and file systems", "why_tests_cant": "composition of several programs over all lists of pages", "anchors": ["src/accdist.c:main", "src/accci.c:main", "src/wordaccdist.c:main", "src/wordaccci.c:main"]}
{"id": "C66", "title": "groupacc, nonstopacc and synctext as whole programs", "statement": "groupacc, given a list of characters and a report of some run of accuracy, lists the characters of the group that occur on the page with their occurrences and those in unmatched parts of an optimal alignment; nonstopacc, given a list of stopwords and a report of some run of wordacc, shows in line i the accuracy over the words other than the first i listed, the recognized words forming a longest common subsequence; synctext prints the document of an alignment of the texts held by the files named (optimal for two files without -H), from which each text can be restored, and with -T numbered parts. Wrong numbers of files and missing files are refused.", "quantifier": "all pages, all command lines, all file systems", "why_tests_cant": "composition of several programs over all pages and all combinations of options", "anchors": ["src/groupacc.c:main", "src/groupacc.c:write_report", "src/nonstopacc.c:main", "src/nonstopacc.c:write_results", "src/synctext.c:main"]}
{"id": "C67", "title": "Confusions belong to an optimal alignment", "statement": "The confusion table computed by accuracy, and the one read from any report the program wrote, has exactly one entry for each confusion in the optimal alignment the other figures belong to: its key is the pair of the correct and the generated string of an unmatched part with errors, each abbreviated to names of at most 24 bytes; errors and marked errors are the sums over the parts with that key. An abbreviated string is the longest run of whole names that fits, followed by dots.", "quantifier": "all texts, all files", "why_tests_cant": "relates every entry of a table to all parts of an optimal alignment of arbitrary texts", "anchors": ["src/accuracy.c:process_synclist", "src/accuracy.c:make_key", "src/text.c:char_to_string", "src/accrpt.c:add_conf"]}
{"id": "C68", "title": "The reports, byte by byte", "statement": "Every report written by accuracy, wordacc and editop, and every sum written by accsum, wordaccsum and editopsum, is, byte by byte, the text with the documented layout: header, figures in columns of eight, percentages of the right parts of the right totals, lines for classes, words, lengths or characters only where the count is positive, confusions by decreasing errors, then decreasing marked errors, then by key, words in byte order, characters in code point order; with the exact figures of the pages (of the sums).", "quantifier": "all pages, all command lines and file systems; for the sums all readable files", "why_tests_cant": "a statement about every byte of the output for every input", "anchors": ["src/accrpt.c:write_accrpt", "src/accrpt.c:compare_conf", "src/wacrpt.c:write_wacrpt", "src/wacrpt.c:write_numbers", "src/wacrpt.c:write_terms", "src/edorpt.c:write_edorpt", "src/charclass.c:initialize_charclass"]}
{"id": "C69", "title": "Any file read as a report", "statement": "What a file means as an edit operation, word accuracy or accuracy report is a function of its lines (cut after newlines and after 98 bytes, ending at NUL). For every file, written by the programs or not: the reader refuses it exactly when the title, divider or a required figure is missing; otherwise it adds exactly the figures, rows, words, confusions and characters on its lines; and it accesses memory outside of an array or line exactly in the listed cases (an index outside of the array, a row shorter than its column, a lone brace, a hexadecimal character outside of the table). No string names two characters. Decimal and hexadecimal numbers are those described in the C standard (white space, sign, prefix, digits up to the first byte that is none), and a number printed in a column is read as the same number.", "quantifier": "all files of bytes, all accumulated data", "why_tests_cant": "all malformed files; the cases are exhaustive", "anchors": ["src/edorpt.c:read_edorpt", "src/wacrpt.c:read_wacrpt", "src/accrpt.c:read_accrpt", "src/accrpt.c:read_char", "src/accrpt.c:read_line", "src/wacrpt.c:read_two", "src/edorpt.c:read_value"]}
{"id": "C70", "title": "cstring_to_text decodes the longest valid prefix", "statement": "For every NUL-terminated string, whatever follows it in memory, cstring_to_text appends exactly the characters of the longest initial part that is valid UTF-8, unmarked, and returns true exactly if this part is the whole string; this part is unique; nothing after the NUL is read. For strings without invalid parts the text is the one read_text makes of a file with the same content.", "quantifier": "all strings of bytes without NUL, all texts appended to, all memory after the string", "why_tests_cant": "reads beyond the NUL depend on the memory; the tests cover four strings", "anchors": ["src/text.c:cstring_to_text", "src/text.c:append_char"]}
{"id": "C71", "title": "How the programs that read reports end", "statement": "For every command line and every set of files, editopsum, editopcost, accsum, accdist, accci, wordaccsum, wordaccdist and wordaccci end in exactly one of three ways, and the conditions are exact. They print a report iff the command line is valid, the number of files is allowed and every file can be opened and read (for accdist/wordaccdist with an accuracy below 101 percent; for accci/wordaccci with at least two positive counts and no zero total). Their behaviour is undefined iff some file has a row outside of the arrays (or too short, or an accuracy of 101 percent or more, or a zero denominator) and every file before it is read. In all other cases there is a message. They never loop forever.", "quantifier": "all command lines without NUL bytes, all file systems, all formatters of percentages", "why_tests_cant": "the condition covers every malformed file and every order of the files; tests use well-formed reports", "anchors": ["src/editopsum.c:main", "src/editopcost.c:main", "src/accsum.c:main", "src/accdist.c:main", "src/accci.c:main", "src/wordaccsum.c:main", "src/wordaccdist.c:main", "src/wordaccci.c:main", "src/dist.c:update_dist", "src/ci.c:compute_ci"]}
{"id": "C72", "title": "Any file read as a text", "statement": "For every file of bytes, with a header, without one, or with an incomplete one: read_text as used by the programs gives exactly the text held by what follows the second divider line (nothing, if there are fewer than two; the whole file, if it does not begin with the title), notes whether the title is there, and refuses the file with a message exactly if this remainder is not well-formed UTF-8. A line longer than the buffer is cut and its parts count as lines. Every file holds at most one text. For files with a complete header of short lines this is the text of C57.", "quantifier": "all files of bytes, all contents of the read buffer, both settings of case folding", "why_tests_cant": "all malformed headers and all invalid bytes", "anchors": ["src/text.c:read_header", "src/text.c:read_text", "src/text.c:read_contents"]}
{"id": "C73", "title": "How the programs that read texts end", "statement": "For every command line and every set of files, accuracy, editop, wordfreq and ngram end in exactly one of three ways, and the conditions are exact. accuracy and editop print a report iff two or three files are named, both inputs can be opened and are text and the first has no header; accuracy is undefined iff in addition the correct text contains U+10FFFF, editop never. wordfreq prints its list iff all files are text and all words can be normalized, and is undefined iff the first file for which this fails is text with a word that cannot be normalized. ngram prints iff its option is valid and all files are text, and is never undefined. In all other cases there is a message. They never loop forever.", "quantifier": "all command lines without NUL bytes, all file systems of bytes, all Unicode tables with the stated facts, all normalizations and word-break properties", "why_tests_cant": "the condition covers malformed UTF-8, odd headers, every order of files and the last code point; tests use ordinary pages", "anchors": ["src/accuracy.c:main", "src/editop.c:main", "src/wordfreq.c:main", "src/ngram.c:main", "src/text.c:read_text", "src/word.c:find_words"]}
{"id": "C74", "title": "How wordacc, groupacc and nonstopacc end", "statement": "For every command line and every set of files, wordacc, groupacc and nonstopacc end in exactly one of three ways, and the conditions are exact. wordacc prints a report iff the stopword file (if named), then both texts can be opened and read, every word met can be normalized, the correct text has no header, at most 65535 correct words occur in the other text and none is longer than 50 bytes; it is undefined iff the first obstacle is a word that cannot be normalized or, with everything read, a correct word is longer than 50 bytes. groupacc is undefined iff the report leads read_accrpt outside its arrays, or everything is read and the list has U+10FFFF. nonstopacc is undefined iff the report has a row outside of the arrays, or an unnormalizable listed word is reached while words are left. In all other cases there is output or a message, as stated; they never loop forever.", "quantifier": "all command lines without NUL bytes, all file systems of bytes, all Unicode tables with the stated facts, all normalizations and word-break properties, all formatters of percentages", "why_tests_cant": "the conditions combine four files, the order in which they are read and every malformed content; tests use well-formed ones", "anchors": ["src/wordacc.c:main", "src/wordacc.c:setup", "src/stopword.c:init_stopwords", "src/groupacc.c:main", "src/groupacc.c:write_report", "src/nonstopacc.c:main", "src/nonstopacc.c:write_results"]}
{"id": "C75", "title": "How vote and synctext end", "statement": "For every command line and every set of files, vote and synctext end in exactly one of three ways, and the conditions are exact. vote writes its output iff 2 to 16 files are named, all can be opened and are text, the fractions of -s and -w are valid, and no character of the result of the vote is marked, not graphic and at least U+100000 (its writing needs 10 bytes of a buffer of 9); it is undefined iff there is such a character; otherwise there is a message. A vote always has a result, made of characters of the texts and of reject characters, and all of it fits unless -s is given and a text has such a code point. synctext prints iff 2 to 16 files (2 with -T) are named, all are text, without -T some name is not empty and all are shorter than 10^16 bytes, and with -s no marked character of the texts is too long; it is undefined iff only the last two conditions fail; otherwise there is a message. The ending of synctext does not depend on which synchronization is found.", "quantifier": "all command lines without NUL bytes, all file systems of bytes, all Unicode tables with the stated facts", "why_tests_cant": "the overrun needs a marked private-use character at a place where the voters disagree or agree in a certain way; the conditions are about all numbers of files and all contents", "anchors": ["src/vote.c:main", "src/vote.c:validate_args", "src/vote.c:select_voters", "src/vote.c:perform_vote", "src/synctext.c:main", "src/synctext.c:write_matches", "src/synctext.c:write_differences", "src/synctext.c:write_transposed", "src/text.c:char_to_string", "src/text.c:write_text"]}
{"id": "C76", "title": "editop makes greedy best moves and -D shows them", "statement": "For any two texts (the second of fewer than 10^13 characters), the moves that editop counts are obtained as follows: blocks with consecutive numbers are joined and all blocks renumbered; then one block is moved so that, of all ways to move one block, none leaves fewer blocks; among those the block is the shortest, and then the first in the correct order; until one block is left. Every such move saves one, two or three blocks. The number and the lengths of these moves are those in the report. With -D exactly the sequence of the lists of blocks (original, after every move, after every joining) is printed on the standard output, the label fits its buffer of 20 bytes, and the report is the same as without -D; without -D nothing is printed.", "quantifier": "all pairs of texts of fewer than 10^13 characters, all arrangements of blocks, all command lines and file contents", "why_tests_cant": "The optimality of each choice is over all blocks and all places of arrangements of any size, and the three counters of find_candidates have to be right for every arrangement.", "anchors": ["src/editop.c:find_candidates", "src/editop.c:find_move", "src/editop.c:perform_move", "src/editop.c:combine_adjacent", "src/editop.c:display", "src/editop.c:count_moves"]}
{"id": "C77", "title": "vote -D prints the ranking by which -O selects", "statement": "For a run of vote that writes its output: with both -O and -D it first prints one line for each of the 2 to 16 voters, in the order of their distance from the median digram counts (ties in the order of the command line); the line has the distance in eleven columns with one decimal, which is exact and determines the distance, and the name of the file; the first three of this ranking (or both) are the texts voted on. With -D alone, or without -D, nothing is printed. In all cases the text written is the same as that of the run without -D.", "quantifier": "all command lines, all sets of 2 to 16 files with texts of fewer than 2^31 characters", "why_tests_cant": "The correspondence between the lines printed and the texts used concerns all orders of distances and all ties.", "anchors": ["src/vote.c:select_voters", "src/vote.c:compute_distance", "src/vote.c:compare_distances", "src/vote.c:main"]}
{"id": "C78", "title": "The percentages printed are rounded correctly", "statement": "With IEEE double arithmetic, the percentage printed for n of d (0 < d < 2^53, |n| < 2^38) is a nearest number of hundredths to the exact 100 n / d. No intermediate value overflows or underflows, for any two 64-bit numbers with d not zero. The bytes printed with %8.2f contain no newline or NUL, are at most 40, and fill 8 columns for 0 <= n <= d, 0 < d. A greater quotient is never printed as a smaller percentage (n below 2^46). For a part of a whole 100.00 is printed if less than one in 20000 is missing and only if at most one in 20000 is. The accuracy in a report of accuracy about a correct text that is not empty and has no reject characters is 100 (n - d) / n to the nearest hundredth, n being its length and d the edit distance.", "quantifier": "all integers n and d in the bounds stated; all pairs of texts with fewer than 10^8 characters together", "why_tests_cant": "Double rounding (to 53 bits, then to hundredths) fails only for rare quotients near a tie; that there are none in range needs an error bound.", "anchors": ["src/accrpt.c:write_pct", "src/wacrpt.c:write_pct", "src/dist.c:write_dist"]}
{"id": "C79", "title": "The distributions of accuracies do not suffer from floating point", "statement": "If, in every report read, the number of characters (or words) and the number recognized are below 2^46 in size, then accdist and wordaccdist, with the accuracy computed in double arithmetic, end as they would with exact arithmetic: the same output, error or access outside the array.", "quantifier": "all command lines and all contents of files that meet the bound", "why_tests_cant": "A quotient just below an integer may be rounded up to it; only an error bound excludes this for all figures.", "anchors": ["src/dist.c:update_dist", "src/accdist.c:process_file", "src/wordaccdist.c:process_file"]}
{"id": "C80", "title": "The selection of voters does not suffer from floating point below 2^23 characters", "statement": "If all texts have fewer than 2^23 characters, vote, with medians of digram counts in float (24 bits) and distances in double, prints and writes what it would with exact arithmetic, for any command line; in particular the ranking printed by -D has the exact distances. A bound is needed: for a text of 2^24 digrams aa and three texts with one more, exact arithmetic selects the three equal texts, but in floating point all distances are zero and the first text is selected instead of the last.", "quantifier": "all command lines, all sets of files with texts of fewer than 2^23 characters", "why_tests_cant": "Rounding errors show only for counts of millions, and the bound has to hold for all counts and all sums of differences.", "anchors": ["src/vote.c:compute_median", "src/vote.c:compute_distance", "src/vote.c:compare_distances", "src/vote.c:select_voters"]}
{"id": "C81", "title": "The order of the files does not matter", "statement": "If a run of editopsum, accsum, wordaccsum, accdist, wordaccdist, accci, wordaccci, ngram or wordfreq ends with output, then a run of the same program with the same options and the same files in any other order ends with the same output, byte by byte. For accsum no confusion may be counted 2^31 times or more, for ngram and wordfreq the number of items has to be below 2^31; accci and wordaccci are in exact arithmetic. How a run without output ends (message or undefined behaviour) does depend on the order.", "quantifier": "all command lines, all permutations of the files named, all contents of the files", "why_tests_cant": "There are n! orders of n files, and the tables of the programs are filled in a different order for each; equality of the output needs comparisons that are total orders on everything printed.", "anchors": ["src/editopsum.c:main", "src/accsum.c:main", "src/wordaccsum.c:main", "src/accdist.c:main", "src/wordaccdist.c:main", "src/accci.c:main", "src/wordaccci.c:main", "src/ngram.c:main", "src/wordfreq.c:main", "src/dist.c:update_dist", "src/ci.c:compute_ci"]}
{"id": "C82", "title": "Runs over the same files agree with each other", "statement": "For files without header whose texts have no reject character, no U+10FFFF and fewer than 5*10^7 characters: the errors accuracy reports do not change if the two files are exchanged, obey the triangle inequality over three files, are at least the difference and at most the maximum of the lengths, and are none exactly if the texts are the same. Two pages compared as one text give at most the sum of the errors of the pages, and at least those of either page less the characters of the other. editop reports at most as many insertions, and at most as many deletions, as accuracy reports errors; exchanging the files exchanges the two, and they account for the difference of the lengths. wordacc recognizes the same number of words if the files are exchanged, misrecognizes none exactly if the words of the correct text are a subsequence of those generated, and misrecognizes none if accuracy reports no error.", "quantifier": "all files as described (the texts by C72), all contents of uninitialized memory, all category and case functions with the facts of C15, all word-break properties, all normalizations", "why_tests_cant": "relations between runs over arbitrary texts; a test compares a few runs", "anchors": ["src/accuracy.c:main", "src/wordacc.c:main", "src/editop.c:main", "src/sync.c:fastukk_sync", "src/sync.c:transpose_sync"]}
{"id": "C83", "title": "transpose_sync matches the first of the longest common strings; editop told in strings", "statement": "For any two texts transpose_sync ends with the pieces obtained by matching, again and again, a longest string without reject characters common to an unmatched piece of each text; of several, the first in the order of the pieces of the first text, of the second, and of the places in them. This result is unique. The first match is as long as any common string, and no match is longer than an earlier one. The figures of editop are exactly those described by this matching and by best moves of the matched pieces (C76), and nothing else is possible. editop reports no operation exactly if the texts are equal; for files this is so exactly if accuracy reports no error.", "quantifier": "all pairs of texts (fewer than 10^13 characters where the moves are described; no reject character in the correct text for equality); files as in C82", "why_tests_cant": "which of many common strings is chosen depends on ties, and the uniqueness of the report concerns every other possible outcome", "anchors": ["src/sync.c:transpose_sync", "src/sync.c:longest_match", "src/sync.c:save_match", "src/editop.c:main", "src/editop.c:count_moves"]}
{"id": "C84", "title": "A majority of the voters wins, in these cases only", "statement": "If voters have the same text, without reject characters, and outweigh the others, the output of vote has exactly the characters of this text, whatever the others have: (1) without -O, if these voters are next to each other on the command line, (2) without -O, if they are all but one, wherever the other one stands, (3) with or without -O, if they are two of three, (4) with -O and four or more voters, if they are more than half, whatever is marked, unless another text has the same pairs of adjacent characters. In these cases the file written is a page with these characters. Otherwise a majority can lose: three of five voters who are not neighbours, or, with -O, an anagram with the same pairs.", "quantifier": "2 to 16 texts of any length (below 2^31 characters with -O) with any characters and marks, all settings of the options, all Unicode tables; to outweigh means to be more without marks, or to have more weight even if all their characters were marked and no other", "why_tests_cant": "the other texts are arbitrary, and whether equal texts are split alike depends on ties between common strings of all texts; the losing cases are rare", "anchors": ["src/vote.c:perform_vote", "src/vote.c:place_vote", "src/vote.c:winner", "src/vote.c:select_voters", "src/vote.c:compute_distance", "src/vote.c:compute_median", "src/sync.c:synchronize"]}
{"id": "C85", "title": "Confidence intervals in floating point", "statement": "compute_ci in floating point (every operation correctly rounded to 53 bits, as is sqrt) yields the same kind of outcome as in exact arithmetic: an interval, the message, or a division by zero. The ends always satisfy 0 <= lower <= upper <= 100. If no count is negative, at least two are positive, and each observation has an accuracy within T percent (T = 100 if no more is missed than counted), both ends differ from those of the exact delete-one jackknife interval by at most T n^2 / 2^46 for n observations; accci and wordaccci print them to the nearest hundredth, so that what is printed is off by at most 0.005 and this error.", "quantifier": "all lists of observations with T n^2 <= 2^52 and T times the total count <= 2^52 (range and outcomes: all lists shorter than 2^53), all report files, all command lines", "why_tests_cant": "cancellation in j - totalj makes the error depend on all the observations; a bound for all lists of any length needs an error analysis", "anchors": ["src/ci.c:compute_ci", "src/ci.c:accuracy", "src/ci.c:valid_obslist", "src/accci.c:write_results", "src/wordaccci.c:write_results", "src/accci.c:main", "src/wordaccci.c:main"]}
{"id": "C86", "title": "fastukk_sync takes time proportional to length times distance", "statement": "For texts of m and n characters with edit distance d, compute_pathlist has exactly d+1 levels, calls compute_f at most (d+1)^2 times (once per cell of the paths), looks at no more than three cells per call in initial_f, and evaluates the condition of the while loop of compute_f at most (2d+1)(min(m,n)+1) times; the resulting list has at most 2d+1 items, at most d+1 of them matches. compute_f is never called more often than the code compiled with SHOW_FASTUKK_REDUCTION counts for Ukkonen's algorithm, so that the reduction shown lies between 0 and 100 percent.", "quantifier": "for all pairs of texts", "why_tests_cant": "Bounds on the running time and memory in terms of the edit distance hold or fail for all lengths; tests measure single sizes.", "anchors": ["src/sync.c:compute_pathlist", "src/sync.c:compute_f", "src/sync.c:initial_f", "src/sync.c:obtain_matches", "src/sync.c:fastukk_sync"]}
{"id": "C87", "title": "What a run prints on stderr, and its status", "statement": "Every program, started with any arguments and any files, ends with status 0 and its output, or with status 0 and the usage line (no arguments, or a request for help), or with status 1 and one line that begins with the program's name, preceded only by warnings; this is the same outcome as in the model of the programs without messages. A fault in the command line names the argument; the first report that cannot be opened or is refused is named, with the reason; a text is named only if it cannot be opened, and if it is not UTF-8 the message tells whether a byte begins no character, the file ends within a character, or utf8proc refused it. A list of stopwords or groups is treated like a text, the wrong number of files is reported before any file is opened, and the value of an option that is not allowed is named. A file that cannot be created is named. Only wordacc prints anything on stderr when it succeeds: one warning for each stopword that is given again, in order.", "quantifier": "for all programs, arguments, files and sets of files that can be created", "why_tests_cant": "The first fault in any command line or sequence of files determines the line printed; tests cover single faults.", "anchors": ["src/util.c:error", "src/util.c:error_string", "src/util.c:warning_string", "src/util.c:show_usage", "src/util.c:parse_args", "src/util.c:open_file", "src/util.c:terminate", "src/text.c:read_text", "src/stopword.c:save_stopword"]}
{"id": "C88", "title": "sync.c and editop.c never use or free an object that is not allocated", "statement": "With the items of the lists of sync.c as objects that are allocated and freed, linked by pointers: synchronize on 2 to 16 texts, transpose_sync on any two texts and the functions of editop.c (discarding items, joining adjacent blocks, moving blocks) never follow a null or dangling pointer, never free anything twice, and give the same lists, data and output as on mathematical sequences. At the end the objects allocated are exactly those of the lists, each with its own array of substrings; after editop the second list has at most one object.", "quantifier": "for all texts and all uninitialized list headers", "why_tests_cant": "Whether a pointer dangles depends on which blocks are split, discarded and joined in which order; a use after free usually goes unnoticed in a test.", "anchors": ["src/sync.c:save_match", "src/sync.c:recursive_sync", "src/sync.c:synchronize", "src/sync.c:transpose_sync", "src/editop.c:discard_sync", "src/editop.c:count_deletions", "src/editop.c:combine_adjacent", "src/editop.c:find_candidates", "src/editop.c:find_move", "src/editop.c:perform_move", "src/editop.c:count_moves"]}
{"id": "C89", "title": "fastukk_sync frees everything it allocates for the search", "statement": "With the paths and diagonals of fastukk_sync as objects that are allocated and freed, linked in the static lists pathlist and diaglist, and with the arrays of the paths allocated and freed: for any two texts fastukk_sync follows no null or dangling pointer, uses no index outside an array, frees nothing twice, and gives the list and the match numbers of the model on sequences. At the end both static lists are empty and no path, diagonal or array is allocated, so that the next call starts as the first one; of the list items only those of the result are allocated.", "quantifier": "for all pairs of texts, after any number of earlier calls", "why_tests_cant": "The number of paths and diagonals grows with the distance of the texts; a leak or a dangling pointer does not change the output.", "anchors": ["src/sync.c:initial_f", "src/sync.c:compute_f", "src/sync.c:compute_pathlist", "src/sync.c:obtain_matches", "src/sync.c:fastukk_sync"]}
{"id": "C90", "title": "The work and the recursion depth of sort, and of the second sort of wordfreq and ngram", "statement": "sort() of n elements, with any comparison routine, calls the routine at least n - 1 and at most n (n - 1) / 2 times, and at most n - 1 activations of quicksort exist at the same time. Both upper bounds are reached by an array that is already in strictly increasing order; if all elements are equal, n log2 n calls and depth log2 n suffice. wordfreq and ngram sort their array by key and then the sorted array by count: if all n words of the files of wordfreq are different (or all entries of ngram have the same figures), the second sort needs exactly n (n - 1) / 2 calls and depth n - 1.", "quantifier": "for all arrays, comparison routines and files", "why_tests_cant": "Small inputs are sorted quickly in any case, and no finite test shows that a bound holds for all sizes.", "anchors": ["src/sort.c:quicksort", "src/sort.c:sort", "src/wordfreq.c:write_report", "src/ngram.c:write_report"]}
{"id": "C91", "title": "The work done and the memory used by wordacc", "statement": "Let m and n be the numbers of words of the correct and the generated text that occur in the other text, L the length of a longest common subsequence of the two texts, and D = m + n - 2 L. If m <= 65535, compute_pathlist allocates exactly D + 1 paths with (D + 1) (D + 2) / 2 elements in total, and the loop over k has exactly that number of iterations; compute_f is called at most once in each; the condition of its while loop is evaluated at most (2 D + 1) (min(m, n) + 1) times; obtain_matches sets the flag of exactly L words. For equal texts there is one path with one element and at most m + 1 evaluations; for m different words against the same words in reverse order the arrays have m (2 m - 1) elements.", "quantifier": "for all pairs of texts with at most 65535 words of the correct text in the other one", "why_tests_cant": "A test measures single pairs of texts; the bounds are about all of them, and the worst case needs 17 GB.", "anchors": ["src/wordacc.c:compute_pathlist", "src/wordacc.c:compute_f", "src/wordacc.c:obtain_matches", "src/wordacc.c:setup"]}
{"id": "C92", "title": "Texts, word lists and table keys in memory", "statement": "Take a text, a word list and a table of terms, and read files into the text, find its words, add them to the table and empty the lists in any order. With list items, words, strings and keys as objects that are allocated and freed, the outcome is that of the functions on sequences, so nothing is used or freed after it has been freed and no array is too short; at each moment exactly the characters of the text, the words of the list, their strings and the keys of the table are allocated, each in a place of its own. Reading a further file leaves the earlier characters in place. wordfreq ends with nothing allocated but the keys of its table; ngram with the characters of the last file and the keys; init_stopwords with the words, whose strings are the keys.", "quantifier": "for all files, options, Unicode tables and sequences of operations, and every normalisation function that returns strings", "why_tests_cant": "A double free or a use after free can go unnoticed in a test, and a leak always does.", "anchors": ["src/text.c:read_text", "src/text.c:compress_spacing", "src/word.c:find_words", "src/word.c:append_word", "src/word.c:free_word", "src/list.c:list_empty", "src/wacrpt.c:add_term", "src/wordfreq.c:process_file", "src/ngram.c:process_file", "src/stopword.c:init_stopwords"]}
{"id": "C93", "title": "Temporary names are unique and their files are removed", "statement": "A temporary name fits into the array of 100 characters exactly if the name of the program, the process number and the number of the file have together at most 92 characters. Equal names belong to the same program, process and number if the program names do not end with a digit; otherwise two processes may get the same name. A program that asks for fewer than 32767 temporary names gets different names of files that do not exist, and when it has ended no such file exists, while all other files are as the program left them. A program that asks for none removes none. After 32767 requests quit does not return.", "quantifier": "for all program names, process numbers, file systems and sequences of requests, creations and removals", "why_tests_cant": "A test sees the names of one process; the clash needs two processes with particular numbers, the endless loop 32767 requests.", "anchors": ["src/util.c:create_tempfilename", "src/util.c:tempfilename", "src/util.c:delete_tempfiles", "src/util.c:quit"]}
{"id": "C94", "title": "No figure exceeds the size of the texts", "statement": "After every item of the alignment each figure accumulated by accuracy lies between 0 and the number of characters of both texts together. Each figure of editop lies between 0 and the length of the longer text. Each count of wordacc lies between 0 and the number of words of the correct text, and the number missed between 0 and the count. So for texts of together fewer than 2^62 characters no counter of type long overflows.", "quantifier": "for all texts, all lists of words and every number of processed items", "why_tests_cant": "A test sees the figures of some small texts, not that the counters cannot overflow, become negative or exceed the texts for any others.", "anchors": ["src/accuracy.c:process_synclist", "src/editop.c:count_moves", "src/wordacc.c:determine_wacdata", "src/accrpt.h:Accdata"]}
{"id": "C95", "title": "What the options -s and -w of vote can change", "statement": "For the same texts and the same -O the characters of vote's output do not depend on -s, and on -w only through the value of the fraction (1/2 and 2/4 are the same); if no text has a suspect mark, they do not depend on -w at all. A larger fraction for -s keeps every mark of a smaller one. Options with the same values give the same output, byte by byte, and the same ending for any files.", "quantifier": "for all lists of 2 to 16 texts or files, all valid values of the options", "why_tests_cant": "A test compares the outputs for a few option values; that rounding of the threshold and the products with the weights never make a difference needs all texts and all fractions.", "anchors": ["src/vote.c:validate_args", "src/vote.c:place_vote", "src/vote.c:winner", "src/vote.c:perform_vote"]}
{"id": "C96", "title": "The work done by synchronize and transpose_sync", "statement": "For k texts, the first with n characters and the others with S together, synchronize with M matches calls recursive_sync exactly once for each item of its result, at most 2M+1 times, nested at most M+1 deep; it tries at most (M+1)nS and at most n^2 S pairs of positions; the loop extending a match evaluates its condition at most n times per pair, and for two texts at most n^2 S times in all. transpose_sync of texts with n and m characters and M matches makes M+1 searches, tries at most (M+1)nm pairs and makes at most nm further comparisons per matched character. Counting does not change the results; for texts without a common character every pair is tried exactly once.", "quantifier": "for all texts (2 to 16 for synchronize)", "why_tests_cant": "Timing a few files shows nothing about the worst case; the bounds need an invariant over the recursion and the shrinking limits of longest_match.", "anchors": ["src/sync.c:longest_match", "src/sync.c:recursive_sync", "src/sync.c:synchronize", "src/sync.c:transpose_sync"]}
{"id": "C97", "title": "Which files a program changes", "statement": "Every program reads its input files as they were when it was started, and never has more than one file open. If it produces output, the output file (if one is named) holds exactly the output for the files as they were before (as much of it as the disk has room for), even if the output file is one of the input files; every other file is unchanged, and stdout gets the output only if no file is named. If the program ends with a message no file has changed, not even the output file of an earlier run. The programs that print on stdout change no file. Hence a script that runs accuracy for any number of pages and then accsum on the reports leaves all other files unchanged and prints a report in which the characters and errors are the sums over the pages.", "quantifier": "for all command lines, all contents of the files, and any number of pages; the script on a disk with enough room", "why_tests_cant": "Tests look at the report, seldom at the other files, and not at runs where the report overwrites an input or where a run fails in the middle; scripts over any number of pages need induction.", "anchors": ["src/util.c:open_file", "src/util.c:close_file", "src/accuracy.c:main", "src/wordacc.c:main", "src/editop.c:main", "src/vote.c:main", "src/groupacc.c:main", "src/accsum.c:main"]}
{"id": "C98", "title": "A program that is killed", "statement": "The handler for SIGINT and SIGTERM is installed after the name of the program is known; other signals have none and kill the program without a message. When one of these signals arrives, at any time and whatever further signals arrive while the message is printed, the program ends with status 1 and exactly one message. All files are as before the run, except that the output file may hold a beginning of the output that would have been written; a run that would have ended with a message has changed no file. Every beginning of the output is there at some time. Since the end of a report is not marked, the report of a killed editop may be read as a complete report in which the moves longer than some length are missing.", "quantifier": "for all programs, command lines and files, all times of arrival and all sequences of further signals", "why_tests_cant": "Signals arrive between any two steps; tests can send a few at chosen times only.", "anchors": ["src/util.c:handle_interrupt", "src/util.c:trap_interrupts", "src/util.c:initialize", "src/util.c:error", "src/edorpt.c:write_edorpt"]}
{"id": "C99", "title": "Scripts for edit operations and words", "statement": "A script runs editop for every page, then editopsum on the reports with its output redirected to a file, then editopcost on that file with its output redirected. If no report is written over a file that is still needed, the script ends normally and prints nothing; the sum states the insertions and deletions of all pages together; the costs are, for each threshold, the sums of the costs of the pages; no other file changes. The same holds for wordacc and wordaccsum: the words of the sum are those of all correct texts, and those missed are what longest common subsequences leave over. If the output of editopsum, wordaccsum or accsum is redirected onto one of its own reports, that report is lost, but the sum of the others is never printed as if it were complete: the program names the report and ends with status 1, and nothing is written.", "quantifier": "for all lists of pages, all names of files, all texts whose total length does not overflow the columns of the reports, and all states of the files, on a disk with enough room", "why_tests_cant": "The result depends on the files being the same names or not, in every combination, and on any number of pages.", "anchors": ["src/editop.c:main", "src/editopsum.c:main", "src/editopcost.c:main", "src/wordacc.c:main", "src/wordaccsum.c:main", "src/accsum.c:main", "src/edorpt.c:read_edorpt", "src/wacrpt.c:read_wacrpt"]}
{"id": "C100", "title": "The program that writes word_break_property.h", "statement": "For every file in the format of WordBreakProperty.txt (comments, blank lines, single code points or ranges, any white space, last newline present or not) generate_word_break.py prints a header with a table of exactly the ranges in the file, in ascending order; the text of a header determines the table. If no code point is in two ranges, the search in word.c with this table finds for every code point the category that the file assigns to it, and Other if it assigns none. For the ranges of the data file that comes with the program, whatever the comments, the table is that of word_break_property.h. If a line has an unknown category nothing is printed; whatever the file, nothing or a header with a table in ascending order is printed. The program does not check that the ranges are disjoint; if they are not, the search may miss a code point.", "quantifier": "for all files in the format, all comments, all ranges and categories, and all code points", "why_tests_cant": "The generated table is only as good as the parser for lines that the present data file does not contain; a test of the table samples code points.", "anchors": ["libexec/generate_word_break.py:parse_range", "libexec/generate_word_break.py:parse_line", "libexec/generate_word_break.py:parse_lines", "libexec/generate_word_break.py:to_c_header", "libexec/generate_word_break.py:generate_literal", "libexec/generate_word_break.py:generate_table", "src/word_break_property.h:WORD_BREAK_PROPERTY", "src/word.c:search_for_property"]}
{"id": "C101", "title": "How a character is shown", "statement": "char_to_string writes '^' if the character is suspect and then: for a newline '<\\n>' or a newline, as asked; for a combining mark (categories Mn, Mc, Me) a dotted circle and the character in UTF-8; for any other printable character the character in UTF-8; for all other characters (unassigned, separators other than the space, control and format characters, surrogates) their number in upper-case hexadecimal notation in angle brackets, with at least two digits below 256 and at least four from there on, and no other leading zeros. This determines the text. The buffer of the callers is overrun exactly for suspect characters from U+100000 on that are not printable. A file written by write_text consists of these texts, one after the other. So do the keys of n-grams (with '<\\n>'), and the names of characters in accuracy reports and the printouts of synctext are these texts.", "quantifier": "for all character databases, all characters up to U+10FFFF, suspect or not, both kinds of newlines, and all texts", "why_tests_cant": "There are thirty categories and more than a million code points, and reports are checked by tests for a few of them.", "anchors": ["src/text.c:char_to_string", "src/text.c:is_graphic_character", "src/text.c:is_combining_character", "src/text.c:encode_or_die", "src/text.c:write_text"]}
{"id": "C102", "title": "A full disk is not noticed", "statement": "Run on a disk with room for n more bytes, editop, wordacc, groupacc, accuracy and vote end exactly as on a disk with enough room: with the same exit status, the same messages on stderr and the same output on stdout. The files left are the same too, except that of the file written only the first n bytes are there. If a report is cut off anywhere and is still accepted by the programs that read it, the figures at the top are right: the insertions and deletions of a report of editop, the words and misses of a report of wordacc, all eight kinds of figures of a report of accuracy. The same holds of the sums of any number of reports (editopsum, wordaccsum, accsum). The rest may be wrong (2 moves instead of 25, or of length 1 instead of 12). A report of editop that is cut off is accepted or refused, never read with undefined behaviour; but every report of accuracy in which characters are counted, and every report of wordacc at all, can be cut off so that reading it is undefined; so for every run of these programs on such texts that names a report there is an n for which it ends without an error and leaves such a report.", "quantifier": "for all command lines, all contents of the disk, all n; all files that are read as reports", "why_tests_cant": "Tests run with enough room; a full disk is hard to arrange, and a report can be cut off at any byte.", "anchors": ["src/util.c:close_file", "src/util.c:open_file", "src/edorpt.c:write_edorpt", "src/edorpt.c:read_edorpt", "src/wacrpt.c:read_wacrpt", "src/accrpt.c:read_accrpt"]}
{"id": "C103", "title": "Characters are compared for equality only", "statement": "The alignments made by synchronize, fastukk_sync and transpose_sync depend only on the lengths of the texts and on which positions match, that is, hold the same character other than the reject character; not on the characters themselves. So editop writes the same report, byte by byte, for two pairs of files in which the same positions match, and accuracy reports the same numbers of characters and errors. If the texts are written in a code in which different characters stay different and ~ stays as it is, vote without -O gives its former output in this code, with the same marks.", "quantifier": "for all texts, files and command lines; all codes; accuracy: files as in C82; editop: texts shorter than 2^62; vote: texts of printable characters", "why_tests_cant": "A relation between runs over arbitrary texts and arbitrary codes; a test compares a few runs.", "anchors": ["src/sync.c:synchronize", "src/sync.c:fastukk_sync", "src/sync.c:transpose_sync", "src/sync.c:longest_match", "src/editop.c:main", "src/accuracy.c:main", "src/vote.c:place_vote", "src/vote.c:winner"]}
{"id": "C104", "title": "Texts read backwards, reordered, or with other words", "statement": "accuracy reports the same numbers of characters and errors if both texts are written backwards. wordacc reports the same numbers of words and misrecognized words if the words of both texts come in the opposite order, or if the words are replaced so that different words stay different. The numbers of insertions and deletions reported by editop do not change if the characters of either text are reordered in any way.", "quantifier": "for all files as in C82, all ways to replace words, all orders", "why_tests_cant": "Relations between runs over arbitrary texts; a test compares a few runs.", "anchors": ["src/accuracy.c:main", "src/wordacc.c:main", "src/editop.c:main", "src/sync.c:fastukk_sync", "src/sync.c:transpose_sync"]}
