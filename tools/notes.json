{
 "C01": {
  "status": "proved",
  "note": "Pointer-level model of list.c with a shared heap; refinement to sequences by induction over legal histories."
 },
 "C02": {
  "status": "proved",
  "note": "Pointer-level table.c on the list.c heap, several tables sharing one heap; lookup/count/array/empty for all legal histories. c02_store: with the contents of the entries in memory, find-or-create, table_in_array (with its order) and table_empty refine the list of entries (Store) over which the programs are modelled."
 },
 "C03": {
  "status": "proved",
  "note": "Arbitrary comparator: terminates in bounds and permutes; total preorder on the elements: sorted. Element addressing is checked; comparator is a pure function."
 },
 "C04": {
  "status": "proved",
  "note": "All five comparators; narrowing of long to int modelled exactly; c04_false_beyond_int_range shows the 2^31 bound is sharp."
 },
 "C05": {
  "status": "proved",
  "note": "NUL-terminated strings modelled with checked byte access."
 },
 "C06": {
  "status": "proved",
  "note": "UTF-8 encoding taken from Lean core's String.utf8EncodeChar; utf8proc_iterate/encode/utf8class modelled from utf8proc 2.x."
 },
 "C07": {
  "status": "proved",
  "note": "Position-by-position specification `marked`."
 },
 "C08": {
  "status": "proved",
  "note": "For every blank classification."
 },
 "C09": {
  "status": "proved",
  "note": "Full functional specification of compress_spacing plus preservation of visible characters."
 },
 "C10": {
  "status": "partial",
  "note": "False in the code for marked unprintable characters from U+100000 on (c10_overflow); proved for everything else."
 },
 "C11": {
  "status": "proved",
  "note": "Under facts true of every Unicode version: NUL and surrogates not graphic, no ASCII combining marks."
 },
 "C12": {
  "status": "proved",
  "note": "Same Unicode facts; collision exhibited for five characters."
 },
 "C13": {
  "status": "proved",
  "note": "With and without header; failure for combining characters proved."
 },
 "C14": {
  "status": "proved",
  "note": "For lines that fit the 98-byte read buffer; failure beyond that proved with a witness."
 },
 "C16": {
  "status": "proved",
  "note": "Level-by-level invariant of the pruned diagonal search (min_k/max_k pruning included), then backtrace; optimality against an inductive definition of edit scripts. diag values are unbounded integers (the F type is 64-bit; the length check against it is not modelled)."
 },
 "C17": {
  "status": "proved",
  "note": "Substrings tile both texts; matches equal, nonempty, reject-free; cells numbered consecutively."
 },
 "C18": {
  "status": "proved",
  "note": "All array reads in the model are checked and all loops have explicit bounds; the result is never ub, fuel or an error."
 },
 "C19": {
  "status": "proved",
  "note": "Includes termination: a match is never adjacent to an older match, so the recursion only visits fresh unmatched regions. The model finds the item again by its match cell instead of holding a pointer."
 },
 "C20": {
  "status": "proved",
  "note": "Termination by the number of unmatched characters; exhaustion by maximality of longest_match."
 },
 "C15": {
  "status": "proved",
  "note": "Initialization loop over the full range table with checked writes; class names for all code points below U+10FFFF; the out-of-range lookup for U+10FFFF is proved (c15_last)."
 },
 "C21": {
  "status": "proved",
  "note": "process_synclist on the result of fastukk_sync with checked array accesses; includes exact class counts and class sums. Hypothesis: correct text without U+10FFFF; with it the program provably accesses elements outside of its tables (c21_last)."
 },
 "C22": {
  "status": "proved",
  "note": "Follows the real fastukk_sync model; edit distance is an independent inductive definition."
 },
 "C23": {
  "status": "proved",
  "note": "Only the correct text needs to be free of '~'. Texts are those after reading (normalization: C08/C09)."
 },
 "C24": {
  "status": "proved",
  "note": "Also: keys distinct, counts positive, marked <= errors."
 },
 "C25": {
  "status": "proved",
  "note": "Side buffers (28 bytes) and the key buffer (100 bytes) with checked strcat/sprintf, for all categories."
 },
 "C26": {
  "status": "proved",
  "note": "For all data with long counters, non-negative moves of length 1..100 and no moves by length without a positive total."
 },
 "C27": {
  "status": "proved",
  "note": "Sum for arbitrary readable files; order independence for arbitrary files when one order succeeds; report of the sum for written reports; termination for every file."
 },
 "C48": {
  "status": "proved",
  "note": "One report and difference of two reports; the complete output of 101 lines."
 },
 "C49": {
  "status": "proved",
  "note": "Moves is an independent relation: every counted move takes consecutive blocks to another place; the recorded lengths are the numbers of characters moved (capped at 100). Composed with transpose_sync for editop itself."
 },
 "C56": {
  "status": "proved",
  "note": "List.diff is multiset difference."
 },
 "C28": {
  "status": "proved",
  "note": "Round trip for all Reportable data (counts < 10^8); data computed by accuracy for texts of less than 10^8 characters in total are shown reportable (c28_accuracy); wrong column for larger counts (c28_wide); reading terminates for every file.  %8.2f is a parameter with contract PctFormat."
 },
 "C29": {
  "status": "proved",
  "note": "Sum for arbitrary readable files; byte-identical output for permuted files when summed confusion counts are in [0,2^31); report of the sum for written reports."
 },
 "C30": {
  "status": "proved",
  "note": "Round trip for all Reportable data (counts < 10^8, words of at most 68 bytes); wrong column for words counted 10^8 times or more (c30_wide); reading terminates for every file.  %8.2f is a parameter with contract PctFormat."
 },
 "C31": {
  "status": "proved",
  "note": "Sum for arbitrary readable files; byte-identical output for permuted files, without bound on counts; report of the sum for written reports."
 },
 "C32": {
  "status": "proved",
  "note": "c32_lcs: for all word sequences with at most 65535 words of the correct text occurring in the other, the pruned O(ND) search terminates without invalid access and the flagged words are a longest common subsequence; c32_misrecognized: Misrecognized = Words - LCS length (words of at most 50 bytes, see C33); c32_too_long: beyond the limit the program stops with an error."
 },
 "C33": {
  "status": "proved",
  "note": "c33_exact: every figure equals the independent count (Spec.Wordacc.Exact); c33_consistent: the sum identities; c33_long: any word of more than 50 bytes is counted outside the array (the bounds claim is false as it stands, shown by c33_long; the other theorems assume words of 1..50 bytes). Recognition flags are those produced by the alignment."
 },
 "C34": {
  "status": "proved",
  "note": "c34_phrases: counts of windows and of windows with a misrecognized word for L=1..8 (words of 1..50 bytes, otherwise c33_long)."
 },
 "C35": {
  "status": "proved",
  "note": "c35_words: for every text with a character other than Extend/Format (or empty), find_words terminates without invalid access, the segments are nonempty, concatenate to the text, are cut exactly where the rules say (C36), and the words are the NFC strings of the segments starting with a word character. c35_dropped: a text of Extend/Format characters only yields no word (the claim is false there). Word break property, general category and NFC are arbitrary parameters; values below 0x110000."
 },
 "C36": {
  "status": "proved",
  "note": "c35_words (rules with Extend/Format skipped, on the whole text; the rules are data in Spec/Word), c36_unique (the cuts determine the segments), c36_uax (exactly UAX #29 for Unicode 8.0 when no Extend/Format stands at the start or directly after CR/LF/Newline), c36_deviation (otherwise the program differs from UAX #29)."
 },
 "C37": {
  "status": "proved",
  "note": "c37_search for every sorted table, c37_table for the table of word_break_property.h (all 1093 ranges, transcribed by a script), c37_property for every value."
 },
 "C39": {
  "status": "proved",
  "note": "Region output decided round by round by plurality (Elected: most weighted votes, ties to the earliest proposal); the region ends when ending it is elected, so the remaining characters of the other voters are dropped (behaviour of the code, made explicit in the spec). Uniqueness of the result proved."
 },
 "C40": {
  "status": "proved",
  "note": "For equal reject-free texts, with and without -O; texts shorter than 2^31 characters. Also: every matched region is reproduced for any texts."
 },
 "C41": {
  "status": "proved",
  "note": "Mark iff votes <= threshold; without -s nothing is marked (weights are at least 1 by C42)."
 },
 "C42": {
  "status": "proved",
  "note": "For signed and unsigned char; c42_settings gives the complete behaviour of validate_args."
 },
 "C43": {
  "status": "proved",
  "note": "Medians and distances are exact (twice the value as an integer); float/double rounding above 2^23 / 2^52 is not modelled. Counts below 2^31. Medians and distances are exact in this model; C80 relates it to float and double."
 },
 "C38": {
  "status": "proved",
  "note": "For every list of words (file contents read and segmented) and for the 110 defaults; every order of calls of init_stopwords and is_stopword is covered."
 },
 "C44": {
  "status": "proved",
  "note": "For all lists of readable files and n in 1..3: the listing, counts, suspect figures and totals; the listing is the only one with these figures in this order. Counters unbounded."
 },
 "C45": {
  "status": "proved",
  "note": "For all lists of readable files; both listings and totals. Counters unbounded."
 },
 "C50": {
  "status": "proved",
  "note": "c50_general covers repeated words (subtracted as often as listed); c50_exact, c50_program and c50_wordacc are for lists without repetitions. %6.2f is a parameter."
 },
 "C51": {
  "status": "proved",
  "note": "For group files without U+10FFFF; with U+10FFFF the array access is out of bounds (c51_last). A character listed twice counts twice (c51_repeated)."
 },
 "C46": {
  "status": "proved",
  "note": "Exact rational accuracies (equal to the comparison of doubles for counts below 2^46). c46_bounds: the write is in bounds iff the accuracy is below 101 percent. Counters unbounded."
 },
 "C47": {
  "status": "proved",
  "note": "Exact real arithmetic. c47_jackknife gives the value of the interval; division by zero is a distinct outcome (ub) that does not occur if no count is negative."
 },
 "C54": {
  "status": "proved",
  "note": "For all sequences of readable reports; the printed result is that of the single reports' figures. c54_written composes with the report writer."
 },
 "C52": {
  "status": "proved",
  "note": "For every option table with distinct names and every command line of at most 32768 arguments: success exactly if the arguments parse, exact operands and variables, exact message otherwise, no other outcome. show_usage is the outcome err \"usage\"."
 },
 "C53": {
  "status": "proved",
  "note": "For paths of at most 32768 bytes; c53_long: beyond that (to 65535) the short position wraps and the result is undefined."
 },
 "C55": {
  "status": "proved",
  "note": "The printout of synctext is that of a document containing every text (c55_document, c55_content); from a printout without -s of brace-free texts a decoding function finds every text (c55_restores); -T: c55_transposed. Texts containing braces can be confused with marks, so restoration from the bytes alone is stated for brace-free texts."
 },
 "C57": {
  "status": "proved",
  "note": "c57_page: for files without a header, an equivalence with the byte-level description IsPage; c57_total: for every file, all options; c57_text: files with a header whose lines fit the 100-byte line buffer (longer header lines are split by fgets; then only c57_total applies)."
 },
 "C58": {
  "status": "proved",
  "note": "accuracyMain with the file system as a function; HoldsText allows a vendor header on the generated file. Texts of together under 10^8 characters (report columns, C28). The output file is assumed creatable. c58_total covers arbitrary files and arguments."
 },
 "C59": {
  "status": "proved",
  "note": "Words of 1 to 50 bytes (C33: longer ones overflow an array), at most 65535 common words; the words are those described in C35/C36, NFC a parameter. c59_refuses: wrong number of files, missing stopword file."
 },
 "C60": {
  "status": "proved",
  "note": "The list of moves is that of C49; -D output not modelled. c60_total covers arbitrary files and arguments."
 },
 "C61": {
  "status": "proved",
  "note": "Plurality as in C40/C41, options as in C42, choice of voters with -O as in C43. Texts of printable characters other than the marker (Writable)."
 },
 "C62": {
  "status": "proved",
  "note": "Composition of C58-C60 with C29, C31, C27 and C48. The total size of the pages is below 10^8 (accuracy, wordacc) or 2^62 (editop), so that the columns of the reports suffice; U+10FFFF excluded in correct texts (C21)."
 },
 "C63": {
  "status": "proved",
  "note": "Greedy (Spec/Greedy.lean) describes the outcome in terms of strings, independently of positions in the synchronization list; c63_determined shows that it leaves no choice. c63_three is the counterexample to completeness for three texts (finding B17)."
 },
 "C64": {
  "status": "proved",
  "note": "Composition of C44/C45 with the argument parser (C52) and the file system. The total number of n-grams (words) is below 2^31, the range of the counters. Totality is shown for ngram only; wordfreq can overflow the word buffer (C33)."
 },
 "C65": {
  "status": "proved",
  "note": "Composition of C58/C59 with C46, C47 and C54; arithmetic exact (rationals for dist, reals for ci), `%.2f` a parameter. Pages below 10^8 characters (report columns); U+10FFFF excluded in correct texts (C21)."
 },
 "C66": {
  "status": "proved",
  "note": "Composition of C58/C59 with C50, C51, C55 and the argument parser (C52). Group files without U+10FFFF (C51 exception). The refusal of a missing report by nonstopacc is stated only when the stopword file is missing (the stopwords are read first, C33)."
 },
 "C67": {
  "status": "proved",
  "note": "U+10FFFF excluded in correct texts (C21); for reports, pages below 10^8 characters (report columns)."
 },
 "C68": {
  "status": "proved",
  "note": "Spec.accuracyText, wordaccText, editopText are written independently of the writing functions; `%8.2f` a parameter. accsum: no confusion counted 2^31 times or more (the comparison of confusions narrows to int, C04)."
 },
 "C69": {
  "status": "proved",
  "note": "Numbers are those found by the modelled sscanf (integers, no overflow of long). Spec/AnyReport.lean defines the meaning on lines; the C buffer's stale bytes are not modelled, reading them is undefined in the model."
 },
 "C70": {
  "status": "proved",
  "note": "utf8proc_iterate with length -1 is modelled byte by byte from the source of utf8proc 2. The project's unit tests (test/text_test.c, test/word_test.c) are checked as computations of the model in Props/CString.lean."
 },
 "C71": {
  "status": "proved",
  "note": "A division of doubles by zero (accci, wordaccci) counts as undefined, see Model/Ci.lean; in C it yields an infinity or a NaN."
 },
 "C72": {
  "status": "proved",
  "note": "The decoded text is described by IsPage (C57)."
 },
 "C73": {
  "status": "proved",
  "note": "For wordfreq the assumption Lower (lower-case letters are code points) is needed. Writing the output file is not modelled."
 },
 "C74": {
  "status": "proved",
  "note": "Needs the assumption Lower for wordacc and nonstopacc (lower-case letters are code points). Writing the output file is not modelled."
 },
 "C75": {
  "status": "proved",
  "note": "The result of the vote is the model function voteTexts, characterised by C39 to C43; the selection of voters is shown total without the bound on the lengths of the texts that C43 needs. The output of option -D of vote is not modelled."
 },
 "C76": {
  "status": "proved",
  "note": "Each move is best among all moves of one block; the printed trace is the sequence of states."
 },
 "C77": {
  "status": "proved",
  "note": "The ranking printed is the one used by -O; exact distances; the rest of the run is unchanged by -D. Medians and distances are exact in this model; C80 relates it to float and double."
 },
 "C78": {
  "status": "proved",
  "note": "IEEE 754 rounding and correctly rounded printf are part of the model; the contract assumed elsewhere for percentages is proved for it."
 },
 "C79": {
  "status": "proved",
  "note": "The percentages of the rows are printed by the model of C78 in both programs. An example shows that the bound is needed (one error in 2^60)."
 },
 "C80": {
  "status": "proved",
  "note": "C43 and C77 are about exact medians and distances; this is what the C code computes below 2^23 characters. c80_limit shows a wrong selection for texts of 2^24 characters (B19)."
 },
 "C81": {
  "status": "proved",
  "note": "Whole programs. accci and wordaccci in real arithmetic: with doubles the sums depend on the order in the last bits. The bound for accsum is that of the comparison of counts as int."
 },
 "C82": {
  "status": "proved",
  "note": "Whole programs. Texts with a reject character are left out, since it never matches, and files with a header, since the first file may have none."
 },
 "C83": {
  "status": "proved",
  "note": "c83_transposed, c83_longest, c83_same, c83_editop (iff, hence uniqueness), c83_zero, c83_programs"
 },
 "C84": {
  "status": "proved",
  "note": "c84_neighbours, c84_but_one, c84_three, c84_optimized, c84_wins, c84_files; c84_lost and c84_anagram show that a majority alone is not enough (finding B20)"
 },
 "C85": {
  "status": "proved",
  "note": "c85_range, c85_outcome, c85_error, c85_report, c85_accci, c85_wordaccci, c85_accci_ends, c85_wordaccci_ends; assumes no fused multiply-add and no extra precision"
 },
 "C86": {
  "status": "proved",
  "note": "The functions of sync.c with counters (Model/SyncCost.lean) compute the same paths. Counted: calls of compute_f, evaluations of its while condition, iterations of initial_f's loop. save_match and list operations are not counted (a constant number per path)."
 },
 "C87": {
  "status": "proved",
  "note": "The text of utf8proc_errmsg is a parameter; which files can be created is a parameter. Not modelled: failures while writing (no program looks at the results of fprintf and fclose), the texts of failed assertions."
 },
 "C88": {
  "status": "proved",
  "note": "fastukk_sync is in C89. Allocation is assumed to succeed and addresses are not reused. That the numbers (match) that are not needed any more have been freed is not proved; after editop the first list still points to freed numbers, which are not used any more (shown in an example)."
 },
 "C89": {
  "status": "proved",
  "note": "Allocation is assumed to succeed and addresses are not reused; an array is allocated with zeros, but it is shown to be filled before it is read. The counters under #ifdef SHOW_FASTUKK_REDUCTION are not part of this model (see C86)."
 },
 "C90": {
  "status": "proved",
  "note": "For ngram the statement is about the entries of the table. The size of the stack is not modelled."
 },
 "C91": {
  "status": "proved",
  "note": "Only the arrays of the paths are counted, not the tables and words. That the memory is never freed is not stated."
 },
 "C92": {
  "status": "proved",
  "note": "The default stop words, the totals of ngram and the entries of tables (as opposed to their keys) are not part of this heap."
 },
 "C93": {
  "status": "proved",
  "note": "unlink is taken to succeed; signals are not modelled."
 },
 "C94": {
  "status": "proved",
  "note": "The words have at most 50 bytes and at most 65535 of them occur in both texts, as in C33; sums of reports can overflow (C10)."
 },
 "C95": {
  "status": "proved",
  "note": "Invalid options are refused (C42)."
 },
 "C96": {
  "status": "proved",
  "note": "Counted are the evaluations of the conditions at sync.c:124-125 and 127-129, the calls of recursive_sync and the iterations of the while loop of transpose_sync."
 },
 "C97": {
  "status": "proved",
  "note": "For accuracy and vote the part about runs that end with a message assumes that all files hold bytes (c97_texts); for accuracy also facts about the Unicode tables. Write errors and a full disk are not modelled."
 },
 "C98": {
  "status": "proved",
  "note": "Handlers stay installed (BSD and GNU semantics of signal); calling stdio functions from a handler, which the C standard leaves undefined, is assumed to work. Runs with undefined behaviour are left out."
 },
 "C99": {
  "status": "proved",
  "note": "The redirection is done by the shell and is defined in Spec/Scripts.lean; it is not part of /repo."
 },
 "C100": {
  "status": "proved",
  "note": "Python 2 with byte strings; numbers with a sign or 0x are refused in the model; the decompression is left out. The data file is given by its ranges, without comments."
 },
 "C101": {
  "status": "proved",
  "note": "The categories are a parameter (utf8proc); surrogates are assumed not to be printable."
 },
 "C102": {
  "status": "proved",
  "note": "The room does not grow when an old file is emptied; stdout always has room; buffering is not modelled (what is kept is a prefix either way)."
 },
 "C103": {
  "status": "proved",
  "note": "The classes and confusions in an accuracy report, and -O of vote, do depend on the characters."
 },
 "C104": {
  "status": "proved",
  "note": "The positions of the alignments may differ; only the totals agree."
 }
}