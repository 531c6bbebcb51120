# ocreval in Lean 4: design of the formal model

## 1. Trusted base

* Lean 4.33.0's kernel, and the parts of Mathlib imported one module at a time.
* Axioms: every theorem listed in MANIFEST.json depends on at most `propext`, `Classical.choice` and
  `Quot.sound`; `AXIOMS.txt` (written by `tools/axioms.py`) gives the list theorem by theorem.  No axioms
  of our own, no `sorry`, no `native_decide`, no `bv_decide`.
* The reading of the C sources: every model definition cites the file and lines it models
  (`tools/citations.py` checks that each definition has a citation and that the names cited occur in the
  lines cited).  The C code is not run here; the model is tied to it by these citations only.
* What is assumed about code outside /repo is listed in section 3.

## 2. Conventions of the model

* `long` is modelled by `Int`/`Nat` (no overflow) except where a property is about narrowing
  (`long` to `int` in comparison routines, `long` to `short` in the argument parser: modelled exactly).
* Characters and bytes are `Nat`; a C string is the list of its bytes without the terminating NUL.
* Undefined behaviour, a call of `error()`, and non-termination are distinct outcomes
  (`Res.ub`, `Res.err`, and exhausting the fuel of a loop: `Res.fuel`); theorems about termination say the
  fuel outcome does not occur for a stated amount of fuel.
* list.c and table.c are modelled at pointer level (heap of cells) and proved to refine mathematical
  sequences and finite maps (C01, C02); other modules are modelled over Lean lists and `Store` (the list of
  the entries of a table, most recent first), justified by that refinement.
* sync.c and editop.c are also modelled on a heap with allocation, links and `free` (`Model/Heap.lean`, and `Model/Paths.lean` for
  `fastukk_sync`), and proved to refine the models over lists (C88, C89).
* text.c, word.c and their use by wordfreq, ngram and stopword.c are likewise modelled on a heap (`Model/TextHeap.lean`): the items of
  texts and word lists, the strings of words, the buffer of `append_word` and the keys of tables are allocated and freed, and the
  result is that of the models over lists (C92).  The entries and arrays of tables are not part of this heap.
* A directory per role: `Verif/Model` (the C code), `Verif/Spec` (notions used in the statements),
  `Verif/Proof` (lemmas), `Verif/Props` (the theorems `cNN_...` of MANIFEST.json, each with examples).

## 3. Not modelled / parameters

* utf8proc (version 2): `utf8proc_iterate`, `utf8proc_encode_char`, `utf8proc_utf8class` are modelled from
  their documented behaviour (source not in /repo); general category, lower-casing and NFC are
  *arbitrary parameters* (theorems quantify over them).  `UnicodeFacts` states the few facts used: NUL and
  surrogates are not graphic, ASCII is not combining; `sampleFacts` shows that they can be met.
* `printf("%8.2f")` of percentages: a parameter `pct` with a stated contract (`PctFormat`: no
  newline, at most 40 bytes, 8 columns for a percentage from 0 to 100).  `Model/Float.lean` is a concrete model
  of IEEE 754 rounding and of `printf`, proved to meet the contract (`c78_format`).  Trusted there: operations
  and `printf` round correctly (to nearest, ties to even) and `double` expressions are not computed with more
  precision.  The sign of a NaN is a parameter (`negative`).
* `double` arithmetic: dist.c in exact rational arithmetic and, in `Model/FloatPrograms.lean`, in floating
  point (C79: the same for figures below 2^46), ci.c in real arithmetic (division by zero is `ub`)
  and, in `Model/FloatCi.lean`, in floating point with a correctly rounded `sqrt` and without fused operations (C85:
  the same outcomes, bounded errors), vote.c with medians and distances doubled so that they are integers and, in `Model/FloatVote.lean`, in floating point (C80:
  the same for texts of fewer than 2^23 characters; `float` expressions are not computed with more precision).
* `atoi` and `sscanf` overflow; malloc failure; errors while writing, except for a disk that becomes full (C102: `World.room` in
  `Model/World.lean`; the C code does not look at the results of `fprintf` and `fclose`.  What is kept is a prefix of what is written; the
  room does not grow when an old file is emptied; `stdout` always has room.  The scripts of C97 to C99 assume enough room).  Temporary files are in `Model/Tempfile.lean` (C93); `Model/World.lean` and `Model/Signal.lean` (C97,
  C98) add the files that are changed, the streams that are open, and signals: there a handler stays installed, and the functions of the
  C library work when called from a handler.  In C99 `>` of the shell is defined in `Spec/Scripts.lean`: the file is emptied first and
  written at the end.  Which files can be created, and the text of `utf8proc_errmsg`, are parameters of
  `Model/Process.lean`, which adds messages and exit status to the programs; the other models leave them out.
* The printing of the statistics of `sync.c:404-408` (compiled only with `SHOW_FASTUKK_REDUCTION`); the counts are in `Model/SyncCost`.
* `libexec/generate_word_break.py` is in `Model/WordBreakGen.lean` (C100), as a Python 2 program on byte strings.  Its data file is
  given by the ranges (`Model/WordBreakData.lean`); gzip and the comments are left out.
* `util.c:98-103` `file_exists`, which is not called.
* K&R calling conventions, integer promotions other than the narrowing mentioned above.

Choices made where the C code leaves something open, so that theorems hold for every compiler:

* Whether `char` is signed is a parameter of vote.c's and ngram.c's option parsing.
* Uninitialised variables are parameters (`junk` for the decoding buffer of text.c and word.c) or `Option`
  (`prev_k` in fastukk).
* Bytes left in a line buffer by an earlier, longer line are not known: reading them is `ub` (`strAt`).
* sync.c: the diagonals are 64-bit, those of wordacc.c are 16-bit (hence the bound 65535 in C32 and C59);
  `>> 1` of a negative number is the arithmetic shift; a match number cell is named by a number.
* editop.c: a list item is identified by the cell of its match number; match numbers are natural numbers.
* Id pointers in wordacc.c are named by the key they stand for; `Char *` in word.c is the suffix of the list.
* synctext.c: files are given by a function from names to contents; an empty `%-0s` format, a format
  that does not fit the buffer: `ub`.
* The programs as a whole (C58-C62, C64-C66): each file is opened just before it is processed (`forFiles`), after the
  checks of the command line, as in the C code.

## 4. Findings

Deviations of the C code from what its comments or the properties lead to expect.  Each is a theorem or is
visible in the hypotheses of one.

* B1 `NUM_CHARVALUES` is 0x10FFFF, one less than the number of code points: U+10FFFF is outside `class[]`
  (c15_last, c21_last, c51_last).
* B2 A suspect combining character of four bytes needs more than `STRING_SIZE` bytes in `char_to_string`
  (c10_overflow; C10 is therefore partial).
* B3 wordacc: `length[strlen(key)]` is outside the array for words of more than 50 bytes (c33_long).
* B4 The dotted circle put before a combining character when writing is read back as a character of its own
  (hypothesis `Writable` of C11 and others).
* B5 Report columns `%8ld` run into each other from 10^8 on, and are then read back wrongly (c28_wide,
  c30_wide).
* B6 Comparison routines return `long` differences as `int`: wrong order for counts that differ by 2^31
  (hypothesis `IntCounts`).
* B7 find_words drops a text that consists of Extend and Format characters only (c35_dropped).
* B8 No word boundary after CR or before LF if an Extend character is between them (c36_deviation).
* B9 nonstopacc subtracts a word twice if it is listed twice in the stopword file (C50).
* B10 Header lines longer than the line buffer are read as several lines (hypothesis `PlainLine`).
* B11 read_edorpt uses `moves[value2]` and read_numbers `wac[index]` without a check of the index (C26, C30).
* B12 update_dist is outside the array for an accuracy of 101% or more (c46_bounds); compute_ci may divide
  by zero for negative counts (C47).
* B13 vote: when "no character" wins a round, the rest of the region is dropped (C39).
* B14 groupacc: a character repeated in the group file is counted twice; `^` in it is taken as a mark (C51).
* B15 basefilename uses a `short` index: wrong for paths longer than 32768 bytes (c53_long).
* B16 synctext's printout is ambiguous for texts that contain its own braces (hypothesis of C55).
* B17 synchronize with three or more texts may leave a string common to all texts unmatched: only the longest
  string common to the first two is looked for in the third (c63_three).
* B18 The report readers trust the file: a move length outside 0..100, a word accuracy row about something outside of
  its array, a row shorter than its column, a character row ending after `{`, and a hexadecimal character of 0x10FFFF
  or more lead to accesses outside of arrays (c69_editop, c69_wordacc, c69_accuracy).  A negative number of errors that
  makes an accuracy of 101 percent or more writes beyond the array of accdist and wordaccdist (c71_accdist).
* B19 vote keeps medians as `float`: from 2^24 occurrences of a digram on, option -O may select a text that is further
  from the median than one left out (c80_limit).
* B20 vote can lose a majority: with three equal texts among five, not next to each other on the command line, the output
  may be another text, because equal texts are matched at different occurrences of a string (c84_lost).  With -O the same
  happens if another text has the same digrams (c84_anagram).
* B21 editop.c frees the match numbers of blocks that it joins, but the items of the first list keep pointing to them; they are not
  used any more (example in `Props/Heap.lean`).
* B22 `quicksort` takes the first element as pivot, and wordfreq.c:85-88 and ngram.c:159-162 sort by count an array that is already sorted by
  key.  With n different words, each once, this takes n (n - 1) / 2 comparisons and n - 1 nested calls (`c90_wordfreq`): for a file with a
  million different words 5 * 10^11 comparisons, and a stack of a million activations.
* B23 wordacc.c:120 limits only the words of the correct text (65535), and `compute_pathlist` keeps the arrays of all paths: the memory is
  quadratic in the number of words not matched.  65535 different words against the same words in reverse order need 17 * 10^9 bytes
  (`c91_reverse`).  `path->f` is allocated for all p + 1 cells although only the cells between `min_k` and `max_k` are ever used.
* B24 util.c:111 puts no separator between the name of the program and the process number: a program `ocr1` with number 23 and a program
  `ocr` with number 123 get the same temporary names (`c93_clash`).  After 32767 temporary names `delete_tempfiles` never returns, since
  its counter is a `short` (`c93_endless`).  A program name of more than 90 characters overflows `name[100]` (`c93_fits`).
* B25 The end of a report is not marked.  If editop is killed while it writes its report, editopsum and editopcost may accept the part as a
  report without the longer moves (`c98_part`).
* B26 generate_word_break.py does not check that the ranges are disjoint; with overlapping ranges the search in word.c may return `Other` for
  a code point that has a category (example in `Props/WordBreakGen.lean`).  The data file that comes with it has disjoint ranges.
* B27 Nobody looks at the results of `fprintf` and `fclose`.  On a full disk a report is cut off, and the program ends with status 0 and
  without a message (`c102_reports`, `c102_texts`).  A report of editop that is cut off within its last number is read with the wrong number, and
  one of accuracy that is cut off after the brace of a row is read outside of the line (`c102_crash`, and examples in `Props/FullDisk.lean`).

## 5. Plan per property

| id | model | proof |
|----|-------|-------|
| C01 | heap + list headers, one function per list.c routine | representation invariant, induction over operation histories |
| C02 | 503 buckets of entries | refinement to the list of live entries |
| C03 | in-place quicksort over an array with checked accesses | loop invariant with a "hole", strong induction on segment length |
| C04 | comparators with exact int narrowing | total-order lemmas, uniqueness of sorted permutations |
| C05 | recursive byte comparison | induction, compared with the lexicographic order on lists |
| C06, C07 | byte-level reader on a concrete UTF-8 codec | induction on the code point list / byte list |
| C08, C09 | compress_spacing as list transformation | functional spec by induction |
| C10-C13 | char_to_string/read_char/write_text on byte lists | case analysis, arithmetic on encodings |
| C14 | fgets/read_header on byte lists | induction on header lines |
| C15 | initialization loop over the range table | fold lemma + kernel `decide` over the finite table |
| C16-C18 | fastukk: path list, min_k/max_k pruning, backtrace | Ukkonen invariants: soundness, existence of an unpruned optimal continuation |
| C19 | recursive_sync over a zipper-like list | maximality of longest_match, induction on total length |
| C20 | transpose_sync loop | measure = unmatched length |
| C21-C25 | process_synclist/make_key | induction over the sync list, C16/C17 |
| C26-C31 | report printers/parsers on bytes (fgets/sscanf/printf models) | line-by-line parsing lemmas |
| C32 | wordacc diagonals with zero-initialized cells | same technique as C16 |
| C33, C34 | process_terms/process_phrases | fold invariants |
| C35-C37 | word.c on lists + generated property table | induction; kernel `decide` for the table |
| C38 | stopword state machine on C02 | refinement |
| C39-C43 | vote.c | measure on remaining characters; fold invariants |
| C44, C45 | ngram.c, wordfreq.c | C02 + C12 |
| C46-C48 | dist.c, ci.c, editopcost.c over exact arithmetic | algebra |
| C49 | editop.c block list | invariant: match numbers are a permutation of 1..count |
| C50-C55 | nonstopacc, groupacc, util.c, synctext | induction |
| C56 | editop's insertions and deletions | multiset difference along the list of blocks |
| C57 | read_text for arbitrary bytes | equivalence with a byte-level description of a page |
| C58-C61 | main of accuracy, wordacc, editop, vote over a file system | composition of the above with the argument parser (C52) |
| C62 | report programs fed with the reports of C58-C60 | composition with C27, C29, C31, C48 |
| C63 | Spec/Greedy.lean: strings, not positions | first-longest invariant of longest_match; induction of recursive_sync; uniqueness of the outcome |
| C64 | main of ngram, wordfreq | composition of C44, C45 with C52 |
| C65 | main of accdist, accci, wordaccdist, wordaccci fed with the reports of C58, C59 | composition with C46, C47, C54 |
| C66 | main of groupacc, nonstopacc, synctext | composition with C50, C51, C55 |
| C67 | accuracy.c:make_key, accrpt.c:add_conf | invariant of the loop over the items; conditions on the 24-byte limit |
| C68 | write_accrpt, write_wacrpt, write_edorpt | equality with an independent text; C04 for the orders, C58/C59/C62 for the figures |
| C69 | read_edorpt, read_wacrpt, read_accrpt, read_char | meaning of a file defined on its lines; loops against it by induction on the lines |
| C70 | cstring_to_text, append_char, utf8proc_iterate on memory | induction on the string; reduction to C06; the unit tests as computations of the model |
| C71 | the programs that read reports | a loop over files ends in one of three ways (`Ends`); C69 for each file, invariants for the totals |
| C72 | any file as a text | the header loop equals dropping pieces of the file up to two dividers; then C57 |
| C73 | the programs that read texts | exact value, failure or message of every step (`Gives`); C72 for the files, C35/C36 for the words, C21, C56 |
| C74 | wordacc, groupacc, nonstopacc | `Gives` and `EndsAs` for every step in order; C33 extended to empty words; induction over the listed words with the number of words left |
| C75 | How vote and synctext end | every printing loop is cut off exactly by the first character that is too long (`Cut`); the pieces of an alignment cover the texts, so which characters are printed marked does not depend on the alignment |
| C76 | Greedy choice of the moves of editop; the output of option `-D` | `groups`, `joined`, `Best`, `Trace` as specification; the reduction computed by find_candidates is the number of new neighbours (adj_move_le, adj_move_after, adj_move_first) |
| C77 | The ranking printed by option `-D` of vote | `HalfText`, `RankLine`, `Ranking` as specification; rank_spec (sorted voters) shared with C43, voters_give of C75 |
| C78 | Percentages in floating point and as printed | model of IEEE rounding (`Fp.rnd`, unbounded exponent, `c78_range` shows that this is no restriction) and of `%w.2f`; error bound, monotonicity and exactness of `rnd`; a quotient is either a tie exactly or 1/d away from one; `c78_format` discharges `PctFormat` |
| C79 | accdist and wordaccdist in floating point | 100 n / d and an integer differ by at least 1 / |d| or not at all; rounding error at most 101 / 2^53; all endings of the readers by C71 |
| C80 | vote in floating point | halves of integers below 2^24 (2^53) are exact; sums bounded by the number of different digrams; sort commutes with the map from doubled integers to rationals (`sort_map`); `c80_limit` computes the counterexample from `countAll_spec` |
| C81 | order of the files | from the output follows that all files are opened and read; the reports of the permuted files by C27, C29, C31, the uniqueness in C44 and C45, `updates_perm` (the updates of a distribution commute) and `c47_any` (the jackknife interval is a symmetric function) |
| C82 | Relations between runs of accuracy, editop and wordacc over the same files | edit scripts can be reversed, composed and appended, and bound multiset differences; runs by C22, C28, C32, C56, C72 |
| C83 | transpose_sync takes the first longest common string each time; the report of editop in terms of strings, unique; no operation iff equal | invariant of both scans with the order of the candidates; save_match cuts pieces; uniqueness of matching and of best moves by induction; C76, C82 |
| C84 | equal texts that outweigh the others win if neighbours, all but one, two of three, or a majority with -O; counterexamples otherwise | greedy splitting (C63) treats equal neighbours and all but one alike; election per position by the tally; the median of a majority is its count, hence distance 0; C39, C43, C61 |
| C85 | ci.c, accci and wordaccci in floating point: range, outcomes, error at most T n^2 / 2^46 (1.5e-6 percent for 1000 pages) | absolute errors up to the deviations, relative errors for sum of squares and square root, triangle inequality for root mean squares by Cauchy-Schwarz; `Fp.sqrt` is proved correctly rounded (`sqrt_err`); clamping is 1-Lipschitz |
| C86 | work of fastukk_sync: levels, cells, tests; not more than Ukkonen | model with counters, same results; the tests on one diagonal never overlap (potential per diagonal) |
| C87 | stderr and exit status of all programs | programs rewritten with messages, related to the programs without; first fault by induction over the arguments or files |
| C88 | sync.c and editop.c on a heap with links, allocation and free | representation invariant for heap objects, refinement of the sequence model step by step |
| C89 | fastukk_sync on a heap: static lists, paths, diagonals and arrays | representation invariant for both lists and the arrays of the paths, refinement of the model on sequences |
| C90 | comparisons and depth of sort.c; second sort of wordfreq and ngram | model with counters, same results; every comparison shortens the undivided part by one; C04 for the array after the first sort |
| C91 | work and memory of wordacc | model with counters, same results; each diagonal is searched only once, since a cell is computed from the neighbours that lie beyond the cell two paths before |
| C92 | texts, words and keys on a heap | simulation: the list items in memory show the sequences; the allocated objects are the items, their strings and the keys |
| C93 | temporary files of util.c | induction over the actions of the program and over the loop; the decimal numbers are separated from the end of the name |
| C94 | range of the counters of accuracy, editop and wordacc | induction over the items with the invariant of the accuracy figures and a bound of the errors of an item; the exact descriptions of editop and wordacc |
| C95 | effect of the options -s and -w | votes with proportional weights elect the same characters; the threshold, though rounded down, decides like the exact fraction |
| C96 | number of comparisons, calls and depth of the recursion | functions with counters; amortised induction over the regions: the parts left and right of a match have fewer characters of every text |
| C97 | which files a program changes, and scripts of several programs | programs over a state with files and open streams; simulation of the programs of C87, and induction over the pages |
| C98 | signals: one message, and what is left of the files | history of all states of files and output in the model of C97; induction over the events while the message is printed; prefixes of reports |
| C99 | scripts with redirected output, also onto an input | induction over the calls in the model of C97; C62 for the sums; C87 for the report that is refused |
| C100 | the generator of the table of word break properties | lemmas about strip and split; insertion sort as a stable sort; C37 for the search; evaluation for the table that comes with the program |
| C101 | the text by which a character is shown | case analysis on the category; digits in base 16 |
| C102 | the programs that write files on a disk that is full; reports cut off | two runs of C97 that differ in the room left; the lines of a prefix of a file |
| C103 | runs over texts that differ in their characters but not in which positions match | each comparison of two characters has the same outcome, by induction over the loops; for vote the candidates are recoded along the loops |
| C104 | runs over texts that are reversed or reordered, or whose words are replaced | edit scripts, common subsequences and multiset differences carried over; the runs by C82 |

All properties are expressible; runtime aspects left out are named in section 3.  Theorems are tested against
wrong programs with `tools/mutate.py`; the log is `seeded/LOG.jsonl`.  The script first builds the scratch copy without
an edit and stops if that fails.  It takes the committed sources and leaves out the examples on whole programs there, since a false finite computation can
exhaust the memory.  One run of edits to `Model/Programs.lean` was discarded and repeated: too much had been left out, the scratch
copy did not build by itself, and every edit seemed to be noticed.
