import Verif.Props.Process

/-!
# C87, continued: the other faults
-/

namespace Ocr.Process
open Text Res Prog Spec AnyText AnyReport Ending

/-- The message for a list that is not text. -/
theorem list_broken (U : Unicode) (junk : List Nat) (marks fold : Bool) (file : List Nat) (hf : Bytes file) (hj : Bytes junk) (m : String) :
    read_text U junk [] file ⟨false, marks, 0, true, fold, false⟩ = .err m ↔ Broken file m := by
  have fwd : ∀ m, read_text U junk [] file ⟨false, marks, 0, true, fold, false⟩ = .err m → Broken file m := by
    intro m h
    unfold read_text at h
    simp only [Bool.false_eq_true, if_false, bind_ok, pure_eq] at h
    cases e : read_contents file marks (if (0 : Nat) ≠ 0 then 0 else SUSPECT_MARKER) junk with
    | err m' =>
      rw [e, bind_err] at h
      cases h
      exact readLoop_broken _ _ _ _ _ _ _ hf hj e
    | ok r => rw [e] at h; cases h
    | ub => rw [e] at h; cases h
    | fuel => rw [e] at h; cases h
  refine ⟨fwd m, fun h => ?_⟩
  rcases read_total U junk [] file ⟨false, marks, 0, true, fold, false⟩ hf hj with ⟨⟨t, o⟩, e⟩ | ⟨m', e⟩
  · obtain ⟨⟨cs, _, _, h1, _⟩, _⟩ := (read_list U junk marks fold file hf hj t o).1 e
    exact absurd ⟨cs, h1⟩ h.not_utf8
  · rw [h.unique (fwd m' e), e]

/-- Files that are read leave something to go on with. -/
theorem forTexts_reads {α γ : Type} {exec errmsg : List Nat} {fs : Fs} (hfs : ∀ name file, fs name = some file → Bytes file)
    {step : α → List Nat → Res α} {J : α → Prop} {R : List Nat → γ → Prop}
    (hR : ∀ a f o, J a → Bytes f → R f o → ∃ a', step a f = .ok a' ∧ J a') : ∀ {names : List (List Nat)} {os : List γ} (a : α), J a →
      AllRead fs R names os → ∃ a', J a' ∧ ∀ rest, forTexts exec errmsg fs step (names ++ rest) a = forTexts exec errmsg fs step rest a' := by
  intro names os a hJ h
  unfold AllRead at h
  induction h generalizing a with
  | nil => exact ⟨a, hJ, fun rest => rfl⟩
  | cons hx _ ih =>
    obtain ⟨file, e, hr⟩ := hx
    obtain ⟨a', e', hJ'⟩ := hR a _ _ hJ (hfs _ _ e) hr
    obtain ⟨a'', hJ'', e''⟩ := ih a' hJ'
    refine ⟨a'', hJ'', fun rest => ?_⟩
    rw [← e'' rest]
    unfold forTexts
    rw [List.cons_append, forFiles]
    unfold open_file
    rw [e]
    simp only [about, obind_ok, e', plain]

theorem forTexts_fault {α : Type} {exec errmsg : List Nat} {fs : Fs} (hfs : ∀ name file, fs name = some file → Bytes file)
    {step : α → List Nat → Res α} (a : α) (hF : ∀ f m, Bytes f → Broken (bodyOf f) m → step a f = .err m) {name line : List Nat}
    (h : TextFault exec errmsg fs name line) (rest : List (List Nat)) : forTexts exec errmsg fs step (name :: rest) a = .exit 1 line := by
  unfold forTexts
  rw [forFiles]
  unfold open_file
  cases h with
  | missing e => rw [e]; simp only [about]; rw [error_string_eq]; rfl
  | broken file m e h =>
    rw [e]
    simp only [about, obind_ok]
    rw [hF file m (hfs _ _ e) h, plain_broken h]
    rfl

theorem list_fault {exec errmsg : List Nat} {fs : Fs} (hfs : ∀ name file, fs name = some file → Bytes file) (U : Unicode) {junk : List Nat}
    (hj : Bytes junk) (marks fold : Bool) {name line : List Nat} (h : ListFault exec errmsg fs name line) :
    readFile exec errmsg U junk fs name ⟨false, marks, 0, true, fold, false⟩ = .exit 1 line := by
  unfold readFile open_file
  cases h with
  | missing e => rw [e]; simp only [about]; rw [error_string_eq]; rfl
  | broken file m e h =>
    rw [e]
    simp only [about, obind_ok]
    rw [(list_broken U junk marks fold file (hfs _ _ e) hj m).2 h, plain_broken h]

theorem readFile_list {exec errmsg : List Nat} {fs : Fs} (hfs : ∀ name file, fs name = some file → Bytes file) (U : Unicode) {junk : List Nat}
    (hj : Bytes junk) (marks fold : Bool) {name file : List Nat} {t : List Ch} (e : fs name = some file) (h : IsList U marks fold file t) :
    readFile exec errmsg U junk fs name ⟨false, marks, 0, true, fold, false⟩ = .ok [] (t, ⟨false, marks, 0, true, fold, false⟩) := by
  unfold readFile
  rw [about_ok (show open_file fs name = .ok file by unfold open_file; rw [e]), obind_ok,
    (read_list U junk marks fold file (hfs _ _ e) hj t _).2 ⟨h, rfl⟩, plain_ok rfl]

section
variable (errmsg : List Nat) (creatable : List Nat → Bool) (U : Unicode) (prop : Nat → Word.WB) (nfc : List Nat → Option (List Nat))
  (pct : Int → Int → List Nat) (junk : List Nat) (junk' : Nat) (signed negative : Bool) (fs : Fs) (exec prog : List Nat)
  (args names : List (List Nat)) (ss : List Args.Setting) (hb : Args.basefilename prog = .ok exec)
include hb

/-- C87 (number of files).  Each program refuses the wrong number of files before it opens any. -/
theorem c87_number (T : List (Nat × Args.Kind)) (hc : CommandLine T prog args names ss) :
    (T = [] →
      (names.length < 2 ∨ 3 < names.length →
        (accuracy errmsg creatable U pct junk fs).run (prog :: args) = .exit 1 (errorLine exec (ascii "invalid number of files")) ∧
        (groupacc errmsg creatable U pct junk fs).run (prog :: args) = .exit 1 (errorLine exec (ascii "invalid number of files"))) ∧
      (names.length ≠ 2 →
        (nonstopacc errmsg U prop nfc pct junk junk' fs).run (prog :: args) = .exit 1 (errorLine exec (ascii "invalid number of files"))) ∧
      (names.length < 1 ∨ 2 < names.length →
        (editopcost fs).run (prog :: args) = .exit 1 (errorLine exec (ascii "invalid number of files"))) ∧
      (names.length < 2 →
        (accsum errmsg U pct fs).run (prog :: args) = .exit 1 (errorLine exec (ascii "not enough input files")) ∧
        (wordaccsum errmsg pct fs).run (prog :: args) = .exit 1 (errorLine exec (ascii "not enough input files")) ∧
        (editopsum fs).run (prog :: args) = .exit 1 (errorLine exec (ascii "not enough input files")) ∧
        (accci errmsg negative fs).run (prog :: args) = .exit 1 (errorLine exec (ascii "not enough input files")) ∧
        (wordaccci errmsg negative fs).run (prog :: args) = .exit 1 (errorLine exec (ascii "not enough input files"))) ∧
      (names.length = 0 →
        (wordfreq errmsg U prop nfc junk junk' fs).run (prog :: args) = .exit 1 (errorLine exec (ascii "no text files specified")))) ∧
    (T = [(68, .flag 0)] → names.length < 2 ∨ 3 < names.length →
      (editop errmsg creatable U junk fs).run (prog :: args) = .exit 1 (errorLine exec (ascii "invalid number of files"))) ∧
    (T = [(83, .value 0)] → names.length < 2 ∨ 3 < names.length →
      (wordacc errmsg creatable U prop nfc pct junk junk' fs).run (prog :: args) = .exit 1 (errorLine exec (ascii "invalid number of files"))) ∧
    (T = [(110, .value 0)] → names.length = 0 →
      (ngram errmsg U signed junk fs).run (prog :: args) = .exit 1 (errorLine exec (ascii "no text files specified"))) ∧
    (T = [(72, .flag 0), (105, .flag 1), (115, .flag 2), (84, .flag 3)] → names.length < 2 ∨ (⟨.flag 3, []⟩ ∈ ss ∧ 2 < names.length) →
      (synctext errmsg U junk fs).run (prog :: args) = .exit 1 (errorLine exec (ascii "invalid number of text files"))) ∧
    (T = Args.voteTable → names.length < 2 ∨ 16 < names.length →
      (vote errmsg creatable U signed junk fs).run (prog :: args) = .exit 1 (errorLine exec (ascii "invalid number of voters"))) := by
  have with_table : ∀ {α : Type} (P : Program α), Args.Table T → P.option = some (T.map Args.optOf) → ∃ V, Args.Holds ss V ∧
      P.run (prog :: args) = P.body exec names V := fun P hT ho =>
    (c87_command P T ⟨hT, .inl ho⟩ exec prog args hc.prog hb hc.many hc.nul).2.2 names ss hc
  refine ⟨?_, ?_, ?_, ?_, ?_, ?_⟩
  · rintro rfl
    refine ⟨fun h => ⟨?_, ?_⟩, fun h => ?_, fun h => ?_, fun h => ⟨?_, ?_, ?_, ?_, ?_⟩, fun h => ?_⟩
    · obtain ⟨V, e⟩ := body_none exec prog args _ ss hb hc (P := accuracy errmsg creatable U pct junk fs) rfl
      rw [e]; dsimp only [accuracy]; rw [if_pos h]; rfl
    · obtain ⟨V, e⟩ := body_none exec prog args _ ss hb hc (P := groupacc errmsg creatable U pct junk fs) rfl
      rw [e]; dsimp only [groupacc]; rw [if_pos h]; rfl
    · obtain ⟨V, e⟩ := body_none exec prog args _ ss hb hc (P := nonstopacc errmsg U prop nfc pct junk junk' fs) rfl
      rw [e]; dsimp only [nonstopacc]; rw [if_pos h]; rfl
    · obtain ⟨V, e⟩ := body_none exec prog args _ ss hb hc (P := editopcost fs) rfl
      rw [e]; dsimp only [editopcost]; rw [if_pos h]; rfl
    · obtain ⟨V, e⟩ := body_none exec prog args _ ss hb hc (P := accsum errmsg U pct fs) rfl
      rw [e]; dsimp only [accsum]; rw [if_pos h]; rfl
    · obtain ⟨V, e⟩ := body_none exec prog args _ ss hb hc (P := wordaccsum errmsg pct fs) rfl
      rw [e]; dsimp only [wordaccsum]; rw [if_pos h]; rfl
    · obtain ⟨V, e⟩ := body_none exec prog args _ ss hb hc (P := editopsum fs) rfl
      rw [e]; dsimp only [editopsum]; rw [if_pos h]; rfl
    · obtain ⟨V, e⟩ := body_none exec prog args _ ss hb hc (P := accci errmsg negative fs) rfl
      rw [e]; dsimp only [accci]; rw [if_pos h]; rfl
    · obtain ⟨V, e⟩ := body_none exec prog args _ ss hb hc (P := wordaccci errmsg negative fs) rfl
      rw [e]; dsimp only [wordaccci]; rw [if_pos h]; rfl
    · obtain ⟨V, e⟩ := body_none exec prog args _ ss hb hc (P := wordfreq errmsg U prop nfc junk junk' fs) rfl
      rw [e]; dsimp only [wordfreq]; rw [if_pos h]; rfl
  · rintro rfl h
    obtain ⟨V, _, e⟩ := with_table (editop errmsg creatable U junk fs) table_editop rfl
    rw [e]; dsimp only [editop]; rw [if_pos h]; rfl
  · rintro rfl h
    obtain ⟨V, _, e⟩ := with_table (wordacc errmsg creatable U prop nfc pct junk junk' fs) table_wordacc rfl
    rw [e]; dsimp only [wordacc]; rw [if_pos h]; rfl
  · rintro rfl h
    obtain ⟨V, _, e⟩ := with_table (ngram errmsg U signed junk fs) table_ngram rfl
    rw [e]; dsimp only [ngram]; rw [if_pos h]; rfl
  · rintro rfl h
    obtain ⟨V, hV, e⟩ := with_table (synctext errmsg U junk fs) table_synctext rfl
    rw [e]; dsimp only [synctext]; rw [if_pos (h.imp_right (And.imp_left (hV.2 3).2))]; rfl
  · rintro rfl h
    obtain ⟨V, _, e⟩ := with_table (vote errmsg creatable U signed junk fs) table_vote rfl
    rw [e]; dsimp only [vote]; rw [if_pos (by unfold Vote.MIN_VOTERS Vote.MAX_VOTERS; omega)]; rfl

variable (hj : Bytes junk) (hfs : ∀ name file, fs name = some file → Bytes file)
include hj hfs

/-- C87 (words).  The first file that is not text determines the line: for `wordfreq` among files of words that can be normalized, for
`wordacc` after the warnings about the stopwords. -/
theorem c87_words (L : Lower U) (name line : List Nat) :
    (CommandLine [] prog args names ss → Halts fs (ReadsWords U prop nfc) (TextFault exec errmsg fs) names name line →
      (wordfreq errmsg U prop nfc junk junk' fs).run (prog :: args) = .exit 1 line) ∧
    (CommandLine [(83, .value 0)] prog args names ss → (names.length = 2 ∨ names.length = 3) → ∀ s, Given ss 0 s →
      (∀ l, s = some l → ListFault exec errmsg fs l line →
        (wordacc errmsg creatable U prop nfc pct junk junk' fs).run (prog :: args) = .exit 1 line) ∧
      ∀ again, ((s = none ∧ again = []) ∨ ∃ l file words, s = some l ∧ fs l = some file ∧ ReadsList U prop nfc file words ∧
        again = Stopword.repeated [] words) → ∀ n0 n1 rest, names = n0 :: n1 :: rest →
        (TextFault exec errmsg fs n0 line ∨
          (∃ file, fs n0 = some file ∧ WellFormed file ∧ Headed file ∧ line = errorLine exec (ascii "no correct file specified")) ∨
          ∃ file words, fs n0 = some file ∧ ¬ Headed file ∧ ReadsWords U prop nfc file words ∧ TextFault exec errmsg fs n1 line) →
        (wordacc errmsg creatable U prop nfc pct junk junk' fs).run (prog :: args) = .exit 1 (warnings exec again ++ line)) := by
  constructor
  · rintro hc ⟨pre, post, os, rfl, hr, hf⟩
    obtain ⟨V, e⟩ := body_none exec prog args _ ss hb hc (P := wordfreq errmsg U prop nfc junk junk' fs) rfl
    rw [e]
    dsimp only [wordfreq]
    rw [if_neg (by simp)]
    obtain ⟨⟨opt, T⟩, ⟨b, hJ⟩, e⟩ := forTexts_reads (exec := exec) (errmsg := errmsg) hfs (step := wordfreqFile U prop nfc junk junk')
      (J := fun a => ∃ b, a.1 = { pageText true with found_header := b }) (R := ReadsWords U prop nfc) (by
        rintro ⟨opt, T⟩ f o ⟨b, rfl⟩ hf ⟨t, ht, hw⟩
        obtain ⟨T', e⟩ := addWords_some o T
        refine ⟨({ pageText true with found_header := decide (Headed f) }, T'), ?_, _, rfl⟩
        unfold wordfreqFile
        rw [((read_gives U hj true b hf).value (t, _)).2 ⟨ht, rfl⟩, bind_ok]
        simp only
        rw [((find_gives U prop nfc junk' (textOf_lower L hf ht)).value _).2 hw, bind_ok, e]
        rfl) (Wordfreq.textopt, []) ⟨false, rfl⟩ hr
    cases hJ
    rw [e, forTexts_fault hfs _ (by
      intro f m hf' hm
      unfold wordfreqFile
      rw [(read_broken U junk true b f hf' hj m).2 hm]
      rfl) hf]
    rfl
  · intro hc hn s hs
    obtain ⟨V, hV, run⟩ := (c87_command (wordacc errmsg creatable U prop nfc pct junk junk' fs) _ ⟨table_wordacc, .inl rfl⟩ exec prog args hc.prog hb
      hc.many hc.nul).2.2 _ ss hc
    rw [run]
    dsimp only [wordacc]
    rw [if_neg (by omega), ← (given_iff hV 0 s).1 hs]
    constructor
    · rintro l rfl hl
      unfold initStopwords
      simp only
      cases hl with
      | missing e =>
        unfold open_file
        rw [e]
        simp only [about]
        rw [error_string_eq]
        rfl
      | broken file m e h =>
        rw [about_ok (show open_file fs l = .ok file by unfold open_file; rw [e]), obind_ok, opure, obind_ok]
        unfold Stopword.init_stopwords
        rw [if_neg (by simp [Stopword.State.start])]
        simp only
        rw [show Stopword.textopt = ⟨false, false, 0, true, true, false⟩ from rfl, (list_broken U junk false true file (hfs _ _ e) hj m).2 h, bind_err,
          bind_err, plain_broken h]
        rfl
    · rintro again ha n0 n1 rest rfl hf
      obtain ⟨S, init⟩ := stopwords_init (exec := exec) (errmsg := errmsg) U L prop nfc hj junk' hfs ha
      rw [init, bind_def, Out.bind]
      have : readWords exec errmsg U prop nfc junk junk' fs (n0 :: n1 :: rest) = .exit 1 line := by
        unfold readWords
        rw [show rd (n0 :: n1 :: rest) 0 = .ok n0 from rfl, show rd (n0 :: n1 :: rest) 1 = .ok n1 from rfl, silent_ok, obind_ok,
          show wordaccTextopt = { pageText true with found_header := false } from rfl]
        rcases hf with h | ⟨file, e, hw, hh, rfl⟩ | ⟨file, words, e, hh, ⟨t, ht, hw⟩, h⟩
        · rw [readFile_fault hfs U hj true false h]; rfl
        · obtain ⟨t, _, e'⟩ := readFile_reads (exec := exec) (errmsg := errmsg) hfs U hj true false e hw
          rw [e', obind_ok]
          simp only
          rw [if_pos (by simpa using hh)]
          rfl
        · obtain ⟨t', ht', e'⟩ := readFile_reads (exec := exec) (errmsg := errmsg) hfs U hj true false e ((textOf_iff U true file).1 ⟨t, ht⟩)
          rw [textOf_unique ht' ht] at e'
          rw [e', obind_ok]
          simp only
          rw [if_neg (by simpa using hh), plain_ok (((find_gives U prop nfc junk' (textOf_lower L (hfs _ _ e) ht)).value _).2 hw), obind_ok,
            Ending.strings_some, silent_ok, obind_ok, silent_ok, obind_ok, readFile_fault hfs U hj true _ h]
          rfl
      rw [this]
      rfl

/-- C87 (lists).  `groupacc` and `nonstopacc` read a list and then a report. -/
theorem c87_lists (hc : CommandLine [] prog args names ss) (n0 n1 : List Nat) (rest : List (List Nat)) (hn : names = n0 :: n1 :: rest) :
    (rest.length ≤ 1 →
      (∀ line, ListFault exec errmsg fs n0 line → (groupacc errmsg creatable U pct junk fs).run (prog :: args) = .exit 1 line) ∧
      (∀ file t msg, fs n0 = some file → IsList U true false file t → AccuracyFault fs n1 msg →
        (groupacc errmsg creatable U pct junk fs).run (prog :: args) = .exit 1 (namedLine exec (ascii msg) n1))) ∧
    (rest = [] → Lower U →
      (∀ line, ListFault exec errmsg fs n0 line → (nonstopacc errmsg U prop nfc pct junk junk' fs).run (prog :: args) = .exit 1 line) ∧
      (∀ file t words msg, fs n0 = some file → IsList U false true file t → Strings U prop nfc t words → WordaccFault fs n1 msg →
        (nonstopacc errmsg U prop nfc pct junk junk' fs).run (prog :: args) = .exit 1 (namedLine exec (ascii msg) n1))) := by
  subst hn
  constructor
  · intro h1
    obtain ⟨V, e⟩ := body_none exec prog args _ ss hb hc (P := groupacc errmsg creatable U pct junk fs) rfl
    rw [e]
    dsimp only [groupacc]
    rw [if_neg (by simp; omega), show rd (n0 :: n1 :: rest) 0 = .ok n0 from rfl, silent_ok, obind_ok,
      show Groupacc.textopt = ⟨false, true, 0, true, false, false⟩ from rfl]
    refine ⟨fun line h => ?_, fun file t msg e h hf => ?_⟩
    · rw [list_fault hfs U hj true false h]; rfl
    · rw [readFile_list hfs U hj true false e h, obind_ok, show rd (n0 :: n1 :: rest) 1 = .ok n1 from rfl]
      simp only
      rw [silent_ok, obind_ok]
      rcases accuracy_fault hfs Ocr.Acc.Accdata.zero hf with ⟨e, rfl⟩ | ⟨file, e, e'⟩
      · unfold open_file
        rw [e]
        simp only [about]
        rw [error_string_eq]; rfl
      · rw [about_ok (show open_file fs n1 = .ok file by unfold open_file; rw [e]), obind_ok, e']
        simp only [about]
        rw [error_string_eq]; rfl
  · rintro rfl L
    obtain ⟨V, e⟩ := body_none exec prog args _ ss hb hc (P := nonstopacc errmsg U prop nfc pct junk junk' fs) rfl
    rw [e]
    dsimp only [nonstopacc]
    rw [if_neg (by simp), show rd [n0, n1] 0 = .ok n0 from rfl, silent_ok, obind_ok,
      show Nonstopacc.textopt = ⟨false, false, 0, true, true, false⟩ from rfl]
    refine ⟨fun line h => ?_, fun file t words msg e h hw hf => ?_⟩
    · rw [list_fault hfs U hj false true h]; rfl
    · rw [readFile_list hfs U hj false true e h, obind_ok, show rd [n0, n1] 1 = .ok n1 from rfl]
      simp only
      rw [plain_ok (((find_gives U prop nfc junk' (list_value L h)).value _).2 hw), obind_ok, silent_ok, obind_ok]
      rcases wordacc_fault Wac.Wacdata.zero hf with ⟨e, rfl⟩ | ⟨file, e, e'⟩
      · unfold open_file
        rw [e]
        simp only [about]
        rw [error_string_eq]; rfl
      · rw [about_ok (show open_file fs n1 = .ok file by unfold open_file; rw [e]), obind_ok, e']
        simp only [about]
        rw [error_string_eq]; rfl

/-- C87 (values of options).  A value of `ngram -n` that is not 1, 2 or 3 is named, whatever the files are.  The fractions of `vote` are
looked at after the files have been read: the weight before the threshold. -/
theorem c87_values (hbytes : ∀ a ∈ args, ∀ b ∈ a, 0 < b ∧ b < 256) :
    (CommandLine [(110, .value 0)] prog args names ss → names ≠ [] → ∀ s, Given ss 0 (some s) → (¬ ∃ n, Ngram.Selected (some s) n) →
      (ngram errmsg U signed junk fs).run (prog :: args) = .exit 1 (namedLine exec (ascii "invalid value") s)) ∧
    (CommandLine Args.voteTable prog args names ss → 2 ≤ names.length → names.length ≤ 16 → (∃ os, AllRead fs ReadsText names os) →
      (∀ w, Given ss 2 (some w) → (¬ ∃ m n, Vote.Fraction w m n) →
        (vote errmsg creatable U signed junk fs).run (prog :: args) = .exit 1 (namedLine exec (ascii "invalid weight") w)) ∧
      (∀ w s, Given ss 2 w → (∀ x, w = some x → ∃ m n, Vote.Fraction x m n) → Given ss 1 (some s) → (¬ ∃ m n, Vote.Fraction s m n) →
        (vote errmsg creatable U signed junk fs).run (prog :: args) = .exit 1 (namedLine exec (ascii "invalid threshold") s))) := by
  constructor
  · intro hc hne s hs hn
    obtain ⟨V, hV, e⟩ := (c87_command (ngram errmsg U signed junk fs) _ ⟨table_ngram, .inl rfl⟩ exec prog args hc.prog hb
      hc.many hc.nul).2.2 _ ss hc
    have hv := (given_iff hV 0 (some s)).1 hs
    rw [e]
    dsimp only [ngram]
    rw [if_neg (fun h => hne (List.length_eq_zero_iff.1 h)), ← hv, (Ngram.c44_option signed (some s) (by
      intro s' e
      cases e
      exact parse_bytes hc.parse hbytes _ ((hs s).1 rfl))).2 hn]
    simp only [about, Option.getD_some]
    rw [error_string_eq]
    rfl
  · rintro hc h2 h9 ⟨os, hr⟩
    obtain ⟨V, hV, e⟩ := (c87_command (vote errmsg creatable U signed junk fs) Args.voteTable ⟨table_vote, .inl rfl⟩ exec prog args hc.prog hb
      hc.many hc.nul).2.2 _ ss hc
    rw [e]
    dsimp only [vote]
    obtain ⟨a, _, ha⟩ := forTexts_reads (exec := exec) (errmsg := errmsg) hfs (step := voteFile U junk)
      (J := fun a => ∃ b, a.1 = { pageText false with found_header := b }) (R := ReadsText) (by
        rintro ⟨opt, ts⟩ f o ⟨b, rfl⟩ hf hw
        obtain ⟨t, ht⟩ := (AnyText.textOf_iff U false f).2 hw
        refine ⟨({ pageText false with found_header := decide (Headed f) }, ts ++ [t]), ?_, _, rfl⟩
        unfold voteFile
        rw [(AnyText.read_any U junk false b f hf hj t _).2 ⟨ht, rfl⟩]
        rfl) (Vote.textopt, []) ⟨false, rfl⟩ hr
    have ha := ha []
    rw [List.append_nil] at ha
    rw [if_neg (by unfold Vote.MIN_VOTERS Vote.MAX_VOTERS; omega), ha, forTexts, forFiles, obind_ok]
    unfold validate_args
    refine ⟨fun w hw hn => ?_, fun w s hw hn hs hm => ?_⟩
    · rw [← (given_iff hV 2 (some w)).1 hw]
      unfold Vote.weightOption
      simp only
      rcases Vote.c42_fraction signed w (parse_bytes hc.parse hbytes _ ((hw w).1 rfl)) with ⟨m, n, h, _⟩ | ⟨_, e⟩
      · exact absurd ⟨m, n, h⟩ hn
      rw [e, bind_ok]
      simp only [about, Option.getD_some]
      rw [error_string_eq]
      rfl
    · rw [← (given_iff hV 2 w).1 hw, ← (given_iff hV 1 (some s)).1 hs]
      have : ∃ r, Vote.weightOption signed w = .ok r := by
        cases w with
        | none => exact ⟨_, rfl⟩
        | some w =>
          rcases Vote.c42_fraction signed w (parse_bytes hc.parse hbytes _ ((hw w).1 rfl)) with ⟨m, n, h, e⟩ | ⟨h, _⟩
          · unfold Vote.weightOption
            simp only
            rw [e]
            exact ⟨_, rfl⟩
          · exact absurd (hn w rfl) h
      obtain ⟨r, e⟩ := this
      rw [e, about_ok rfl, obind_ok]
      unfold Vote.thresholdOption
      simp only
      rcases Vote.c42_fraction signed s (parse_bytes hc.parse hbytes _ ((hs s).1 rfl)) with ⟨m, n, h, _⟩ | ⟨_, e⟩
      · exact absurd ⟨m, n, h⟩ hm
      rw [e, bind_ok]
      simp only [about, Option.getD_some]
      rw [error_string_eq]
      rfl

end

/-! ## Non-vacuity -/

/-- One file is too few, four are too many, for some programs. -/
example (fs : Fs) : (accuracy [] (fun _ => true) sampleUnicode Acc.samplePct [] fs).run [ascii "accuracy", ascii "sum"] =
      .exit 1 (ascii "accuracy: invalid number of files\n") ∧
    (editopsum fs).run [ascii "editopsum", ascii "sum"] = .exit 1 (ascii "editopsum: not enough input files\n") ∧
    (editopcost fs).run [ascii "editopcost", ascii "x", ascii "y", ascii "z"] = .exit 1 (ascii "editopcost: invalid number of files\n") := by
  refine ⟨?_, ?_, ?_⟩
  · rw [(((c87_number [] (fun _ => true) sampleUnicode Word.wbProp noB Acc.samplePct [] 0 true true fs (ascii "accuracy") _ _ _ _ (by decide +kernel) []
      (one_line "accuracy" (by decide +kernel))).1 rfl).1 (by simp)).1]
    have : errorLine (ascii "accuracy") (ascii "invalid number of files") = ascii "accuracy: invalid number of files\n" := by decide +kernel
    exact congrArg _ this
  · rw [(((c87_number [] (fun _ => true) sampleUnicode Word.wbProp noB Acc.samplePct [] 0 true true fs (ascii "editopsum") _ _ _ _ (by decide +kernel) []
      (one_line "editopsum" (by decide +kernel))).1 rfl).2.2.2.1 (by simp)).2.2.1]
    have : errorLine (ascii "editopsum") (ascii "not enough input files") = ascii "editopsum: not enough input files\n" := by decide +kernel
    exact congrArg _ this
  · rw [((c87_number [] (fun _ => true) sampleUnicode Word.wbProp noB Acc.samplePct [] 0 true true fs (ascii "editopcost") _ _ _ _ (by decide +kernel) []
      (three_line "editopcost" (by decide +kernel))).1 rfl).2.2.1 (by simp)]
    have : errorLine (ascii "editopcost") (ascii "invalid number of files") = ascii "editopcost: invalid number of files\n" := by decide +kernel
    exact congrArg _ this

theorem value_line (T : List (Nat × Args.Kind)) (k : Nat) (prog o v : String) (c : Nat) (ho : ascii o = [45, c]) (hc : c = 110 ∨ c = 115 ∨ c = 119 ∨ c = 83) (hm : (c, Args.Kind.value k) ∈ T)
    (hp : (ascii prog).length ≤ 32768) (hv : 0 ∉ ascii v) :
    CommandLine T (ascii prog) [ascii o, ascii v, ascii "x", ascii "y"] [ascii "x", ascii "y"] [⟨.value k, ascii v⟩] := by
  rw [ho]
  exact ⟨hp, by simp, by
    intro x hx
    simp only [List.mem_cons, List.not_mem_nil, or_false] at hx
    rcases hx with rfl | rfl | rfl | rfl
    · simp; omega
    · exact hv
    · decide +kernel
    · decide +kernel, by simp,
    .separate (by unfold Args.Help; rcases hc with rfl | rfl | rfl | rfl <;> decide) hm (.operand (by rintro ⟨c, r, e⟩; simp [ascii] at e)
        (.operand (by rintro ⟨c, r, e⟩; simp [ascii] at e) .nil)), by simp [Args.Once]⟩

/-- An invalid length, weight and threshold. -/
example : (ngram [] sampleUnicode true [] (threeFiles leadText shortText [])).run [ascii "ngram", ascii "-n", ascii "4", ascii "x", ascii "y"] =
      .exit 1 (ascii "ngram: invalid value \"4\"\n") ∧
    (vote [] (fun _ => true) sampleUnicode true [] (threeFiles textX textX [])).run [ascii "vote", ascii "-w", ascii "3/2", ascii "x", ascii "y"] =
      .exit 1 (ascii "vote: invalid weight \"3/2\"\n") ∧
    (vote [] (fun _ => true) sampleUnicode true [] (threeFiles textX textX [])).run [ascii "vote", ascii "-s", ascii "half", ascii "x", ascii "y"] =
      .exit 1 (ascii "vote: invalid threshold \"half\"\n") := by
  have bx : Bytes textX := bytes_ascii (by decide +kernel)
  have bl : Bytes leadText := bytes_ascii (by decide +kernel)
  have bs : Bytes shortText := bytes_ascii (by decide +kernel)
  have X : AllRead (threeFiles textX textX []) ReadsText [ascii "x", ascii "y"] [(), ()] :=
    .cons ⟨_, rfl, (AnyText.textOf_iff sampleUnicode false _).1 ⟨_, of_x⟩⟩ (.cons ⟨_, file_y _ _ _, (AnyText.textOf_iff sampleUnicode false _).1 ⟨_, of_x⟩⟩ .nil)
  have frac : ∀ s : List Nat, s.length ≠ 3 ∨ s[2]?.getD 0 < s[0]?.getD 0 → ¬ ∃ m n, Vote.Fraction s m n := by
    rintro s h ⟨m, n, h1, h2, h3, rfl⟩
    simp at h
    omega
  refine ⟨?_, ?_, ?_⟩
  · rw [(c87_values [] (fun _ => true) sampleUnicode [] true (threeFiles leadText shortText []) (ascii "ngram") _ _ _ _ (by decide +kernel) (by simp [Bytes])
      (three_bytes bl bs (by simp [Bytes])) (by decide +kernel)).1 (value_line _ 0 "ngram" "-n" "4" 110 (by decide +kernel) (by simp) (by simp) (by decide +kernel) (by decide +kernel))
      (by simp) (ascii "4") (by intro x; simp [eq_comm]) (by
        rintro ⟨n, ⟨h, _⟩ | ⟨h1, h2, h3⟩⟩
        · cases h
        · have : (ascii "4")[0]? = [48 + n][0]? := by rw [Option.some.inj h3]
          have e : (52 : Nat) = 48 + n := Option.some.inj this
          omega)]
    decide +kernel
  · rw [((c87_values [] (fun _ => true) sampleUnicode [] true (threeFiles textX textX []) (ascii "vote") _ _ _ _ (by decide +kernel) (by simp [Bytes])
      (three_bytes bx bx (by simp [Bytes])) (by decide +kernel)).2 (value_line _ 2 "vote" "-w" "3/2" 119 (by decide +kernel) (by simp) (by decide +kernel) (by decide +kernel) (by decide +kernel))
      (by simp) (by simp) ⟨_, X⟩).1 (ascii "3/2") (by intro x; simp [eq_comm]) (frac _ (by decide +kernel))]
    decide +kernel
  · rw [((c87_values [] (fun _ => true) sampleUnicode [] true (threeFiles textX textX []) (ascii "vote") _ _ _ _ (by decide +kernel) (by simp [Bytes])
      (three_bytes bx bx (by simp [Bytes])) (by decide +kernel)).2 (value_line _ 1 "vote" "-s" "half" 115 (by decide +kernel) (by simp) (by decide +kernel) (by decide +kernel) (by decide +kernel))
      (by simp) (by simp) ⟨_, X⟩).2 none (ascii "half") (by intro x; simp) (by simp) (by intro x; simp [eq_comm]) (frac _ (by decide +kernel))]
    decide +kernel

/-- Words: the second text; the list of stopwords; the first text, after a warning. -/
example : (wordfreq [] sampleUnicode Word.wbProp noB [] 0 (threeFiles textX leadText [])).run [ascii "wordfreq", ascii "x", ascii "y"] =
      .exit 1 (ascii "wordfreq: invalid UTF-8 character\n") ∧
    (wordacc [] (fun _ => true) sampleUnicode Word.wbProp noB Acc.samplePct [] 0 (threeFiles textX textX [])).run
      [ascii "wordacc", ascii "-S", ascii "q", ascii "x", ascii "y"] = .exit 1 (ascii "wordacc: unable to open file \"q\"\n") ∧
    (wordacc [] (fun _ => true) sampleUnicode Word.wbProp noB Acc.samplePct [] 0 (threeFiles textX leadText (ascii "the The"))).run
      [ascii "wordacc", ascii "-S", ascii "z", ascii "x", ascii "y"] =
        .exit 1 (ascii "wordacc: duplicate stopword \"the\"\nwordacc: invalid UTF-8 character\n") := by
  have bx : Bytes textX := bytes_ascii (by decide +kernel)
  have bl : Bytes leadText := bytes_ascii (by decide +kernel)
  have hx : ¬ Headed textX := by unfold Headed; decide +kernel
  have l : ReadsList sampleUnicode Word.wbProp noB (ascii "the The") [ascii "the", ascii "the"] :=
    ⟨Prog.plain "the the", list_of (by decide +kernel) (by decide +kernel), strings_of (by decide +kernel) (by decide +kernel)⟩
  refine ⟨?_, ?_, ?_⟩
  · rw [(c87_words [] (fun _ => true) _ _ _ Acc.samplePct [] 0 (threeFiles textX leadText []) (ascii "wordfreq") _ _ _ _ (by decide +kernel) (by simp [Bytes])
      (three_bytes bx bl (by simp [Bytes])) lower_sample _ _).1 (two_line "wordfreq" (by decide +kernel))
      ⟨[ascii "x"], [], _, rfl, .cons ⟨_, rfl, words_x'⟩ .nil, .broken _ _ (file_y _ _ _) broken_lead⟩]
    decide +kernel
  · rw [((c87_words [] (fun _ => true) _ _ _ Acc.samplePct [] 0 (threeFiles textX textX []) (ascii "wordacc") _ _ _ _ (by decide +kernel) (by simp [Bytes])
      (three_bytes bx bx (by simp [Bytes])) lower_sample [] _).2 (value_line _ 0 "wordacc" "-S" "q" 83 (by decide +kernel) (by simp) (by simp) (by decide +kernel) (by decide +kernel))
      (by simp) (some (ascii "q")) (by intro x; simp [eq_comm])).1 _ rfl (.missing (by decide +kernel))]
    decide +kernel
  · rw [((c87_words [] (fun _ => true) _ _ _ Acc.samplePct [] 0 (threeFiles textX leadText (ascii "the The")) (ascii "wordacc") _ _ _ _ (by decide +kernel)
      (by simp [Bytes]) (three_bytes bx bl (bytes_ascii (by decide +kernel))) lower_sample [] _).2
      (value_line _ 0 "wordacc" "-S" "z" 83 (by decide +kernel) (by simp) (by simp) (by decide +kernel) (by decide +kernel))
      (by simp) (some (ascii "z")) (by intro x; simp [eq_comm])).2 _ (.inr ⟨_, _, _, rfl, file_z _ _ _, l, rfl⟩) _ _ [] rfl
      (.inr (.inr ⟨_, _, rfl, hx, words_x', .broken _ _ (file_y _ _ _) broken_lead⟩))]
    decide +kernel

/-- A list that is not text, and a list with a report that is none. -/
example : (groupacc [] (fun _ => true) sampleUnicode Acc.samplePct [] (threeFiles leadText [] [])).run [ascii "groupacc", ascii "x", ascii "y"] =
      .exit 1 (ascii "groupacc: invalid UTF-8 character\n") ∧
    (groupacc [] (fun _ => true) sampleUnicode Acc.samplePct [] (threeFiles textY [] [])).run [ascii "groupacc", ascii "x", ascii "y"] =
      .exit 1 (ascii "groupacc: invalid format in \"y\"\n") ∧
    (nonstopacc [] sampleUnicode Word.wbProp noB Acc.samplePct [] 0 (threeFiles (ascii "a b") [] [])).run [ascii "nonstopacc", ascii "x", ascii "q"] =
      .exit 1 (ascii "nonstopacc: unable to open file \"q\"\n") := by
  have bl : Bytes leadText := bytes_ascii (by decide +kernel)
  have by' : Bytes textY := bytes_ascii (by decide +kernel)
  have ly : IsList sampleUnicode true false textY (Prog.plain "A " ++ [⟨true, 98⟩]) := list_of (by decide +kernel) (by decide +kernel)
  have lab : IsList sampleUnicode false true (ascii "a b") (Prog.plain "a b") := list_of (by decide +kernel) (by decide +kernel)
  have L := pair_line [] "nonstopacc" "x" "q" (by decide +kernel) (by decide +kernel) (by decide +kernel)
  have hb : Broken leadText "invalid UTF-8 character" := (list_broken sampleUnicode [] true false _ bl (by simp [Bytes]) _).1 (by decide +kernel)
  refine ⟨?_, ?_, ?_⟩
  · rw [((c87_lists [] (fun _ => true) sampleUnicode Word.wbProp noB Acc.samplePct [] 0 (threeFiles leadText [] []) (ascii "groupacc") _ _ _ _
      (by decide +kernel) (by simp [Bytes]) (three_bytes bl (by simp [Bytes]) (by simp [Bytes])) (two_line "groupacc" (by decide +kernel)) _ _ [] rfl).1 (by simp)).1
      _ (.broken _ _ rfl hb)]
    decide +kernel
  · rw [((c87_lists [] (fun _ => true) sampleUnicode Word.wbProp noB Acc.samplePct [] 0 (threeFiles textY [] []) (ascii "groupacc") _ _ _ _
      (by decide +kernel) (by simp [Bytes]) (three_bytes by' (by simp [Bytes]) (by simp [Bytes])) (two_line "groupacc" (by decide +kernel)) _ _ [] rfl).1 (by simp)).2
      _ _ _ rfl ly (.format _ (file_y _ _ _) (by decide +kernel))]
    decide +kernel
  · rw [((c87_lists [] (fun _ => true) sampleUnicode Word.wbProp noB Acc.samplePct [] 0 (threeFiles (ascii "a b") [] []) (ascii "nonstopacc") _ _ _ _
      (by decide +kernel) (by simp [Bytes]) (three_bytes (bytes_ascii (by decide +kernel)) (by simp [Bytes]) (by simp [Bytes])) L _ _ [] rfl).2 rfl lower_sample).2
      _ _ _ _ rfl lab (strings_of (ws := [some (ascii "a"), none]) (by decide +kernel) (by decide +kernel)) (.missing (by decide +kernel))]
    decide +kernel

end Ocr.Process
