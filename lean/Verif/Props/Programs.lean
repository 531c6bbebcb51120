import Verif.Proof.Programs
import Verif.Props.Wordacc
import Verif.Props.Stopword
import Verif.Props.Edorpt
import Verif.Props.Vote

/-!
# C58 to C61: the programs as a whole, from the command line to the file written
-/

namespace Ocr.Prog
open Text Res Spec

/-! ## C58: accuracy -/

/-- C58.  `accuracy correct generated [report]`: if both files can be read, the report is written to the file named, or to the standard
output.  From the report the figures can be read; they are consistent with the two texts and those of an optimal alignment; if the correct
text has no reject character, the number of errors is the edit distance. -/
theorem c58_accuracy (U : Unicode) (F : UnicodeFacts U) (pct : Int → Int → List Nat) (hp : Acc.PctFormat pct) (junk : List Nat) (fs : Fs)
    (prog : List Nat) (args : List (List Nat)) (f0 f1 : List Nat) (rest : List (List Nat)) (ss : List Args.Setting)
    (hc : CommandLine [] prog args (f0 :: f1 :: rest) ss) (hr : rest.length ≤ 1)
    (file0 file1 : List Nat) (h0 : fs f0 = some file0) (h1 : fs f1 = some file1) (t0 t1 : List Ch)
    (hh : ¬ Headed file0) (p0 : IsPage U false file0 t0) (p1 : HoldsText U false file1 t1)
    (hlast : ∀ c ∈ t0, c.value ≠ 0x10FFFF) (hl : t0.length + t1.length < 10^8) :
    ∃ bytes E, accuracyMain U pct junk fs (prog :: args) = .ok ⟨rest.head?, bytes⟩ ∧ Acc.read_accrpt Acc.Accdata.zero bytes = .ok E ∧
      Acc.Consistent t0 t1 E ∧
      ((∀ c ∈ t0, c.value ≠ REJECT_CHARACTER) → ∃ d : Nat, E.errors = d ∧ IsEditDistance (t0.map Ch.value) (t1.map Ch.value) d) ∧
      ∃ items, Sync.IsAlignment [t0.map Ch.value, t1.map Ch.value] items ∧
        (∃ d : Nat, Sync.cost items = d ∧ IsEditDistance (t0.map Ch.value) (t1.map Ch.value) d) ∧ Acc.Reported t0 t1 items E := by
  obtain ⟨b, V, e⟩ := init_none hc
  have hp0 : HoldsText U false file0 t0 := .inl ⟨hh, p0⟩
  have i0 : Acc.InTables t0 := fun c hm => by have := page_values hp0 c hm; have := hlast c hm; omega
  obtain ⟨D, e1, hC, hR, hE⟩ := Acc.accuracy_data F i0 (page_values p1) hl
  obtain ⟨bytes, E, e2, e3, e4⟩ := Acc.c28_round_trip U F pct hp D hR
  refine ⟨bytes, E, ?_, e3, Acc.same_consistent e4 hC, ?_, ?_⟩
  · unfold accuracyMain
    rw [e, bind_ok]
    simp only
    rw [if_neg (by simp only [List.length_cons]; omega), readPair_eq h0 h1 hh hp0 p1, bind_ok]
    simp only
    rw [e1, bind_ok, e2, bind_ok]
    cases rest <;> rfl
  · intro hn
    obtain ⟨d, h2, h3⟩ := hE hn
    exact ⟨d, by rw [e4.1]; exact h2, h3⟩
  · obtain ⟨D', items, e1', hA, hd, hD⟩ := Acc.c21_exact U t0 t1 i0 (page_values p1)
    have : D' = D := by rw [e1] at e1'; exact (Res.ok.inj e1').symm
    subst this
    exact ⟨items, hA, hd, Acc.same_reported e4 hD⟩

/-- C58 (refusals).  Any other number of files, a missing file, and a vendor header in the correct file are refused. -/
theorem c58_refuses (U : Unicode) (pct : Int → Int → List Nat) (junk : List Nat) (fs : Fs)
    (prog : List Nat) (args ops : List (List Nat)) (ss : List Args.Setting) (hc : CommandLine [] prog args ops ss) :
    ((ops.length < 2 ∨ 3 < ops.length) → accuracyMain U pct junk fs (prog :: args) = .err "invalid number of files") ∧
    (∀ f0 f1 rest, ops = f0 :: f1 :: rest → rest.length ≤ 1 →
      (fs f0 = none → accuracyMain U pct junk fs (prog :: args) = .err "unable to open file") ∧
      (∀ file0 t0, fs f0 = some file0 → HoldsText U false file0 t0 → Headed file0 →
        accuracyMain U pct junk fs (prog :: args) = .err "no correct file specified") ∧
      (∀ file0 t0, fs f0 = some file0 → HoldsText U false file0 t0 → ¬ Headed file0 → fs f1 = none →
        accuracyMain U pct junk fs (prog :: args) = .err "unable to open file")) := by
  obtain ⟨b, V, e⟩ := init_none hc
  constructor
  · intro h
    unfold accuracyMain
    rw [e, bind_ok]
    simp only
    rw [if_pos (by omega)]
  · rintro f0 f1 rest rfl hr
    have key : accuracyMain U pct junk fs (prog :: args) = (do
        let (text0, text1) ← readPair U junk fs (f0 :: f1 :: rest)
        let D ← Acc.accuracy U text0 text1
        let bytes ← Acc.write_accrpt U pct D
        return ⟨(f0 :: f1 :: rest)[2]?, bytes⟩) := by
      unfold accuracyMain
      rw [e, bind_ok]
      simp only
      rw [if_neg (by simp only [List.length_cons]; omega)]
    refine ⟨?_, ?_, ?_⟩
    · intro hn
      rw [key]
      unfold readPair readFile open_file
      rw [show rd (f0 :: f1 :: rest) 0 = .ok f0 from rfl, bind_ok, hn]
      rfl
    · intro file0 t0 hf ht hh
      obtain ⟨found, e0, i0⟩ := read_holds (junk := junk) ht
      have : found = true := i0.2 hh
      subst this
      rw [key]
      unfold readPair
      rw [show rd (f0 :: f1 :: rest) 0 = .ok f0 from rfl, bind_ok, readFile_eq hf,
        show read_text U junk [] file0 textopt = _ from e0, bind_ok]
      rfl
    · intro file0 t0 hf ht hh hn
      obtain ⟨found, e0, i0⟩ := read_holds (junk := junk) ht
      have : found = false := by
        cases found with
        | false => rfl
        | true => exact absurd (i0.1 rfl) hh
      subst this
      rw [key]
      unfold readPair
      rw [show rd (f0 :: f1 :: rest) 0 = .ok f0 from rfl, bind_ok, readFile_eq hf,
        show read_text U junk [] file0 textopt = _ from e0, bind_ok]
      simp only [Bool.false_eq_true, if_false]
      rw [show rd (f0 :: f1 :: rest) 1 = .ok f1 from rfl, bind_ok]
      unfold readFile open_file
      rw [hn]
      rfl

/-- C58 (all runs).  Whatever the arguments and the files, a run ends with a report or with a message, provided that no file has
50,000,000 bytes or more and the correct file does not contain the character U+10FFFF (see C21). -/
theorem c58_total (U : Unicode) (F : UnicodeFacts U) (pct : Int → Int → List Nat) (hp : Acc.PctFormat pct) (junk : List Nat) (hj : Bytes junk)
    (fs : Fs) (hfs : ∀ name file, fs name = some file → Bytes file ∧ file.length < 5 * 10^7 ∧ ¬ [0xF4, 0x8F, 0xBF, 0xBF] <:+: file)
    (prog : List Nat) (args : List (List Nat)) (hprog : prog.length ≤ 32768) (hargs : args.length < 32768) (hnul : ∀ a ∈ args, 0 ∉ a) :
    (∃ out, accuracyMain U pct junk fs (prog :: args) = .ok out) ∨ ∃ msg, accuracyMain U pct junk fs (prog :: args) = .err msg := by
  unfold accuracyMain
  rw [Args.c52_null]
  rcases Args.c52_total [] ⟨by decide, by decide, by decide⟩ true prog args hprog hargs hnul with ⟨⟨b, ops, V⟩, e⟩ | ⟨msg, e⟩
  · rw [show Args.initialize_ (some []) true (prog :: args) start = _ from e, bind_ok]
    simp only
    split
    · exact .inr ⟨_, rfl⟩
    · rename_i hn
      obtain ⟨f0, f1, rest, rfl⟩ : ∃ f0 f1 rest, ops = f0 :: f1 :: rest := by
        rcases ops with _ | ⟨f0, _ | ⟨f1, rest⟩⟩
        · simp at hn
        · simp at hn
        · exact ⟨_, _, _, rfl⟩
      rcases readPair_total (U := U) (f0 := f0) (f1 := f1) (rest := rest) hj (fun n f h => (hfs n f h).1) with
        ⟨file0, file1, t0, t1, b0, b1, o0, o1, h0, h1, e0, e1, e2⟩ | ⟨msg, e2⟩
      · obtain ⟨l0, v0, _⟩ := read_bounds (hfs _ _ h0).1 hj e0
        obtain ⟨l1, v1, _⟩ := read_bounds (hfs _ _ h1).1 hj e1
        have b0 := (hfs _ _ h0).2
        have b1 := (hfs _ _ h1).2.1
        have i0 : Acc.InTables t0 := by
          intro c hm
          have h1 := (v0 c hm).1
          have h2 : c.value ≠ 0x10FFFF := by
            intro e
            refine b0.2 ?_
            have := (v0 c hm).2 (by omega)
            rw [e] at this
            exact this
          omega
        obtain ⟨D, e3, _, hR, _⟩ := Acc.accuracy_data F i0 (fun c hm => (v1 c hm).1) (by omega)
        obtain ⟨bytes, E, e4, _⟩ := Acc.c28_round_trip U F pct hp D hR
        rw [e2, bind_ok]
        simp only
        rw [e3, bind_ok, e4]
        exact .inl ⟨_, rfl⟩
      · rw [e2]; exact .inr ⟨msg, rfl⟩
  · rw [show Args.initialize_ (some []) true (prog :: args) start = _ from e]
    exact .inr ⟨msg, rfl⟩

/-! ## C59: wordacc -/

theorem table_wordacc : Args.Table [(83, .value 0)] := ⟨by decide, by decide, by decide⟩

/-- C59.  `wordacc [-S stopwords] correct generated [report]`: if both files can be read and no word is too long, the report is written
to the file named, or to the standard output.  The figures read from the report are exactly those of the words of the correct text, each
flagged as recognized or not, where the words flagged are a longest common subsequence of the words of the two texts. -/
theorem c59_wordacc (U : Unicode) (prop : Nat → Word.WB) (nfc : List Nat → Option (List Nat)) (pct : Int → Int → List Nat)
    (hp : Acc.PctFormat pct) (junk : List Nat) (hj : Bytes junk) (junk' : Nat) (fs : Fs)
    (prog : List Nat) (args : List (List Nat)) (f0 f1 : List Nat) (rest : List (List Nat)) (ss : List Args.Setting)
    (hc : CommandLine [(83, .value 0)] prog args (f0 :: f1 :: rest) ss) (hr : rest.length ≤ 1)
    (file0 file1 : List Nat) (h0 : fs f0 = some file0) (h1 : fs f1 = some file1) (t0 t1 : List Ch)
    (hh : ¬ Headed file0) (p0 : IsPage U true file0 t0) (p1 : HoldsText U true file1 t1) (u v stops : List (List Nat))
    (hu : HasWords U prop nfc t0 u) (hv : HasWords U prop nfc t1 v) (hs : HasStopwords U prop nfc fs ss stops)
    (hw : ∀ w ∈ u, 1 ≤ w.length ∧ w.length ≤ 50 ∧ 10 ∉ w ∧ 0 ∉ w)
    (hm : (u.filter (fun w => decide (w ∈ v))).length ≤ 65535) (hl : u.length < 10^8) :
    ∃ bytes flags D E, wordaccMain U prop nfc pct junk junk' fs (prog :: args) = .ok ⟨rest.head?, bytes⟩ ∧
      flags.length = u.length ∧ Wordacc.IsLCS (Wordacc.flagged u flags) u v ∧ Wordacc.Exact (fun w => decide (w ∈ stops)) (u.zip flags) D ∧
      Wac.read_wacrpt Wac.Wacdata.zero bytes = .ok E ∧ D.Same E := by
  obtain ⟨b, V, e, hV⟩ := init_args table_wordacc hc
  obtain ⟨S, eS, hS⟩ := stopwords_eq (junk := junk) (junk' := junk') hj hV hs
  obtain ⟨flags, D, hf, hL, e1, hD, hR⟩ := Wordacc.wordacc_data (fun w => decide (w ∈ stops)) u v hw hm hl
  obtain ⟨bytes, E, e2, e3, e4⟩ := Wac.c30_round_trip pct hp D hR
  refine ⟨bytes, flags, D, E, ?_, hf, hL, hD, e3, e4⟩
  unfold wordaccMain
  rw [show Args.initialize_ (some Args.wordaccOptions) true (prog :: args) start = _ from e, bind_ok]
  simp only
  rw [if_neg (by simp only [List.length_cons]; omega), eS, bind_ok, readWords_eq h0 h1 hh (.inl ⟨hh, p0⟩) p1 hu hv, bind_ok]
  simp only
  have : (fun w => decide (Stopword.is_stopword w S = .ok true)) = fun w => decide (w ∈ stops) := by
    funext w
    rw [hS w]
    simp
  rw [this, e1, bind_ok, e2, bind_ok]
  cases rest <;> rfl

/-- C59 (refusals).  The files of words are processed after the arguments have been checked. -/
theorem c59_refuses (U : Unicode) (prop : Nat → Word.WB) (nfc : List Nat → Option (List Nat)) (pct : Int → Int → List Nat) (junk : List Nat)
    (junk' : Nat) (fs : Fs) (prog : List Nat) (args ops : List (List Nat)) (ss : List Args.Setting)
    (hc : CommandLine [(83, .value 0)] prog args ops ss) :
    ((ops.length < 2 ∨ 3 < ops.length) → wordaccMain U prop nfc pct junk junk' fs (prog :: args) = .err "invalid number of files") ∧
    (2 ≤ ops.length → ops.length ≤ 3 → ∀ name, ⟨.value 0, name⟩ ∈ ss → fs name = none →
      wordaccMain U prop nfc pct junk junk' fs (prog :: args) = .err "unable to open file") := by
  obtain ⟨b, V, e, hV⟩ := init_args table_wordacc hc
  unfold wordaccMain
  rw [show Args.initialize_ (some Args.wordaccOptions) true (prog :: args) start = _ from e, bind_ok]
  simp only
  constructor
  · intro h
    rw [if_pos (by omega)]
  · intro h1 h2 name hn hf
    rw [if_neg (by omega), (hV.1 0 name).2 hn]
    unfold initStopwords open_file
    simp only [hf, bind_err]

/-! ## C60: editop -/

theorem table_editop : Args.Table [(68, .flag 0)] := ⟨by decide, by decide, by decide⟩

/-- C60.  `editop correct generated [report]`: the report gives the characters that have to be inserted, as a multiset, and those
that have to be deleted; the moves by length put the matching blocks in order and add up to the number of moves. -/
theorem c60_editop (U : Unicode) (junk : List Nat) (fs : Fs)
    (prog : List Nat) (args : List (List Nat)) (f0 f1 : List Nat) (rest : List (List Nat)) (ss : List Args.Setting)
    (hc : CommandLine [(68, .flag 0)] prog args (f0 :: f1 :: rest) ss) (hr : rest.length ≤ 1)
    (file0 file1 : List Nat) (h0 : fs f0 = some file0) (h1 : fs f1 = some file1) (t0 t1 : List Ch)
    (hh : ¬ Headed file0) (p0 : IsPage U false file0 t0) (p1 : HoldsText U false file1 t1)
    (hl0 : t0.length < 2^62) (hl1 : t1.length < 2^62) :
    ∃ bytes D r ls S, editopMain U junk fs (prog :: args) = .ok ⟨rest.head?, bytes⟩ ∧ Edo.read_edorpt Edo.Edodata.zero bytes = .ok D ∧
      D.total_insertions = (((t0.map Ch.value).filter (fun c => c ≠ 126)).diff (t1.map Ch.value)).length ∧
      D.total_deletions = ((t1.map Ch.value).diff ((t0.map Ch.value).filter (fun c => c ≠ 126))).length ∧
      Sync.transpose_sync (t0.map Ch.value) (t1.map Ch.value) = .ok r ∧ D.Balanced ∧
      D.total_moves = ls.length ∧ (∀ i : Nat, D.moves i = ls.countP (fun l : Int => min l 100 = i)) ∧
      Edo.Moves ((r.items2.filterMap (fun s => s.mtch.map (fun c => ((r.cells c).toNat, (s.sub 0).length))))) ls S ∧
      (S.map Prod.fst).Pairwise (· < ·) := by
  obtain ⟨b, V, e, _⟩ := init_args table_editop hc
  obtain ⟨r, D, ls, S, e1, e2, hb, hv, h2, h3, h4, h5, _⟩ := Edo.c49_editop (t0.map Ch.value) (t1.map Ch.value) (by simpa using hl0)
    (by simpa using hl1)
  obtain ⟨D', e3, h6, h7⟩ := Edo.c56_differences (t0.map Ch.value) (t1.map Ch.value)
  rw [e2] at e3
  cases e3
  refine ⟨Edo.write_edorpt D, D, r, ls, S, ?_, Edo.c26_round_trip D hv, h6, h7, e1, hb, h2, h3, h4, h5⟩
  unfold editopMain
  rw [show Args.initialize_ (some Args.editopOptions) true (prog :: args) start = _ from e, bind_ok]
  simp only
  rw [if_neg (by simp only [List.length_cons]; omega), readPair_eq h0 h1 hh (.inl ⟨hh, p0⟩) p1, bind_ok]
  simp only
  rw [e2, bind_ok]
  cases rest <;> rfl

/-- C60 (all runs).  Whatever the arguments and the files, a run ends with a report or with a message. -/
theorem c60_total (U : Unicode) (junk : List Nat) (hj : Bytes junk)
    (fs : Fs) (hfs : ∀ name file, fs name = some file → Bytes file)
    (prog : List Nat) (args : List (List Nat)) (hprog : prog.length ≤ 32768) (hargs : args.length < 32768) (hnul : ∀ a ∈ args, 0 ∉ a) :
    (∃ out, editopMain U junk fs (prog :: args) = .ok out) ∨ ∃ msg, editopMain U junk fs (prog :: args) = .err msg := by
  unfold editopMain
  rcases Args.c52_total _ table_editop true prog args hprog hargs hnul with ⟨⟨b, ops, V⟩, e⟩ | ⟨msg, e⟩
  · rw [show Args.initialize_ (some Args.editopOptions) true (prog :: args) start = _ from e, bind_ok]
    simp only
    split
    · exact .inr ⟨_, rfl⟩
    · rename_i hn
      obtain ⟨f0, f1, rest, rfl⟩ : ∃ f0 f1 rest, ops = f0 :: f1 :: rest := by
        rcases ops with _ | ⟨f0, _ | ⟨f1, rest⟩⟩
        · simp at hn
        · simp at hn
        · exact ⟨_, _, _, rfl⟩
      rcases readPair_total (U := U) (f0 := f0) (f1 := f1) (rest := rest) hj hfs with
        ⟨file0, file1, t0, t1, b0, b1, o0, o1, h0, h1, e0, e1, e2⟩ | ⟨msg, e2⟩
      · obtain ⟨D, e3, _, _⟩ := Edo.c56_differences (t0.map Ch.value) (t1.map Ch.value)
        rw [e2, bind_ok]
        simp only
        rw [e3]
        exact .inl ⟨_, rfl⟩
      · rw [e2]; exact .inr ⟨msg, rfl⟩
  · rw [show Args.initialize_ (some Args.editopOptions) true (prog :: args) start = _ from e]
    exact .inr ⟨msg, rfl⟩

/-! ## C61: vote -/

/-- The options of `vote`: -D, -O, -o, -s, -w. -/
def voteTable : List (Nat × Args.Kind) := [(68, .flag 0), (79, .flag 1), (111, .value 0), (115, .value 1), (119, .value 2)]

theorem table_vote : Args.Table voteTable := ⟨by decide, by decide, by decide⟩

theorem fraction_bytes {f : List Nat} {m n : Nat} (h : Vote.Fraction f m n) : ∀ b ∈ f, 0 < b ∧ b < 256 := by
  obtain ⟨h1, h2, h3, rfl⟩ := h
  intro b hb
  simp only [List.mem_cons, List.not_mem_nil, or_false] at hb
  omega

theorem fraction_unique {f : List Nat} {m n m' n' : Nat} (h : Vote.Fraction f m n) (h' : Vote.Fraction f m' n') : m = m' ∧ n = n' := by
  obtain ⟨_, _, _, rfl⟩ := h
  obtain ⟨_, _, _, e⟩ := h'
  simp only [List.cons.injEq, Nat.add_left_cancel_iff] at e
  exact ⟨e.1, e.2.2.1⟩

theorem settings_unique {argc : Nat} {optimize : Bool} {s w : Option (List Nat)} {c d : Vote.Config}
    (h : Vote.Settings argc optimize s w c) (h' : Vote.Settings argc optimize s w d) : c = d := by
  have h1 : c.actual_voters = d.actual_voters := by rw [h.actual, h'.actual]
  have h2 : c.suspect_weight = d.suspect_weight ∧ c.unmarked_weight = d.unmarked_weight := by
    rcases h.weights with ⟨rfl, a, b⟩ | ⟨f, m, n, rfl, hf, a, b⟩ <;> rcases h'.weights with ⟨e, a', b'⟩ | ⟨f', m', n', e, hf', a', b'⟩
    · rw [a, b, a', b']; exact ⟨rfl, rfl⟩
    · cases e
    · cases e
    · cases e
      obtain ⟨rfl, rfl⟩ := fraction_unique hf hf'
      rw [a, b, a', b']; exact ⟨rfl, rfl⟩
  have h3 : c.suspect_threshold = d.suspect_threshold := by
    rcases h.threshold with ⟨rfl, a⟩ | ⟨f, m, n, rfl, hf, a⟩ <;> rcases h'.threshold with ⟨e, a'⟩ | ⟨f', m', n', e, hf', a'⟩
    · rw [a, a']
    · cases e
    · cases e
    · cases e
      obtain ⟨rfl, rfl⟩ := fraction_unique hf hf'
      rw [a, a', h1, h2.2]
  cases c; cases d
  simp only at h1 h2 h3
  rw [h1, h2.1, h2.2, h3]

theorem validate_eq {signed optimize : Bool} {argc : Nat} {s w : Option (List Nat)} {cfg : Vote.Config}
    (h : Vote.Settings argc optimize s w cfg) : Vote.validate_args signed argc optimize s w = .ok cfg := by
  have hs : ∀ f, s = some f → ∀ b ∈ f, 0 < b ∧ b < 256 := by
    rintro f rfl
    rcases h.threshold with ⟨e, _⟩ | ⟨f', m, n, e, hf, _⟩
    · cases e
    · cases e; exact fraction_bytes hf
  have hw : ∀ f, w = some f → ∀ b ∈ f, 0 < b ∧ b < 256 := by
    rintro f rfl
    rcases h.weights with ⟨e, _⟩ | ⟨f', m, n, e, hf, _⟩
    · cases e
    · cases e; exact fraction_bytes hf
  rcases Vote.c42_settings signed optimize argc s w hs hw with ⟨c, e, h'⟩ | ⟨hn, _⟩
  · rw [e, settings_unique h' h]
  · exact absurd ⟨cfg, h⟩ hn

theorem vote_run {U : Unicode} {signed : Bool} {junk : List Nat} {fs : Fs} {prog : List Nat} {args ops : List (List Nat)}
    {ss : List Args.Setting} (hc : CommandLine voteTable prog args ops ss) {files : List (List Nat)} {texts : List (List Ch)}
    (hf : List.Forall₂ (fun name file => fs name = some file) ops files) (ht : List.Forall₂ (HoldsText U false) files texts)
    {out s w : Option (List Nat)} {optimize : Bool} (ho : Given ss 0 out) (hs : Given ss 1 s) (hw : Given ss 2 w)
    (hO : optimize = true ↔ ⟨.flag 1, []⟩ ∈ ss) {cfg : Vote.Config} (hcfg : Vote.Settings ops.length optimize s w cfg)
    {o : List Ch} (hv : Vote.voteTexts U optimize cfg texts = .ok o) {bytes : List Nat} (hb : write_text U o none = .ok bytes) :
    voteProgram U signed junk fs (prog :: args) = .ok ⟨out, bytes⟩ := by
  obtain ⟨b, V, e, hV⟩ := init_args table_vote hc
  have hl : files.length = ops.length := hf.length_eq.symm
  have h2 := hcfg.voters
  rw [vote_eq (show Args.initialize_ (some Args.voteOptions) true (prog :: args) start = _ from e) hf, given_eq hV ho, given_eq hV hs,
    given_eq hV hw, flag_eq hV hO]
  unfold Vote.voteMain
  rw [if_neg (by unfold Vote.MIN_VOTERS Vote.MAX_VOTERS; omega), show Vote.readAll U junk Vote.textopt files = _ from readAll_eq ht false]
  simp only [bind_ok]
  rw [hl, validate_eq hcfg]
  simp only [bind_ok]
  rw [hv]
  simp only [bind_ok]
  rw [hb]
  rfl

/-- C61.  `vote [-O] [-s m/n] [-w m/n] [-o output] file1 file2 ...`: for 2 to 16 files of printable characters, the output file decodes to
the regions' results, one after the other, where the regions are those of a synchronization of the texts chosen and each result is
decided by the plurality of the weighted votes. -/
theorem c61_vote (U : Unicode) (F : UnicodeFacts U) (h126 : is_graphic U 126 = true) (signed : Bool) (junk : List Nat) (fs : Fs)
    (prog : List Nat) (args ops : List (List Nat)) (ss : List Args.Setting) (hc : CommandLine voteTable prog args ops ss)
    (files : List (List Nat)) (texts : List (List Ch)) (hf : List.Forall₂ (fun name file => fs name = some file) ops files)
    (ht : List.Forall₂ (HoldsText U false) files texts) (out s w : Option (List Nat)) (optimize : Bool)
    (ho : Given ss 0 out) (hs : Given ss 1 s) (hw : Given ss 2 w) (hO : optimize = true ↔ ⟨.flag 1, []⟩ ∈ ss)
    (cfg : Vote.Config) (hcfg : Vote.Settings ops.length optimize s w cfg)
    (hwr : ∀ t ∈ texts, ∀ c ∈ t, Writable U c.value) (hlen : ∀ t ∈ texts, t.length < 2^31) :
    ∃ cs chosen r outs, voteProgram U signed junk fs (prog :: args) = .ok ⟨out, utf8 cs⟩ ∧
      marked 94 (cs.map Char.toNat) = outs.flatten ∧ Chosen optimize texts chosen ∧
      Sync.synchronize (chosen.map (·.map Ch.value)) = .ok r ∧ Sync.IsAlignment (chosen.map (·.map Ch.value)) r.items ∧
      List.Forall₂ (fun s out => Vote.RegionVote cfg (Vote.strings chosen s) out) r.items outs := by
  have hl : ops.length = texts.length := hf.length_eq.trans ht.length_eq
  have hval : ∀ t ∈ texts, ∀ c ∈ t, c.value ≤ 0x10FFFF := by
    intro t ht c hc
    have := (hwr t ht c hc).1
    unfold Scalar at this
    omega
  obtain ⟨chosen, r, outs, h1, hsub, h2, h3, h4, h5⟩ := vote_data F (hl ▸ hcfg) hval hlen
  have hw' : ∀ c ∈ outs.flatten, Writable U c.value := by
    intro c hc
    obtain ⟨o, ho, hc⟩ := List.mem_flatten.1 hc
    obtain ⟨i, hi, e⟩ := List.mem_iff_getElem.1 ho
    have hi' : i < r.items.length := by rw [h5.length_eq]; exact hi
    have hv := h5.get hi' hi
    simp only [List.get_eq_getElem] at hv
    rw [e] at hv
    rcases region_values hv c hc with e | ⟨str, hs, d, hd, e⟩
    · rw [e]
      exact ⟨.inl (by omega), by omega, by decide, .inr ⟨h126, F.ascii 126 (by omega)⟩⟩
    · rw [← e]
      unfold Vote.strings at hs
      obtain ⟨p, hp, rfl⟩ := List.mem_map.1 hs
      have hp' := List.mem_zipIdx' hp
      have hm : p.1 ∈ chosen := by rw [hp'.2]; exact List.getElem_mem _
      refine hwr p.1 (hsub _ hm) d ?_
      unfold Sync.piece at hd
      exact List.mem_of_mem_drop (List.mem_of_mem_take hd)
  obtain ⟨cs, e1, e2⟩ := written_raw hw'
  exact ⟨cs, chosen, r, outs, vote_run hc hf ht ho hs hw hO hcfg h4 e1, e2, h1, h2, h3, h5⟩

/-- C61 (agreement).  If all files hold the same characters, printable and none a reject character, the output file is a page with these
characters. -/
theorem c61_unanimous (U : Unicode) (F : UnicodeFacts U) (signed : Bool) (junk : List Nat) (fs : Fs)
    (prog : List Nat) (args ops : List (List Nat)) (ss : List Args.Setting) (hc : CommandLine voteTable prog args ops ss)
    (files : List (List Nat)) (texts : List (List Ch)) (hf : List.Forall₂ (fun name file => fs name = some file) ops files)
    (ht : List.Forall₂ (HoldsText U false) files texts) (out s w : Option (List Nat)) (optimize : Bool)
    (ho : Given ss 0 out) (hs : Given ss 1 s) (hw : Given ss 2 w) (hO : optimize = true ↔ ⟨.flag 1, []⟩ ∈ ss)
    (cfg : Vote.Config) (hcfg : Vote.Settings ops.length optimize s w cfg) (v : List Nat) (hsame : ∀ t ∈ texts, t.map Ch.value = v)
    (hr : 126 ∉ v) (hwr : ∀ x ∈ v, Writable U x) (hlen : v.length < 2^31) :
    ∃ bytes o, voteProgram U signed junk fs (prog :: args) = .ok ⟨out, bytes⟩ ∧ IsPage U false bytes o ∧ o.map Ch.value = v := by
  have hl : ops.length = texts.length := hf.length_eq.trans ht.length_eq
  have hval : ∀ x ∈ v, x ≤ 0x10FFFF := by
    intro x hx
    have := (hwr x hx).1
    unfold Scalar at this
    omega
  obtain ⟨o, e, hv⟩ := Vote.c40_unanimous U F signed optimize s w texts cfg (hl ▸ validate_eq hcfg) v hsame hr hval hlen
  have hn : NormalForm U o := by
    have h2 := hcfg.voters.1
    rw [hl] at h2
    rw [hf.length_eq] at hl
    obtain ⟨t, ts, rfl⟩ : ∃ t ts, texts = t :: ts := by
      cases texts with
      | nil => simp at h2
      | cons t ts => exact ⟨t, ts, rfl⟩
    cases ht with
    | cons h _ =>
      have hnt : NormalForm U t := by
        rcases h with ⟨_, h⟩ | ⟨body, _, h⟩ <;> exact page_normal h
      exact normal_values hnt (hv.trans (hsame t (by simp)).symm)
  obtain ⟨bytes, e1, e2⟩ := written_page (U := U) (t := o) (by
    intro c hc
    exact hwr _ (hv ▸ List.mem_map_of_mem hc)) hn
  exact ⟨bytes, o, vote_run hc hf ht ho hs hw hO hcfg e e1, e2, hv⟩

/-! ## Non-vacuity -/

/-- Some files. -/
def sampleFs : Fs := fun name =>
  if name = ascii "a" then some (ascii "The cat sat\n on  the mat.")
  else if name = ascii "b" then some (ascii "The mat c^at sat\non the hat.")
  else if name = ascii "report" then some (ascii "The cat sat\n on  the mat.")
  else if name = ascii "s" then some (ascii "On the")
  else if name = ascii "h" then some (TITLE ++ DIVIDER ++ DIVIDER ++ ascii "The cat sat\non the ^mat.")
  else none

def plain (s : String) : List Ch := (ascii s).map (fun v => ⟨false, v⟩)
def sampleText0 : List Ch := plain "The cat sat\non the mat."
def sampleText1 : List Ch := plain "The mat c" ++ ⟨true, 97⟩ :: plain "t sat\non the hat."
def sampleText2 : List Ch := plain "The cat sat\non the " ++ ⟨true, 109⟩ :: plain "at."

theorem not_headed_a : ¬ Headed (ascii "The cat sat\n on  the mat.") := by unfold Headed; decide +kernel
theorem not_headed_b : ¬ Headed (ascii "The mat c^at sat\non the hat.") := by unfold Headed; decide +kernel

theorem bytes_ascii {l : List Nat} (h : l.all (fun b => decide (b < 256)) = true) : Bytes l := by
  intro b hb
  simpa using List.all_eq_true.1 h b hb

theorem sample_a : IsPage sampleUnicode false (ascii "The cat sat\n on  the mat.") sampleText0 :=
  ((read_page sampleUnicode [] false _ (bytes_ascii (by decide +kernel)) (by intro b hb; cases hb) not_headed_a sampleText0 (pageText false)).1
    (by decide +kernel)).1

theorem sample_b : IsPage sampleUnicode false (ascii "The mat c^at sat\non the hat.") sampleText1 :=
  ((read_page sampleUnicode [] false _ (bytes_ascii (by decide +kernel)) (by intro b hb; cases hb) not_headed_b sampleText1 (pageText false)).1
    (by decide +kernel)).1

theorem sample_h : HoldsText sampleUnicode false (TITLE ++ DIVIDER ++ DIVIDER ++ ascii "The cat sat\non the ^mat.") sampleText2 := by
  refine .inr ⟨ascii "The cat sat\non the ^mat.", ⟨TITLE.dropLast, [], [], by decide +kernel, by decide +kernel, by decide +kernel, by simp,
    by simp, by decide +kernel⟩, ?_⟩
  exact ((read_page sampleUnicode [] false _ (bytes_ascii (by decide +kernel)) (by intro b hb; cases hb)
    (by unfold Headed; decide +kernel) sampleText2 (pageText false)).1 (by decide +kernel)).1

theorem sample_line (T : List (Nat × Args.Kind)) (prog : String) (hp : (ascii prog).length ≤ 32768) :
    CommandLine T (ascii prog) [ascii "a", ascii "b", ascii "report"] [ascii "a", ascii "b", ascii "report"] [] :=
  ⟨hp, by decide +kernel, by decide +kernel, by simp,
    .operand (by rintro ⟨c, r, e⟩; simp [ascii] at e) (.operand (by rintro ⟨c, r, e⟩; simp [ascii] at e)
      (.operand (by rintro ⟨c, r, e⟩; simp [ascii] at e) .nil)), by simp [Args.Once]⟩

example : ∃ bytes E, accuracyMain sampleUnicode Acc.samplePct [] sampleFs [ascii "accuracy", ascii "a", ascii "b", ascii "report"] =
      .ok ⟨some (ascii "report"), bytes⟩ ∧ Acc.read_accrpt Acc.Accdata.zero bytes = .ok E ∧ E.characters = 23 ∧ E.suspect_markers = 1 ∧
      ∃ d : Nat, E.errors = d ∧ IsEditDistance (sampleText0.map Ch.value) (sampleText1.map Ch.value) d := by
  obtain ⟨bytes, E, h1, h2, h3, h4, _⟩ := c58_accuracy sampleUnicode sampleFacts Acc.samplePct Acc.samplePct_format [] sampleFs (ascii "accuracy")
    _ _ _ _ _ (sample_line [] "accuracy" (by decide +kernel)) (by simp) _ _ (by decide +kernel) (by decide +kernel) _ _ not_headed_a sample_a (.inl ⟨not_headed_b, sample_b⟩)
    (by decide +kernel) (by decide +kernel)
  refine ⟨bytes, E, h1, h2, by rw [h3.characters]; decide +kernel, by rw [h3.suspects]; decide +kernel, h4 (by decide +kernel)⟩

example : accuracyMain sampleUnicode Acc.samplePct [] sampleFs [ascii "accuracy", ascii "h", ascii "b"] = .err "no correct file specified" ∧
    accuracyMain sampleUnicode Acc.samplePct [] sampleFs [ascii "accuracy", ascii "a"] = .err "invalid number of files" ∧
    accuracyMain sampleUnicode Acc.samplePct [] sampleFs [ascii "accuracy", ascii "a", ascii "x"] = .err "unable to open file" := by
  decide +kernel

example : editopMain sampleUnicode [] sampleFs [ascii "/usr/bin/editop", ascii "a", ascii "-D", ascii "b"] =
    .ok ⟨none, Edo.write_edorpt ⟨0, 4, 1, fun i => if i = 3 then 1 else 0⟩⟩ := by
  decide +kernel

/-! For `wordacc -S s a b`. -/

theorem sample_words {t : List Ch} {u : List (List Nat)} (h1 : ∀ c ∈ t, c.value < 0x110000)
    (h2 : ∃ c ∈ t, Word.isExt (Word.wbProp c.value) = false) (h3 : Word.find_words sampleUnicode Word.wbProp some 0 t = .ok (u.map some)) :
    HasWords sampleUnicode Word.wbProp some t u := by
  obtain ⟨segs, e1, e2⟩ := Word.c35_words sampleUnicode Word.wbProp some 0 t h1 (.inr h2)
  rw [e2] at h3
  cases h3' : Word.wordsOf sampleUnicode some segs == u.map some with
  | true => exact ⟨h1, .inr h2, segs, e1, by simpa using h3'⟩
  | false => simp at h3 h3'; exact absurd h3 h3'

def lower0 : List Ch := plain "the cat sat\non the mat."
def lower1 : List Ch := plain "the mat c" ++ ⟨true, 97⟩ :: plain "t sat\non the hat."

theorem page_a : IsPage sampleUnicode true (ascii "The cat sat\n on  the mat.") lower0 :=
  ((read_page sampleUnicode [] true _ (bytes_ascii (by decide +kernel)) (by intro b hb; cases hb) not_headed_a lower0 (pageText true)).1
    (by decide +kernel)).1

theorem page_b : IsPage sampleUnicode true (ascii "The mat c^at sat\non the hat.") lower1 :=
  ((read_page sampleUnicode [] true _ (bytes_ascii (by decide +kernel)) (by intro b hb; cases hb) not_headed_b lower1 (pageText true)).1
    (by decide +kernel)).1

theorem list_s : IsList sampleUnicode false true (ascii "On the") (plain "on the") :=
  ((read_list sampleUnicode [] false true _ (bytes_ascii (by decide +kernel)) (by intro b hb; cases hb) (plain "on the")
    ⟨false, false, 0, true, true, false⟩).1 (by decide +kernel)).1

theorem wordacc_line : CommandLine [(83, .value 0)] (ascii "wordacc") [ascii "-S", ascii "s", ascii "a", ascii "b"] [ascii "a", ascii "b"]
    [⟨.value 0, ascii "s"⟩] :=
  ⟨by decide +kernel, by decide +kernel, by decide +kernel, by simp,
    .separate (by unfold Args.Help; decide +kernel) (by decide) (.operand (by rintro ⟨c, r, e⟩; simp [ascii] at e)
      (.operand (by rintro ⟨c, r, e⟩; simp [ascii] at e) .nil)), by simp [Args.Once]⟩

theorem words_a : HasWords sampleUnicode Word.wbProp some lower0 (["the", "cat", "sat", "on", "the", "mat"].map ascii) :=
  sample_words (by decide +kernel) ⟨⟨false, 116⟩, by decide +kernel, by decide +kernel⟩ (by decide +kernel)

theorem words_b : HasWords sampleUnicode Word.wbProp some lower1 (["the", "mat", "cat", "sat", "on", "the", "hat"].map ascii) :=
  sample_words (by decide +kernel) ⟨⟨false, 116⟩, by decide +kernel, by decide +kernel⟩ (by decide +kernel)

theorem words_s : HasWords sampleUnicode Word.wbProp some (plain "on the") (["on", "the"].map ascii) :=
  sample_words (by decide +kernel) ⟨⟨false, 111⟩, by decide +kernel, by decide +kernel⟩ (by decide +kernel)

example : ∃ bytes flags D E,
    wordaccMain sampleUnicode Word.wbProp some Acc.samplePct [] 0 sampleFs [ascii "wordacc", ascii "-S", ascii "s", ascii "a", ascii "b"] =
      .ok ⟨none, bytes⟩ ∧ flags.length = 6 ∧
      Wordacc.IsLCS (Wordacc.flagged (["the", "cat", "sat", "on", "the", "mat"].map ascii) flags)
        (["the", "cat", "sat", "on", "the", "mat"].map ascii) (["the", "mat", "cat", "sat", "on", "the", "hat"].map ascii) ∧
      Wordacc.Exact (fun w => decide (w ∈ ["on", "the"].map ascii)) ((["the", "cat", "sat", "on", "the", "mat"].map ascii).zip flags) D ∧
      Wac.read_wacrpt Wac.Wacdata.zero bytes = .ok E ∧ D.Same E :=
  c59_wordacc sampleUnicode Word.wbProp some Acc.samplePct Acc.samplePct_format [] (by intro b hb; cases hb) 0 sampleFs (ascii "wordacc") _ _ _ []
    _ wordacc_line (by simp) _ _ (by decide +kernel) (by decide +kernel) _ _ not_headed_a page_a (.inl ⟨not_headed_b, page_b⟩) _ _ _
    words_a words_b (.inr ⟨ascii "s", ascii "On the", plain "on the", by simp, by decide +kernel, bytes_ascii (by decide +kernel), list_s, words_s⟩)
    (by decide +kernel) (by decide +kernel) (by decide +kernel)

/-! For `vote -s1/2 -o out a h`. -/

theorem sample_texts : List.Forall₂ (HoldsText sampleUnicode false)
    [ascii "The cat sat\n on  the mat.", TITLE ++ DIVIDER ++ DIVIDER ++ ascii "The cat sat\non the ^mat."] [sampleText0, sampleText2] :=
  .cons (.inl ⟨not_headed_a, sample_a⟩) (.cons sample_h .nil)

theorem vote_line : CommandLine voteTable (ascii "vote") [ascii "-s1/2", ascii "-o", ascii "out", ascii "a", ascii "h"] [ascii "a", ascii "h"]
    [⟨.value 1, ascii "1/2"⟩, ⟨.value 0, ascii "out"⟩] :=
  ⟨by decide +kernel, by decide +kernel, by decide +kernel, by simp,
    .attached (by unfold Args.Help; decide +kernel) (by decide) (.separate (by unfold Args.Help; decide +kernel) (by decide)
      (.operand (by rintro ⟨c, r, e⟩; simp [ascii] at e) (.operand (by rintro ⟨c, r, e⟩; simp [ascii] at e) .nil))), by simp [Args.Once]⟩

theorem vote_settings : Vote.Settings 2 false (some (ascii "1/2")) none ⟨2, 1, 1, 1⟩ :=
  ⟨by omega, by decide, .inl ⟨rfl, rfl, rfl⟩, .inr ⟨_, 1, 2, rfl, ⟨by omega, by omega, by omega, by decide⟩, by decide⟩⟩

example : ∃ bytes o, voteProgram sampleUnicode true [] sampleFs
      [ascii "vote", ascii "-s1/2", ascii "-o", ascii "out", ascii "a", ascii "h"] = .ok ⟨some (ascii "out"), bytes⟩ ∧
      IsPage sampleUnicode false bytes o ∧ o.map Ch.value = sampleText0.map Ch.value :=
  c61_unanimous sampleUnicode sampleFacts true [] sampleFs (ascii "vote") _ _ _ vote_line _ _
    (.cons (by decide +kernel) (.cons (by decide +kernel) .nil)) sample_texts (some (ascii "out")) (some (ascii "1/2")) none false
    (by intro x; simp [eq_comm]) (by intro x; simp [eq_comm]) (by intro x; simp) (by simp) _ vote_settings _
    (by decide +kernel) (by decide +kernel) (by
      intro x hx
      have : ∀ x ∈ sampleText0.map Ch.value, x < 0xD800 ∧ x ≠ 0 ∧ x ≠ SUSPECT_MARKER ∧
        (x = NEWLINE ∨ (is_graphic sampleUnicode x = true ∧ is_combining sampleUnicode x = false)) := by decide +kernel
      exact ⟨.inl (this x hx).1, (this x hx).2⟩) (by decide +kernel)

example : ∃ cs chosen r outs, voteProgram sampleUnicode true [] sampleFs [ascii "vote", ascii "a", ascii "b", ascii "report"] = .ok ⟨none, utf8 cs⟩ ∧
      marked 94 (cs.map Char.toNat) = outs.flatten ∧ Chosen false [sampleText0, sampleText1, sampleText0] chosen ∧
      Sync.synchronize (chosen.map (·.map Ch.value)) = .ok r ∧ Sync.IsAlignment (chosen.map (·.map Ch.value)) r.items ∧
      List.Forall₂ (fun s out => Vote.RegionVote ⟨3, 0, 1, 1⟩ (Vote.strings chosen s) out) r.items outs :=
  c61_vote sampleUnicode sampleFacts (by decide) true [] sampleFs (ascii "vote") _ _ _ (sample_line voteTable "vote" (by decide +kernel)) _ _
    (.cons (by decide +kernel) (.cons (by decide +kernel) (.cons (by decide +kernel) .nil)))
    (.cons (.inl ⟨not_headed_a, sample_a⟩) (.cons (.inl ⟨not_headed_b, sample_b⟩) (.cons (.inl ⟨not_headed_a, sample_a⟩) .nil)))
    none none none false (by intro x; simp) (by intro x; simp) (by intro x; simp) (by simp) _
    ⟨by decide, by decide, .inl ⟨rfl, rfl, rfl⟩, .inl ⟨rfl, rfl⟩⟩ (by
      have : ∀ t ∈ [sampleText0, sampleText1, sampleText0], ∀ c ∈ t, c.value < 0xD800 ∧ c.value ≠ 0 ∧ c.value ≠ SUSPECT_MARKER ∧
        (c.value = NEWLINE ∨ (is_graphic sampleUnicode c.value = true ∧ is_combining sampleUnicode c.value = false)) := by decide +kernel
      exact fun t ht c hc => ⟨.inl (this t ht c hc).1, (this t ht c hc).2⟩) (by decide +kernel)

end Ocr.Prog
