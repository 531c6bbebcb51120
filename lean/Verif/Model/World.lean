import Verif.Model.Process

/-!
# The programs and the files they change

The functions here are the main programs once more, on a state that the calls of `open_file`, `close_file` and the functions that print
change: the contents of all files, the streams that are open, and what has been printed on `stdout` and `stderr`.

Simplified: a file is read as a whole where reading begins and written as a whole where writing ends; nothing else changes files in the
meantime.  If a function fails that writes a file, the file is left empty here.  The room on the disk does not grow when a file is made
empty; bytes for which there is no room are lost, and `stdout` has room for everything.  Whether a file can be created does not depend on the
files that exist.  Buffering is not modelled.
-/

namespace Ocr.Disk
open Text Prog Process

/-- A value of type `FILE *` (util.c:77). -/
inductive Stream where
  | stdin
  | stdout
  | file (id : Nat)
  deriving DecidableEq

/-- A file that is open: which call of `fopen` opened it, and its name (util.c:80). -/
structure Opened where
  id   : Nat
  name : List Nat
  deriving DecidableEq

/-- What a signal may find when it arrives (util.c:155-163): the contents of the files, and what has been printed on `stdout` and `stderr`. -/
structure Snapshot where
  files : Fs
  out   : List Nat
  err   : List Nat

/-- The states while bytes are printed, one by one (for instance util.c:268). -/
def each (bytes : List Nat) (f : List Nat → Snapshot) : List Snapshot := bytes.inits.tail.map f

/-- The state of the system as far as the programs see it (util.c:74-95): contents of files, the files that are open, the number of calls
of `fopen`, the largest number of files open at a time, the standard streams, all states since the beginning, and how many bytes can still
be written to files (`none`: enough). -/
structure World where
  files  : Fs
  opened : List Opened
  calls  : Nat
  most   : Nat
  input  : List Nat
  out    : List Nat
  err    : List Nat
  past   : List Snapshot
  room   : Option Nat

/-- How a part of a program ends (see `Process.Out`; util.c:249-284), with the state. -/
inductive Fin (α : Type) where
  | ok (a : α) (w : World)
  | exit (status : Nat) (w : World)
  | abort (w : World)
  | ub
  | fuel

/-- A part of a program that acts on the state (util.c:74-95). -/
def W (α : Type) : Type := World → Fin α

/-- One part of a program after the other; `exit` ends the program (util.c:249-256). -/
def W.bind {α β : Type} (m : W α) (f : α → W β) : W β := fun w =>
  match m w with
  | .ok a w => f a w
  | .exit s w => .exit s w
  | .abort w => .abort w
  | .ub => .ub
  | .fuel => .fuel

/-- See `W.bind` (util.c:249-256). -/
instance : Monad W where
  pure a := fun w => .ok a w
  bind := W.bind

/-- A part of a program that uses no files: it may print on `stderr` or end the program (util.c:265-284). -/
def say {α : Type} (o : Out α) : W α := fun w =>
  match o with
  | .ok e a => .ok a { w with err := w.err ++ e, past := each e (fun p => ⟨w.files, w.out, w.err ++ p⟩) ++ w.past }
  | .exit s e => .exit s { w with err := w.err ++ e, past := each e (fun p => ⟨w.files, w.out, w.err ++ p⟩) ++ w.past }
  | .abort => .abort w
  | .ub => .ub
  | .fuel => .fuel

/-- `fopen(filename, mode)` when it succeeds (util.c:80): the next stream. -/
def fopen (filename : List Nat) : W Stream := fun w =>
  .ok (.file w.calls) { w with opened := ⟨w.calls, filename⟩ :: w.opened, calls := w.calls + 1, most := max w.most (w.opened.length + 1) }

/-- The files after one has been given other contents (util.c:80, mode `w`). -/
def store (files : Fs) (name bytes : List Nat) : Fs := fun x => if x = name then some bytes else files x

/-- util.c:74-88 `open_file`; `write` stands for `mode[0] == 'w'`.  Opening a file for writing makes it empty. -/
def open_file (exec_name : List Nat) (creatable : List Nat → Bool) (filename : Option (List Nat)) (write : Bool) : W Stream :=
  match filename with
  | none => pure (if write then .stdout else .stdin)
  | some name => fun w =>
    if write then
      if creatable name then fopen name { w with files := store w.files name [], past := ⟨store w.files name [], w.out, w.err⟩ :: w.past }
      else say (error_string exec_name (ascii "unable to create file") name) w
    else
      match w.files name with
      | some _ => fopen name w
      | none => say (error_string exec_name (ascii "unable to open file") name) w

/-- The entry of a stream in the table of open files (util.c:80). -/
def named (w : World) (id : Nat) : Option (List Nat) := (w.opened.find? (fun o => o.id == id)).map Opened.name

/-- Reading a stream up to its end (`getc`, `fgets`, `fscanf`; for instance text.c:144-173, accrpt.c:221-253). -/
def getAll (f : Stream) : W (List Nat) := fun w =>
  match f with
  | .stdin => .ok w.input { w with input := [] }
  | .stdout => .ub
  | .file id =>
    match named w id with
    | some name => .ok ((w.files name).getD []) w
    | none => .ub

/-- Printing on a stream (`fputs`, `fprintf`; for instance text.c:363-367, accrpt.c:331-370).  The programs do not look at the results of
these functions: if the disk is full they go on. -/
def put (f : Stream) (bytes : List Nat) : W Unit := fun w =>
  match f with
  | .stdin => .ub
  | .stdout => .ok () { w with out := w.out ++ bytes, past := each bytes (fun p => ⟨w.files, w.out ++ p, w.err⟩) ++ w.past }
  | .file id =>
    match named w id with
    | some name =>
      let new := fun p => store w.files name ((w.files name).getD [] ++ p)
      let fits := match w.room with
        | none => bytes
        | some n => bytes.take n
      .ok () { w with
        files := new fits, past := each fits (fun p => ⟨new p, w.out, w.err⟩) ++ w.past, room := w.room.map (fun n => n - bytes.length) }
    | none => .ub

/-- util.c:90-95 `close_file`: closing a file that is not open is undefined. -/
def close_file (f : Stream) : W Unit := fun w =>
  match f with
  | .stdin => .ok () w
  | .stdout => .ok () w
  | .file id =>
    match named w id with
    | some _ => .ok () { w with opened := w.opened.filter (fun o => o.id != id) }
    | none => .ub

/-- A program: what `main` gives to `initialize`, and the rest of `main` (see `Process.Program`; for instance accsum.c:33-45). -/
structure Program where
  usage  : List Nat
  option : Option (List Args.Opt)
  body   : (exec_name : List Nat) → (argv : List (List Nat)) → (V : Args.Vars) → W Unit

/-- A run of a program (for instance accsum.c:33-45). -/
def Program.run (P : Program) (argv : List (List Nat)) : W Unit := do
  let (exec_name, argv, V) ← say (initialize_ P.usage P.option argv start)
  P.body exec_name argv V

/-! ## Reading and writing -/

/-- A function that opens a file, reads it and closes it (text.c:226-231, accrpt.c:221-253, edorpt.c:72-85, wacrpt.c:130-151); what is
done with the contents after the file has been closed uses no files. -/
def withFile {α : Type} (exec_name filename : List Nat) (step : (file : List Nat) → Out α) : W α := do
  let f ← open_file exec_name (fun _ => false) (some filename) false
  let file ← getAll f
  let a ← say (step file)
  close_file f
  return a

/-- A function that opens a file, writes it and closes it (text.c:355-368, accrpt.c:331-370, dist.c:53-57, edorpt.c:112-124,
groupacc.c:56-72, wacrpt.c:242-263). -/
def writeFile (exec_name errmsg : List Nat) (creatable : List Nat → Bool) (filename : Option (List Nat)) (content : Res (List Nat)) : W Unit := do
  let f ← open_file exec_name creatable filename true
  let bytes ← say (plain exec_name errmsg content)
  put f bytes
  close_file f

/-- The loop of a main program over its files (see `Process.forFiles`; for instance ngram.c:175-176, accsum.c:41-42, vote.c:108-114). -/
def forFiles {α : Type} (exec_name : List Nat) (step : (name : List Nat) → α → (file : List Nat) → Out α) : (names : List (List Nat)) → α → W α
  | [], a => pure a
  | name :: names, a => do
    let a ← withFile exec_name name (step name a)
    forFiles exec_name step names a

/-- See `Process.forReports` (for instance accsum.c:41-42). -/
def forReports {α : Type} (exec_name : List Nat) (step : α → List Nat → Res α) (names : List (List Nat)) (a : α) : W α :=
  forFiles exec_name (fun name a file => about exec_name name (step a file)) names a

/-- See `Process.forTexts` (for instance ngram.c:175-176). -/
def forTexts {α : Type} (exec_name errmsg : List Nat) (step : α → List Nat → Res α) (names : List (List Nat)) (a : α) : W α :=
  forFiles exec_name (fun _ a file => plain exec_name errmsg (step a file)) names a

/-- text.c:216-236 `read_text` for an empty text and a named file. -/
def readFile (exec_name errmsg : List Nat) (U : Unicode) (junk filename : List Nat) (opt : Textopt) : W (List Ch × Textopt) :=
  withFile exec_name filename (fun file => plain exec_name errmsg (read_text U junk [] file opt))

/-- accuracy.c:140-143, editop.c:235-238: both texts. -/
def readPair (exec_name errmsg : List Nat) (U : Unicode) (junk : List Nat) (argv : List (List Nat)) : W (List Ch × List Ch) := do
  let name0 ← say (silent (rd argv 0))
  let (text0, opt) ← readFile exec_name errmsg U junk name0 textopt
  if opt.found_header then say (error exec_name (ascii "no correct file specified"))
  else do
    let name1 ← say (silent (rd argv 1))
    let (text1, _) ← readFile exec_name errmsg U junk name1 opt
    return (text0, text1)

/-! ## The programs that compare texts -/

/-- accuracy.c:28, 132-148 `main`. -/
def accuracy (errmsg : List Nat) (creatable : List Nat → Bool) (U : Unicode) (pct : Int → Int → List Nat) (junk : List Nat) : Program where
  usage := ascii "correctfile generatedfile [accuracy_report]"
  option := none
  body exec_name argv _ := do
    if argv.length < 2 ∨ argv.length > 3 then say (error exec_name (ascii "invalid number of files"))
    else do
      let (text0, text1) ← readPair exec_name errmsg U junk argv
      let D ← say (plain exec_name errmsg (Acc.accuracy U text0 text1))
      writeFile exec_name errmsg creatable argv[2]? (Acc.write_accrpt U pct D)

/-- editop.c:28, 227-245 `main`. -/
def editop (errmsg : List Nat) (creatable : List Nat → Bool) (U : Unicode) (junk : List Nat) : Program where
  usage := ascii "correctfile generatedfile [editop_report]"
  option := some Args.editopOptions
  body exec_name argv V := do
    if argv.length < 2 ∨ argv.length > 3 then say (error exec_name (ascii "invalid number of files"))
    else do
      let (text0, text1) ← readPair exec_name errmsg U junk argv
      let (D, out) ← say (plain exec_name errmsg (Edo.editopD (V.boolean 0) (text0.map Ch.value) (text1.map Ch.value)))
      put .stdout out
      writeFile exec_name errmsg creatable argv[2]? (.ok (Edo.write_edorpt D))

/-- wordacc.c:271: `init_stopwords(stopwordfilename)` (stopword.c:85-104). -/
def initStopwords (exec_name errmsg : List Nat) (U : Unicode) (prop : Nat → Word.WB) (nfc : List Nat → Option (List Nat)) (junk : List Nat)
    (junk' : Nat) (filename : Option (List Nat)) : W Stopword.State := do
  let file ← (match filename with
    | none => pure none
    | some filename => withFile exec_name filename (fun file => .ok [] (some file)))
  let S ← say (plain exec_name errmsg (Stopword.init_stopwords U prop nfc junk junk' file Stopword.State.start))
  say (warn exec_name S.warnings)
  return S

/-- wordacc.c:98-117, the loop of `setup`. -/
def readWords (exec_name errmsg : List Nat) (U : Unicode) (prop : Nat → Word.WB) (nfc : List Nat → Option (List Nat)) (junk : List Nat)
    (junk' : Nat) (argv : List (List Nat)) : W (List (List Nat) × List (List Nat)) := do
  let name0 ← say (silent (rd argv 0))
  let (text0, opt) ← readFile exec_name errmsg U junk name0 wordaccTextopt
  if opt.found_header then say (error exec_name (ascii "no correct file specified"))
  else do
    let words ← say (plain exec_name errmsg (Word.find_words U prop nfc junk' text0))
    let words0 ← say (silent (strings words))
    let name1 ← say (silent (rd argv 1))
    let (text1, _) ← readFile exec_name errmsg U junk name1 opt
    let words ← say (plain exec_name errmsg (Word.find_words U prop nfc junk' text1))
    let words1 ← say (silent (strings words))
    return (words0, words1)

/-- wordacc.c:28, 264-278 `main`. -/
def wordacc (errmsg : List Nat) (creatable : List Nat → Bool) (U : Unicode) (prop : Nat → Word.WB) (nfc : List Nat → Option (List Nat))
    (pct : Int → Int → List Nat) (junk : List Nat) (junk' : Nat) : Program where
  usage := ascii "[-S stopwordfile] correctfile generatedfile [wordacc_report]"
  option := some Args.wordaccOptions
  body exec_name argv V := do
    if argv.length < 2 ∨ argv.length > 3 then say (error exec_name (ascii "invalid number of files"))
    else do
      let S ← initStopwords exec_name errmsg U prop nfc junk junk' (V.string 0)
      let (words0, words1) ← readWords exec_name errmsg U prop nfc junk junk' argv
      let D ← say (plain exec_name errmsg (Wordacc.wordacc (fun w => decide (Stopword.is_stopword w S = .ok true)) words0 words1))
      writeFile exec_name errmsg creatable argv[2]? (Wac.write_wacrpt pct D)

/-- synctext.c:158-159: the texts of the files. -/
def readTexts (exec_name errmsg : List Nat) (U : Unicode) (junk : List Nat) : List (List Nat) → Textopt → W (List (List Ch))
  | [], _ => pure []
  | name :: names, opt => do
    let (text, opt) ← readFile exec_name errmsg U junk name opt
    let texts ← readTexts exec_name errmsg U junk names opt
    return text :: texts

/-- synctext.c:27, 147-177 `main`; what is printed before a function fails is not modelled. -/
def synctext (errmsg : List Nat) (U : Unicode) (junk : List Nat) : Program where
  usage := ascii "[-H] [-i] [-s] [-T] textfile1 textfile2 ... >resultfile"
  option := some Args.synctextOptions
  body exec_name argv V := do
    if argv.length < 2 ∨ (V.boolean 3 = true ∧ argv.length > 2) then say (error exec_name (ascii "invalid number of text files"))
    else do
      let texts ← readTexts exec_name errmsg U junk argv { Synctext.textopt with case_insensitive := V.boolean 1 }
      let text0 ← say (silent (rd texts 0))
      let text1 ← say (silent (rd texts 1))
      if V.boolean 3 then do
        let r ← say (plain exec_name errmsg (Sync.transpose_sync (text0.map Ch.value) (text1.map Ch.value)))
        let out1 ← say (plain exec_name errmsg (Synctext.write_transposed U (V.boolean 2) r.cells r.items1 text0))
        let out2 ← say (plain exec_name errmsg (Synctext.write_transposed U (V.boolean 2) r.cells r.items2 text1))
        put .stdout (out1 ++ out2 ++ Synctext.write_separator)
      else do
        let r ← say (plain exec_name errmsg
          (if V.boolean 0 = true ∨ argv.length > 2 then Sync.synchronize (texts.map (fun t => t.map Ch.value)) else Sync.fastukk_sync text0 text1))
        let out1 ← say (plain exec_name errmsg (Synctext.write_matches U (V.boolean 2) r.items texts))
        let out2 ← say (plain exec_name errmsg (Synctext.write_differences U (V.boolean 2) r.items texts argv))
        put .stdout (out1 ++ out2 ++ Synctext.write_separator)

/-! ## The programs that read any number of texts -/

/-- vote.c:29, 310-322 `main`. -/
def vote (errmsg : List Nat) (creatable : List Nat → Bool) (U : Unicode) (signed : Bool) (junk : List Nat) : Program where
  usage := ascii "[-O] [-o outputfile] [-s m/n] [-w m/n] textfile1 textfile2 ..."
  option := some Args.voteOptions
  body exec_name argv V := do
    if argv.length < Vote.MIN_VOTERS ∨ argv.length > Vote.MAX_VOTERS then say (error exec_name (ascii "invalid number of voters"))
    else do
      let (_, texts) ← forTexts exec_name errmsg (voteFile U junk) argv (Vote.textopt, [])
      let cfg ← say (validate_args exec_name signed argv.length (V.boolean 1) (V.string 1) (V.string 2))
      let (output, out) ← say (plain exec_name errmsg (Vote.voteTextsF U (V.boolean 0) (V.boolean 1) cfg argv texts))
      put .stdout out
      writeFile exec_name errmsg creatable (V.string 0) (write_text U output none)

/-- ngram.c:29, 167-179 `main`. -/
def ngram (errmsg : List Nat) (U : Unicode) (signed : Bool) (junk : List Nat) : Program where
  usage := ascii "[-n 1|2|3] textfile1 textfile2 ... >resultfile"
  option := some Args.ngramOptions
  body exec_name argv V := do
    if argv.length = 0 then say (error exec_name (ascii "no text files specified"))
    else do
      let n ← say (about exec_name ((V.string 0).getD []) (Ngram.get_n signed (V.string 0)))
      let (_, t) ← forTexts exec_name errmsg (ngramFile U junk n) argv (Ngram.textopt, ⟨[], 0, 0⟩)
      let bytes ← say (plain exec_name errmsg (Ngram.write_report t))
      put .stdout bytes

/-- wordfreq.c:28, 93-104 `main`. -/
def wordfreq (errmsg : List Nat) (U : Unicode) (prop : Nat → Word.WB) (nfc : List Nat → Option (List Nat)) (junk : List Nat) (junk' : Nat) :
    Program where
  usage := ascii "textfile1 textfile2 ... >resultfile"
  option := none
  body exec_name argv _ := do
    if argv.length = 0 then say (error exec_name (ascii "no text files specified"))
    else do
      let (_, t) ← forTexts exec_name errmsg (wordfreqFile U prop nfc junk junk') argv (Wordfreq.textopt, [])
      let bytes ← say (plain exec_name errmsg (Wordfreq.write_report t))
      put .stdout bytes

/-! ## The programs that read reports -/

/-- accsum.c:27, 33-45 `main`. -/
def accsum (errmsg : List Nat) (U : Unicode) (pct : Int → Int → List Nat) : Program where
  usage := ascii "accuracy_report1 accuracy_report2 ... >accuracy_report"
  option := none
  body exec_name argv _ := do
    if argv.length < 2 then say (error exec_name (ascii "not enough input files"))
    else do
      let D ← forReports exec_name Acc.read_accrpt argv Acc.Accdata.zero
      writeFile exec_name errmsg (fun _ => false) none (Acc.write_accrpt U pct D)

/-- wordaccsum.c:27, 33-45 `main`. -/
def wordaccsum (errmsg : List Nat) (pct : Int → Int → List Nat) : Program where
  usage := ascii "wordacc_report1 wordacc_report2 ... >wordacc_report"
  option := none
  body exec_name argv _ := do
    if argv.length < 2 then say (error exec_name (ascii "not enough input files"))
    else do
      let D ← forReports exec_name Wac.read_wacrpt argv Wac.Wacdata.zero
      writeFile exec_name errmsg (fun _ => false) none (Wac.write_wacrpt pct D)

/-- editopsum.c:28, 34-46 `main`. -/
def editopsum (errmsg : List Nat) : Program where
  usage := ascii "editop_report1 editop_report2 ... >editop_report"
  option := none
  body exec_name argv _ := do
    if argv.length < 2 then say (error exec_name (ascii "not enough input files"))
    else do
      let D ← forReports exec_name Edo.read_edorpt argv Edo.Edodata.zero
      writeFile exec_name errmsg (fun _ => false) none (.ok (Edo.write_edorpt D))

/-- editopcost.c:28, 59-74 `main`. -/
def editopcost : Program where
  usage := ascii "editop_report [editop_report2] >xyfile"
  option := none
  body exec_name argv _ := do
    if argv.length < 1 ∨ argv.length > 2 then say (error exec_name (ascii "invalid number of files"))
    else do
      let name0 ← say (silent (rd argv 0))
      let D ← withFile exec_name name0 (fun file => about exec_name name0 (Edo.read_edorpt Edo.Edodata.zero file))
      let D ← (if argv.length = 2 then do
          let name1 ← say (silent (rd argv 1))
          let D2 ← withFile exec_name name1 (fun file => about exec_name name1 (Edo.read_edorpt Edo.Edodata.zero file))
          pure (Edo.decrement_edodata D D2)
        else pure D)
      put .stdout (Edo.write_results D)

/-- accdist.c:28, 46-56 `main`; nothing is printed if there are no characters (dist.c:51-52). -/
def accdist (errmsg : List Nat) (negative : Bool) : Program where
  usage := ascii "accuracy_report1 accuracy_report2 ... >xyfile"
  option := none
  body exec_name argv _ := do
    let (_, dist) ← forReports exec_name accdistFileF argv (Acc.Accdata.zero, Dist.Dist.zero)
    writeFile exec_name errmsg (fun _ => false) none (.ok (Dist.write_dist (Fp.pctText negative 6) dist))

/-- wordaccdist.c:28, 47-57 `main`; nothing is printed if there are no words (dist.c:51-52). -/
def wordaccdist (errmsg : List Nat) (negative : Bool) : Program where
  usage := ascii "wordacc_report1 wordacc_report2 ... >xyfile"
  option := none
  body exec_name argv _ := do
    let (_, dist) ← forReports exec_name wordaccdistFileF argv (Wac.Wacdata.zero, Dist.Dist.zero)
    writeFile exec_name errmsg (fun _ => false) none (.ok (Dist.write_dist (Fp.pctText negative 6) dist))

/-- accci.c:28, 60-72 `main`. -/
def accci (errmsg : List Nat) (negative : Bool) : Program where
  usage := ascii "accuracy_report1 accuracy_report2 ... >resultfile"
  option := none
  body exec_name argv _ := do
    if argv.length < 2 then say (error exec_name (ascii "not enough input files"))
    else do
      let (D, l) ← forReports exec_name accciFile argv (Acc.Accdata.zero, Ci.Obslist.empty)
      let bytes ← say (plain exec_name errmsg (Ci.write_resultsF negative (ascii "Characters") (ascii "Errors") l D.characters D.errors))
      put .stdout bytes

/-- wordaccci.c:28, 61-73 `main`. -/
def wordaccci (errmsg : List Nat) (negative : Bool) : Program where
  usage := ascii "wordacc_report1 wordacc_report2 ... >resultfile"
  option := none
  body exec_name argv _ := do
    if argv.length < 2 then say (error exec_name (ascii "not enough input files"))
    else do
      let (D, l) ← forReports exec_name wordaccciFile argv (Wac.Wacdata.zero, Ci.Obslist.empty)
      let bytes ← say (plain exec_name errmsg (Ci.write_resultsF negative (ascii "Words") (ascii "Misrecognized") l D.total.count D.total.missed))
      put .stdout bytes

/-- groupacc.c:27, 76-87 `main`. -/
def groupacc (errmsg : List Nat) (creatable : List Nat → Bool) (U : Unicode) (pct : Int → Int → List Nat) (junk : List Nat) : Program where
  usage := ascii "groupfile accuracy_report [groupacc_report]"
  option := none
  body exec_name argv _ := do
    if argv.length < 2 ∨ argv.length > 3 then say (error exec_name (ascii "invalid number of files"))
    else do
      let name0 ← say (silent (rd argv 0))
      let (text, _) ← readFile exec_name errmsg U junk name0 Groupacc.textopt
      let name1 ← say (silent (rd argv 1))
      let D ← withFile exec_name name1 (fun file => about exec_name name1 (Acc.read_accrpt Acc.Accdata.zero file))
      writeFile exec_name errmsg creatable argv[2]? (Groupacc.write_report U pct text D)

/-- nonstopacc.c:27, 79-91 `main`. -/
def nonstopacc (errmsg : List Nat) (U : Unicode) (prop : Nat → Word.WB) (nfc : List Nat → Option (List Nat)) (pct : Int → Int → List Nat)
    (junk : List Nat) (junk' : Nat) : Program where
  usage := ascii "stopwordfile wordacc_report >xyfile"
  option := none
  body exec_name argv _ := do
    if argv.length ≠ 2 then say (error exec_name (ascii "invalid number of files"))
    else do
      let name0 ← say (silent (rd argv 0))
      let (text, _) ← readFile exec_name errmsg U junk name0 Nonstopacc.textopt
      let words ← say (plain exec_name errmsg (Word.find_words U prop nfc junk' text))
      let name1 ← say (silent (rd argv 1))
      let D ← withFile exec_name name1 (fun file => about exec_name name1 (Wac.read_wacrpt Wac.Wacdata.zero file))
      let bytes ← say (plain exec_name errmsg (Nonstopacc.write_results pct D words))
      put .stdout bytes

end Ocr.Disk
