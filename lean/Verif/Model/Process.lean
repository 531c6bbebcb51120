import Verif.Model.ReportPrograms
import Verif.Model.FloatPrograms
import Verif.Model.FloatCi
import Verif.Model.FloatVote
import Verif.Model.EditopDebug
import Verif.Model.Synctext

/-!
# The programs with their messages and exit status

The functions here are the main programs once more, with what is printed on `stderr` and the status given to `exit`, and with files
that cannot be created.  What has been written to other files when a program stops early is not modelled.
-/

namespace Ocr.Process
open Text Prog

/-- How a run goes on or ends (util.c:249-284): with a value, having printed `err`; by `exit` with a status, having printed `err`; by a
failed assertion (word.c:254). -/
inductive Out (α : Type) where
  | ok (err : List Nat) (a : α)
  | exit (status : Nat) (err : List Nat)
  | abort
  | ub
  | fuel
  deriving DecidableEq

/-- The same after `w` has been printed on `stderr` (util.c:265-284 print one after the other). -/
def Out.after {α : Type} (w : List Nat) : Out α → Out α
  | .ok e a => .ok (w ++ e) a
  | .exit s e => .exit s (w ++ e)
  | .abort => .abort
  | .ub => .ub
  | .fuel => .fuel

/-- One part of a program after the other; `exit` ends the program (util.c:249-256). -/
def Out.bind {α β : Type} (o : Out α) (f : α → Out β) : Out β :=
  match o with
  | .ok e a => (f a).after e
  | .exit s e => .exit s e
  | .abort => .abort
  | .ub => .ub
  | .fuel => .fuel

/-- See `Out.bind` (util.c:249-256). -/
instance : Monad Out where
  pure a := .ok [] a
  bind := Out.bind

/-- util.c:265-270 `error`; `errstatus` is 1 (util.c:44) and no program changes it. -/
def error {α : Type} (exec_name message : List Nat) : Out α := .exit 1 (exec_name ++ ascii ": " ++ message ++ ascii "\n")

/-- util.c:273-278 `error_string`. -/
def error_string {α : Type} (exec_name message string : List Nat) : Out α :=
  .exit 1 (exec_name ++ ascii ": " ++ message ++ ascii " \"" ++ string ++ ascii "\"\n")

/-- util.c:280-284 `warning_string`. -/
def warning_string (exec_name message string : List Nat) : Out Unit :=
  .ok (exec_name ++ ascii ": " ++ message ++ ascii " \"" ++ string ++ ascii "\"\n") ()

/-- util.c:173-181 `show_usage`: `usage_routine` is a null pointer in all programs; `terminate` exits with status 0 (util.c:259-262). -/
def show_usage {α : Type} (exec_name usage : List Nat) : Out α :=
  .exit 0 (ascii "Usage:  " ++ exec_name ++ ascii " " ++ usage ++ ascii "\n")

/-- A part of a program in which all messages are those of `error` (util.c:265-270).  The text of `utf8proc_errmsg` (text.c:122) is a
parameter; a failed assertion (word.c:254) is no call of `error`. -/
def plain {α : Type} (exec_name errmsg : List Nat) : Res α → Out α
  | .ok a => .ok [] a
  | .err m =>
    if m = "utf8proc_errmsg" then error exec_name errmsg
    else if m = "assertion encoded_length > 0 failed" then .abort
    else error exec_name (ascii m)
  | .ub => .ub
  | .fuel => .fuel

/-- A part of a program in which all messages are those of `error_string` about `string` (util.c:273-278). -/
def about {α : Type} (exec_name string : List Nat) : Res α → Out α
  | .ok a => .ok [] a
  | .err m => error_string exec_name (ascii m) string
  | .ub => .ub
  | .fuel => .fuel

/-- A part of a program that calls neither `error` nor `error_string` (util.c:265-278), such as reading `argv[i]`. -/
def silent {α : Type} : Res α → Out α := about [] []

/-! ## The command line -/

/-- util.c:224-233, the body of the loop of `parse_args` (see `Args.argStep`). -/
def argStep (exec_name usage : List Nat) (option : Option (List Args.Opt)) (argc i j : Nat) (argv : List (List Nat)) (V : Args.Vars) :
    Out (Nat × Nat × List (List Nat) × Args.Vars) := do
  let arg ← silent (rd argv i)
  let b ← silent (Args.isOption arg)
  if b then
    if Args.isHelp arg then show_usage exec_name usage
    else do
      let next ← silent (if i + 1 < argc then do let a ← rd argv (i + 1); return some a else return none : Res (Option (List Nat)))
      let (used, V) ← about exec_name arg (Args.split_option option arg next V)
      return (if used then i + 2 else i + 1, j, argv, V)
  else do
    let argv ← silent (wr argv j arg)
    return (i + 1, j + 1, argv, V)

/-- util.c:223-233, the loop of `parse_args` (see `Args.argsLoop`). -/
def argsLoop (exec_name usage : List Nat) (option : Option (List Args.Opt)) (argc : Nat) : (fuel i j : Nat) → (argv : List (List Nat)) →
    (V : Args.Vars) → Out (List (List Nat) × Nat × Args.Vars)
  | 0, _, _, _, _ => .fuel
  | fuel + 1, i, j, argv, V =>
    if i < argc then
      if 32767 < i then .ub
      else do
        let (i, j, argv, V) ← argStep exec_name usage option argc i j argv V
        argsLoop exec_name usage option argc fuel i j argv V
    else .ok [] (argv, j, V)

/-- util.c:215-235 `parse_args`; `usage_when_no_args` is `True` (util.c:39) and no program changes it. -/
def parse_args (exec_name usage : List Nat) (option : Option (List Args.Opt)) (argv : List (List Nat)) (V : Args.Vars) :
    Out (List (List Nat) × Nat × Args.Vars) :=
  if argv.length = 1 then show_usage exec_name usage
  else argsLoop exec_name usage option argv.length argv.length 1 0 argv V

/-- util.c:238-246 `initialize`: `exec_name`, the arguments left, and the variables. -/
def initialize_ (usage : List Nat) (option : Option (List Args.Opt)) (argv : List (List Nat)) (V : Args.Vars) :
    Out (List Nat × List (List Nat) × Args.Vars) := do
  let path ← silent (rd argv 0)
  let exec_name ← silent (Args.basefilename path)
  let (argv, argc, V) ← parse_args exec_name usage option argv V
  return (exec_name, argv.take argc, V)

/-- A program: what `main` gives to `initialize`, and the rest of `main` (for instance accsum.c:33-45). -/
structure Program (α : Type) where
  usage  : List Nat
  option : Option (List Args.Opt)
  body   : (exec_name : List Nat) → (argv : List (List Nat)) → (V : Args.Vars) → Out α

/-- A run of a program (for instance accsum.c:33-45). -/
def Program.run {α : Type} (P : Program α) (argv : List (List Nat)) : Out α := do
  let (exec_name, argv, V) ← initialize_ P.usage P.option argv start
  P.body exec_name argv V

/-! ## Files -/

/-- util.c:74-88 `open_file` for writing; `creatable` are the names of files that can be created, `none` is standard output. -/
def create (exec_name : List Nat) (creatable : List Nat → Bool) : Option (List Nat) → Out Unit
  | none => .ok [] ()
  | some filename => if creatable filename then .ok [] () else error_string exec_name (ascii "unable to create file") filename

/-- The loop of a main program over its files (see `Prog.forFiles`; for instance ngram.c:175-176, accsum.c:41-42, vote.c:108-114). -/
def forFiles {α : Type} (exec_name : List Nat) (fs : Fs) (step : (name : List Nat) → α → (file : List Nat) → Out α) :
    (names : List (List Nat)) → α → Out α
  | [], a => .ok [] a
  | name :: names, a => do
    let file ← about exec_name name (open_file fs name)
    let a ← step name a file
    forFiles exec_name fs step names a

/-- The same for report files: the messages of accrpt.c:246, accrpt.c:252, edorpt.c:84 and wacrpt.c:150 name the file. -/
def forReports {α : Type} (exec_name : List Nat) (fs : Fs) (step : α → List Nat → Res α) (names : List (List Nat)) (a : α) : Out α :=
  forFiles exec_name fs (fun name a file => about exec_name name (step a file)) names a

/-- The same for text files: the messages of text.c:99-122 do not name the file. -/
def forTexts {α : Type} (exec_name errmsg : List Nat) (fs : Fs) (step : α → List Nat → Res α) (names : List (List Nat)) (a : α) : Out α :=
  forFiles exec_name fs (fun _ a file => plain exec_name errmsg (step a file)) names a

/-- text.c:216-236 `read_text` for an empty text and a named file (see `Prog.readFile`). -/
def readFile (exec_name errmsg : List Nat) (U : Unicode) (junk : List Nat) (fs : Fs) (filename : List Nat) (opt : Textopt) :
    Out (List Ch × Textopt) := do
  let file ← about exec_name filename (open_file fs filename)
  plain exec_name errmsg (read_text U junk [] file opt)

/-- accuracy.c:140-143, editop.c:235-238: both texts (see `Prog.readPair`). -/
def readPair (exec_name errmsg : List Nat) (U : Unicode) (junk : List Nat) (fs : Fs) (argv : List (List Nat)) : Out (List Ch × List Ch) := do
  let name0 ← silent (rd argv 0)
  let (text0, opt) ← readFile exec_name errmsg U junk fs name0 textopt
  if opt.found_header then error exec_name (ascii "no correct file specified")
  else do
    let name1 ← silent (rd argv 1)
    let (text1, _) ← readFile exec_name errmsg U junk fs name1 opt
    return (text0, text1)

/-! ## The programs that compare texts -/

/-- accuracy.c:28, 132-148 `main`. -/
def accuracy (errmsg : List Nat) (creatable : List Nat → Bool) (U : Unicode) (pct : Int → Int → List Nat) (junk : List Nat) (fs : Fs) :
    Program Output where
  usage := ascii "correctfile generatedfile [accuracy_report]"
  option := none
  body exec_name argv _ := do
    if argv.length < 2 ∨ argv.length > 3 then error exec_name (ascii "invalid number of files")
    else do
      let (text0, text1) ← readPair exec_name errmsg U junk fs argv
      let D ← plain exec_name errmsg (Acc.accuracy U text0 text1)
      create exec_name creatable argv[2]?
      let bytes ← plain exec_name errmsg (Acc.write_accrpt U pct D)
      return ⟨argv[2]?, bytes⟩

/-- editop.c:28, 227-245 `main`: what is printed on `stdout` before the report, and the report. -/
def editop (errmsg : List Nat) (creatable : List Nat → Bool) (U : Unicode) (junk : List Nat) (fs : Fs) : Program (List Nat × Output) where
  usage := ascii "correctfile generatedfile [editop_report]"
  option := some Args.editopOptions
  body exec_name argv V := do
    if argv.length < 2 ∨ argv.length > 3 then error exec_name (ascii "invalid number of files")
    else do
      let (text0, text1) ← readPair exec_name errmsg U junk fs argv
      let (D, out) ← plain exec_name errmsg (Edo.editopD (V.boolean 0) (text0.map Ch.value) (text1.map Ch.value))
      create exec_name creatable argv[2]?
      return (out, ⟨argv[2]?, Edo.write_edorpt D⟩)

/-- stopword.c:74-75: the warnings. -/
def warn (exec_name : List Nat) : List (List Nat) → Out Unit
  | [] => .ok [] ()
  | w :: ws => do
    warning_string exec_name (ascii "duplicate stopword") w
    warn exec_name ws

/-- wordacc.c:271: `init_stopwords(stopwordfilename)`.  The warnings are printed when the words are saved; nothing else is printed
before that is done. -/
def initStopwords (exec_name errmsg : List Nat) (U : Unicode) (prop : Nat → Word.WB) (nfc : List Nat → Option (List Nat)) (junk : List Nat)
    (junk' : Nat) (fs : Fs) (filename : Option (List Nat)) : Out Stopword.State := do
  let file ← (match filename with
    | none => pure none
    | some filename => do
      let file ← about exec_name filename (open_file fs filename)
      return some file)
  let S ← plain exec_name errmsg (Stopword.init_stopwords U prop nfc junk junk' file Stopword.State.start)
  warn exec_name S.warnings
  return S

/-- wordacc.c:98-117, the loop of `setup` (see `Prog.readWords`). -/
def readWords (exec_name errmsg : List Nat) (U : Unicode) (prop : Nat → Word.WB) (nfc : List Nat → Option (List Nat)) (junk : List Nat)
    (junk' : Nat) (fs : Fs) (argv : List (List Nat)) : Out (List (List Nat) × List (List Nat)) := do
  let name0 ← silent (rd argv 0)
  let (text0, opt) ← readFile exec_name errmsg U junk fs name0 wordaccTextopt
  if opt.found_header then error exec_name (ascii "no correct file specified")
  else do
    let words ← plain exec_name errmsg (Word.find_words U prop nfc junk' text0)
    let words0 ← silent (strings words)
    let name1 ← silent (rd argv 1)
    let (text1, _) ← readFile exec_name errmsg U junk fs name1 opt
    let words ← plain exec_name errmsg (Word.find_words U prop nfc junk' text1)
    let words1 ← silent (strings words)
    return (words0, words1)

/-- wordacc.c:28, 264-278 `main`. -/
def wordacc (errmsg : List Nat) (creatable : List Nat → Bool) (U : Unicode) (prop : Nat → Word.WB) (nfc : List Nat → Option (List Nat))
    (pct : Int → Int → List Nat) (junk : List Nat) (junk' : Nat) (fs : Fs) : Program Output where
  usage := ascii "[-S stopwordfile] correctfile generatedfile [wordacc_report]"
  option := some Args.wordaccOptions
  body exec_name argv V := do
    if argv.length < 2 ∨ argv.length > 3 then error exec_name (ascii "invalid number of files")
    else do
      let S ← initStopwords exec_name errmsg U prop nfc junk junk' fs (V.string 0)
      let (words0, words1) ← readWords exec_name errmsg U prop nfc junk junk' fs argv
      let D ← plain exec_name errmsg (Wordacc.wordacc (fun w => decide (Stopword.is_stopword w S = .ok true)) words0 words1)
      create exec_name creatable argv[2]?
      let bytes ← plain exec_name errmsg (Wac.write_wacrpt pct D)
      return ⟨argv[2]?, bytes⟩

/-- synctext.c:158-159: the texts of the files (see `Synctext.readTexts`). -/
def readTexts (exec_name errmsg : List Nat) (U : Unicode) (junk : List Nat) (fs : Fs) : List (List Nat) → Textopt → Out (List (List Ch))
  | [], _ => .ok [] []
  | name :: names, opt => do
    let (text, opt) ← readFile exec_name errmsg U junk fs name opt
    let texts ← readTexts exec_name errmsg U junk fs names opt
    return text :: texts

/-- synctext.c:27, 147-177 `main` (see `Synctext.run`). -/
def synctext (errmsg : List Nat) (U : Unicode) (junk : List Nat) (fs : Fs) : Program (List Nat) where
  usage := ascii "[-H] [-i] [-s] [-T] textfile1 textfile2 ... >resultfile"
  option := some Args.synctextOptions
  body exec_name argv V := do
    if argv.length < 2 ∨ (V.boolean 3 = true ∧ argv.length > 2) then error exec_name (ascii "invalid number of text files")
    else do
      let texts ← readTexts exec_name errmsg U junk fs argv { Synctext.textopt with case_insensitive := V.boolean 1 }
      let text0 ← silent (rd texts 0)
      let text1 ← silent (rd texts 1)
      if V.boolean 3 then do
        let r ← plain exec_name errmsg (Sync.transpose_sync (text0.map Ch.value) (text1.map Ch.value))
        let out1 ← plain exec_name errmsg (Synctext.write_transposed U (V.boolean 2) r.cells r.items1 text0)
        let out2 ← plain exec_name errmsg (Synctext.write_transposed U (V.boolean 2) r.cells r.items2 text1)
        return out1 ++ out2 ++ Synctext.write_separator
      else do
        let r ← plain exec_name errmsg
          (if V.boolean 0 = true ∨ argv.length > 2 then Sync.synchronize (texts.map (fun t => t.map Ch.value)) else Sync.fastukk_sync text0 text1)
        let out1 ← plain exec_name errmsg (Synctext.write_matches U (V.boolean 2) r.items texts)
        let out2 ← plain exec_name errmsg (Synctext.write_differences U (V.boolean 2) r.items texts argv)
        return out1 ++ out2 ++ Synctext.write_separator

/-! ## The programs that read any number of texts -/

/-- vote.c:101-127 `validate_args` after the files have been read (see `Vote.validate_args`). -/
def validate_args (exec_name : List Nat) (signed : Bool) (argc : Nat) (optimize : Bool) (sfraction wfraction : Option (List Nat)) :
    Out Vote.Config := do
  let actual := if ¬ optimize ∨ argc < 3 then argc else 3
  let (sw, uw) ← about exec_name (wfraction.getD []) (Vote.weightOption signed wfraction)
  let threshold ← about exec_name (sfraction.getD []) (Vote.thresholdOption signed actual uw sfraction)
  return ⟨actual, threshold, sw, uw⟩

/-- vote.c:29, 310-322 `main`: what is printed on `stdout` before the output, and the output. -/
def vote (errmsg : List Nat) (creatable : List Nat → Bool) (U : Unicode) (signed : Bool) (junk : List Nat) (fs : Fs) :
    Program (List Nat × Output) where
  usage := ascii "[-O] [-o outputfile] [-s m/n] [-w m/n] textfile1 textfile2 ..."
  option := some Args.voteOptions
  body exec_name argv V := do
    if argv.length < Vote.MIN_VOTERS ∨ argv.length > Vote.MAX_VOTERS then error exec_name (ascii "invalid number of voters")
    else do
      let (_, texts) ← forTexts exec_name errmsg fs (voteFile U junk) argv (Vote.textopt, [])
      let cfg ← validate_args exec_name signed argv.length (V.boolean 1) (V.string 1) (V.string 2)
      let (output, out) ← plain exec_name errmsg (Vote.voteTextsF U (V.boolean 0) (V.boolean 1) cfg argv texts)
      create exec_name creatable (V.string 0)
      let bytes ← plain exec_name errmsg (write_text U output none)
      return (out, ⟨V.string 0, bytes⟩)

/-- ngram.c:29, 167-179 `main`. -/
def ngram (errmsg : List Nat) (U : Unicode) (signed : Bool) (junk : List Nat) (fs : Fs) : Program Output where
  usage := ascii "[-n 1|2|3] textfile1 textfile2 ... >resultfile"
  option := some Args.ngramOptions
  body exec_name argv V := do
    if argv.length = 0 then error exec_name (ascii "no text files specified")
    else do
      let n ← about exec_name ((V.string 0).getD []) (Ngram.get_n signed (V.string 0))
      let (_, t) ← forTexts exec_name errmsg fs (ngramFile U junk n) argv (Ngram.textopt, ⟨[], 0, 0⟩)
      let bytes ← plain exec_name errmsg (Ngram.write_report t)
      return ⟨none, bytes⟩

/-- wordfreq.c:28, 93-104 `main`. -/
def wordfreq (errmsg : List Nat) (U : Unicode) (prop : Nat → Word.WB) (nfc : List Nat → Option (List Nat)) (junk : List Nat) (junk' : Nat)
    (fs : Fs) : Program Output where
  usage := ascii "textfile1 textfile2 ... >resultfile"
  option := none
  body exec_name argv _ := do
    if argv.length = 0 then error exec_name (ascii "no text files specified")
    else do
      let (_, t) ← forTexts exec_name errmsg fs (wordfreqFile U prop nfc junk junk') argv (Wordfreq.textopt, [])
      let bytes ← plain exec_name errmsg (Wordfreq.write_report t)
      return ⟨none, bytes⟩

/-! ## The programs that read reports -/

/-- accsum.c:27, 33-45 `main`. -/
def accsum (errmsg : List Nat) (U : Unicode) (pct : Int → Int → List Nat) (fs : Fs) : Program Output where
  usage := ascii "accuracy_report1 accuracy_report2 ... >accuracy_report"
  option := none
  body exec_name argv _ := do
    if argv.length < 2 then error exec_name (ascii "not enough input files")
    else do
      let D ← forReports exec_name fs Acc.read_accrpt argv Acc.Accdata.zero
      let bytes ← plain exec_name errmsg (Acc.write_accrpt U pct D)
      return ⟨none, bytes⟩

/-- wordaccsum.c:27, 33-45 `main`. -/
def wordaccsum (errmsg : List Nat) (pct : Int → Int → List Nat) (fs : Fs) : Program Output where
  usage := ascii "wordacc_report1 wordacc_report2 ... >wordacc_report"
  option := none
  body exec_name argv _ := do
    if argv.length < 2 then error exec_name (ascii "not enough input files")
    else do
      let D ← forReports exec_name fs Wac.read_wacrpt argv Wac.Wacdata.zero
      let bytes ← plain exec_name errmsg (Wac.write_wacrpt pct D)
      return ⟨none, bytes⟩

/-- editopsum.c:28, 34-46 `main`. -/
def editopsum (fs : Fs) : Program Output where
  usage := ascii "editop_report1 editop_report2 ... >editop_report"
  option := none
  body exec_name argv _ := do
    if argv.length < 2 then error exec_name (ascii "not enough input files")
    else do
      let D ← forReports exec_name fs Edo.read_edorpt argv Edo.Edodata.zero
      return ⟨none, Edo.write_edorpt D⟩

/-- editopcost.c:28, 59-74 `main`. -/
def editopcost (fs : Fs) : Program Output where
  usage := ascii "editop_report [editop_report2] >xyfile"
  option := none
  body exec_name argv _ := do
    if argv.length < 1 ∨ argv.length > 2 then error exec_name (ascii "invalid number of files")
    else do
      let name0 ← silent (rd argv 0)
      let file0 ← about exec_name name0 (open_file fs name0)
      let D ← about exec_name name0 (Edo.read_edorpt Edo.Edodata.zero file0)
      let D ← (if argv.length = 2 then do
          let name1 ← silent (rd argv 1)
          let file1 ← about exec_name name1 (open_file fs name1)
          let D2 ← about exec_name name1 (Edo.read_edorpt Edo.Edodata.zero file1)
          pure (Edo.decrement_edodata D D2)
        else pure D)
      return ⟨none, Edo.write_results D⟩

/-- accdist.c:28, 46-56 `main`. -/
def accdist (negative : Bool) (fs : Fs) : Program Output where
  usage := ascii "accuracy_report1 accuracy_report2 ... >xyfile"
  option := none
  body exec_name argv _ := do
    let (_, dist) ← forReports exec_name fs accdistFileF argv (Acc.Accdata.zero, Dist.Dist.zero)
    return ⟨none, Dist.write_dist (Fp.pctText negative 6) dist⟩

/-- wordaccdist.c:28, 47-57 `main`. -/
def wordaccdist (negative : Bool) (fs : Fs) : Program Output where
  usage := ascii "wordacc_report1 wordacc_report2 ... >xyfile"
  option := none
  body exec_name argv _ := do
    let (_, dist) ← forReports exec_name fs wordaccdistFileF argv (Wac.Wacdata.zero, Dist.Dist.zero)
    return ⟨none, Dist.write_dist (Fp.pctText negative 6) dist⟩

/-- accci.c:28, 60-72 `main`. -/
def accci (errmsg : List Nat) (negative : Bool) (fs : Fs) : Program Output where
  usage := ascii "accuracy_report1 accuracy_report2 ... >resultfile"
  option := none
  body exec_name argv _ := do
    if argv.length < 2 then error exec_name (ascii "not enough input files")
    else do
      let (D, l) ← forReports exec_name fs accciFile argv (Acc.Accdata.zero, Ci.Obslist.empty)
      let bytes ← plain exec_name errmsg (Ci.write_resultsF negative (ascii "Characters") (ascii "Errors") l D.characters D.errors)
      return ⟨none, bytes⟩

/-- wordaccci.c:28, 61-73 `main`. -/
def wordaccci (errmsg : List Nat) (negative : Bool) (fs : Fs) : Program Output where
  usage := ascii "wordacc_report1 wordacc_report2 ... >resultfile"
  option := none
  body exec_name argv _ := do
    if argv.length < 2 then error exec_name (ascii "not enough input files")
    else do
      let (D, l) ← forReports exec_name fs wordaccciFile argv (Wac.Wacdata.zero, Ci.Obslist.empty)
      let bytes ← plain exec_name errmsg (Ci.write_resultsF negative (ascii "Words") (ascii "Misrecognized") l D.total.count D.total.missed)
      return ⟨none, bytes⟩

/-- groupacc.c:27, 76-87 `main`. -/
def groupacc (errmsg : List Nat) (creatable : List Nat → Bool) (U : Unicode) (pct : Int → Int → List Nat) (junk : List Nat) (fs : Fs) :
    Program Output where
  usage := ascii "groupfile accuracy_report [groupacc_report]"
  option := none
  body exec_name argv _ := do
    if argv.length < 2 ∨ argv.length > 3 then error exec_name (ascii "invalid number of files")
    else do
      let name0 ← silent (rd argv 0)
      let (text, _) ← readFile exec_name errmsg U junk fs name0 Groupacc.textopt
      let name1 ← silent (rd argv 1)
      let report ← about exec_name name1 (open_file fs name1)
      let D ← about exec_name name1 (Acc.read_accrpt Acc.Accdata.zero report)
      create exec_name creatable argv[2]?
      let bytes ← plain exec_name errmsg (Groupacc.write_report U pct text D)
      return ⟨argv[2]?, bytes⟩

/-- nonstopacc.c:27, 79-91 `main`. -/
def nonstopacc (errmsg : List Nat) (U : Unicode) (prop : Nat → Word.WB) (nfc : List Nat → Option (List Nat)) (pct : Int → Int → List Nat)
    (junk : List Nat) (junk' : Nat) (fs : Fs) : Program Output where
  usage := ascii "stopwordfile wordacc_report >xyfile"
  option := none
  body exec_name argv _ := do
    if argv.length ≠ 2 then error exec_name (ascii "invalid number of files")
    else do
      let name0 ← silent (rd argv 0)
      let (text, _) ← readFile exec_name errmsg U junk fs name0 Nonstopacc.textopt
      let words ← plain exec_name errmsg (Word.find_words U prop nfc junk' text)
      let name1 ← silent (rd argv 1)
      let report ← about exec_name name1 (open_file fs name1)
      let D ← about exec_name name1 (Wac.read_wacrpt Wac.Wacdata.zero report)
      let bytes ← plain exec_name errmsg (Nonstopacc.write_results pct D words)
      return ⟨none, bytes⟩

end Ocr.Process
