import Verif.Model.Args
import Verif.Model.Accuracy
import Verif.Model.Accrpt
import Verif.Model.Editop
import Verif.Model.Edorpt
import Verif.Model.Wordacc
import Verif.Model.Wacrpt
import Verif.Model.Stopword
import Verif.Model.Vote
import Verif.Model.NgramMain
import Verif.Model.Wordfreq

/-!
# The main programs, from the command line to the file written

The file system is a function from names to contents.  What is modelled of a run is the message of `error`, or the bytes
written and where they go; that a file to be written can be created is assumed.
-/

namespace Ocr.Prog
open Text

/-- The files that can be opened for reading (util.c:74-88). -/
abbrev Fs := List Nat → Option (List Nat)

/-- util.c:74-88 `open_file` for reading a file that is named. -/
def open_file (fs : Fs) (filename : List Nat) : Res (List Nat) :=
  match fs filename with
  | some file => .ok file
  | none => .err "unable to open file"

/-- What a program writes: the name of the file (`none`: standard output, util.c:78-79) and its content. -/
structure Output where
  filename : Option (List Nat)
  bytes    : List Nat
  deriving DecidableEq, Repr

/-- The variables set by options at program start (for instance vote.c:31-32). -/
def start : Args.Vars := ⟨fun _ => none, fun _ => false⟩

/-- text.c:216-236 `read_text` for an empty text and a named file. -/
def readFile (U : Unicode) (junk : List Nat) (fs : Fs) (filename : List Nat) (opt : Textopt) : Res (List Ch × Textopt) := do
  let file ← open_file fs filename
  read_text U junk [] file opt

/-- accuracy.c:32, editop.c:38. -/
def textopt : Textopt := ⟨true, true, 0, true, false, false⟩

/-- accuracy.c:140-143, editop.c:235-238: both texts. -/
def readPair (U : Unicode) (junk : List Nat) (fs : Fs) (argv : List (List Nat)) : Res (List Ch × List Ch) := do
  let name0 ← rd argv 0
  let (text0, opt) ← readFile U junk fs name0 textopt
  if opt.found_header then .err "no correct file specified"
  else do
    let name1 ← rd argv 1
    let (text1, _) ← readFile U junk fs name1 opt
    return (text0, text1)

/-- accuracy.c:132-148 `main`. -/
def accuracyMain (U : Unicode) (pct : Int → Int → List Nat) (junk : List Nat) (fs : Fs) (argv : List (List Nat)) : Res Output := do
  let (_, argv, _) ← Args.initialize_ none true argv start
  if argv.length < 2 ∨ argv.length > 3 then .err "invalid number of files"
  else do
    let (text0, text1) ← readPair U junk fs argv
    let D ← Acc.accuracy U text0 text1
    let bytes ← Acc.write_accrpt U pct D
    return ⟨argv[2]?, bytes⟩

/-- editop.c:227-245 `main`, without the output of option `-D` (see `editopDebug`). -/
def editopMain (U : Unicode) (junk : List Nat) (fs : Fs) (argv : List (List Nat)) : Res Output := do
  let (_, argv, _) ← Args.initialize_ (some Args.editopOptions) true argv start
  if argv.length < 2 ∨ argv.length > 3 then .err "invalid number of files"
  else do
    let (text0, text1) ← readPair U junk fs argv
    let D ← Edo.editop (text0.map Ch.value) (text1.map Ch.value)
    return ⟨argv[2]?, Edo.write_edorpt D⟩

/-- wordacc.c:38. -/
def wordaccTextopt : Textopt := ⟨true, true, 0, true, true, false⟩

/-- wordacc.c:104-115: the words of a text, looked up one after the other; a word that could not be normalized is a null
pointer. -/
def strings : List (Option (List Nat)) → Res (List (List Nat))
  | [] => .ok []
  | none :: _ => .ub
  | some w :: ws => do
    let ws ← strings ws
    return w :: ws

/-- wordacc.c:98-117, the loop of `setup`: the words of both texts. -/
def readWords (U : Unicode) (prop : Nat → Word.WB) (nfc : List Nat → Option (List Nat)) (junk : List Nat) (junk' : Nat) (fs : Fs)
    (argv : List (List Nat)) : Res (List (List Nat) × List (List Nat)) := do
  let name0 ← rd argv 0
  let (text0, opt) ← readFile U junk fs name0 wordaccTextopt
  if opt.found_header then .err "no correct file specified"
  else do
    let words ← Word.find_words U prop nfc junk' text0
    let words0 ← strings words
    let name1 ← rd argv 1
    let (text1, _) ← readFile U junk fs name1 opt
    let words ← Word.find_words U prop nfc junk' text1
    let words1 ← strings words
    return (words0, words1)

/-- wordacc.c:274: `init_stopwords(stopwordfilename)`. -/
def initStopwords (U : Unicode) (prop : Nat → Word.WB) (nfc : List Nat → Option (List Nat)) (junk : List Nat) (junk' : Nat) (fs : Fs)
    (filename : Option (List Nat)) : Res Stopword.State :=
  match filename with
  | none => Stopword.init_stopwords U prop nfc junk junk' none Stopword.State.start
  | some filename => do
    let file ← open_file fs filename
    Stopword.init_stopwords U prop nfc junk junk' (some file) Stopword.State.start

/-- wordacc.c:264-278 `main`. -/
def wordaccMain (U : Unicode) (prop : Nat → Word.WB) (nfc : List Nat → Option (List Nat)) (pct : Int → Int → List Nat) (junk : List Nat)
    (junk' : Nat) (fs : Fs) (argv : List (List Nat)) : Res Output := do
  let (_, argv, V) ← Args.initialize_ (some Args.wordaccOptions) true argv start
  if argv.length < 2 ∨ argv.length > 3 then .err "invalid number of files"
  else do
    let S ← initStopwords U prop nfc junk junk' fs (V.string 0)
    let (words0, words1) ← readWords U prop nfc junk junk' fs argv
    let D ← Wordacc.wordacc (fun w => decide (Stopword.is_stopword w S = .ok true)) words0 words1
    let bytes ← Wac.write_wacrpt pct D
    return ⟨argv[2]?, bytes⟩

/-- The loop of a main program over its files: each one is opened and processed before the next (for instance ngram.c:175-176,
accsum.c:41-42, vote.c:108-114). -/
def forFiles {α : Type} (fs : Fs) (step : α → List Nat → Res α) : (names : List (List Nat)) → α → Res α
  | [], a => .ok a
  | name :: names, a => do
    let file ← open_file fs name
    let a ← step a file
    forFiles fs step names a

/-- vote.c:113: `read_text` for one voter; the options and the texts so far are carried along. -/
def voteFile (U : Unicode) (junk : List Nat) (a : Textopt × List (List Ch)) (file : List Nat) : Res (Textopt × List (List Ch)) := do
  let (text, opt) ← read_text U junk [] file a.1
  return (opt, a.2 ++ [text])

/-- vote.c:310-322 `main` and vote.c:101-127 `validate_args`, without the output of option `-D` (see `voteDebug`). -/
def voteProgram (U : Unicode) (signed : Bool) (junk : List Nat) (fs : Fs) (argv : List (List Nat)) : Res Output := do
  let (_, argv, V) ← Args.initialize_ (some Args.voteOptions) true argv start
  if argv.length < Vote.MIN_VOTERS ∨ argv.length > Vote.MAX_VOTERS then .err "invalid number of voters"
  else do
    let (_, texts) ← forFiles fs (voteFile U junk) argv (Vote.textopt, [])
    let cfg ← Vote.validate_args signed argv.length (V.boolean 1) (V.string 1) (V.string 2)
    let output ← Vote.voteTexts U (V.boolean 1) cfg texts
    let bytes ← write_text U output none
    return ⟨V.string 0, bytes⟩

/-- ngram.c:93-119 `process_file`; the options and the table are carried along. -/
def ngramFile (U : Unicode) (junk : List Nat) (n : Nat) (a : Textopt × Ngram.Seqtable) (file : List Nat) :
    Res (Textopt × Ngram.Seqtable) := do
  let (text, opt) ← read_text U junk [] file a.1
  let t ← Ngram.startLoop U n text a.2
  return (opt, t)

/-- ngram.c:167-179 `main`. -/
def ngramProgram (U : Unicode) (signed : Bool) (junk : List Nat) (fs : Fs) (argv : List (List Nat)) : Res Output := do
  let (_, argv, V) ← Args.initialize_ (some Args.ngramOptions) true argv start
  if argv.length = 0 then .err "no text files specified"
  else do
    let n ← Ngram.get_n signed (V.string 0)
    let (_, t) ← forFiles fs (ngramFile U junk n) argv (Ngram.textopt, ⟨[], 0, 0⟩)
    let bytes ← Ngram.write_report t
    return ⟨none, bytes⟩

/-- wordfreq.c:39-49 `process_file`; the options and the table are carried along. -/
def wordfreqFile (U : Unicode) (prop : Nat → Word.WB) (nfc : List Nat → Option (List Nat)) (junk : List Nat) (junk' : Nat)
    (a : Textopt × List Term) (file : List Nat) : Res (Textopt × List Term) := do
  let (text, opt) ← read_text U junk [] file a.1
  let words ← Word.find_words U prop nfc junk' text
  let t ← Wordfreq.addWords words a.2
  return (opt, t)

/-- wordfreq.c:93-104 `main`. -/
def wordfreqProgram (U : Unicode) (prop : Nat → Word.WB) (nfc : List Nat → Option (List Nat)) (junk : List Nat) (junk' : Nat) (fs : Fs)
    (argv : List (List Nat)) : Res Output := do
  let (_, argv, _) ← Args.initialize_ none true argv start
  if argv.length = 0 then .err "no text files specified"
  else do
    let (_, t) ← forFiles fs (wordfreqFile U prop nfc junk junk') argv (Wordfreq.textopt, [])
    let bytes ← Wordfreq.write_report t
    return ⟨none, bytes⟩

/-- accsum.c:33-45 `main`. -/
def accsumProgram (U : Unicode) (pct : Int → Int → List Nat) (fs : Fs) (argv : List (List Nat)) : Res Output := do
  let (_, argv, _) ← Args.initialize_ none true argv start
  if argv.length < 2 then .err "not enough input files"
  else do
    let D ← forFiles fs Acc.read_accrpt argv Acc.Accdata.zero
    let bytes ← Acc.write_accrpt U pct D
    return ⟨none, bytes⟩

/-- wordaccsum.c:33-45 `main`. -/
def wordaccsumProgram (pct : Int → Int → List Nat) (fs : Fs) (argv : List (List Nat)) : Res Output := do
  let (_, argv, _) ← Args.initialize_ none true argv start
  if argv.length < 2 then .err "not enough input files"
  else do
    let D ← forFiles fs Wac.read_wacrpt argv Wac.Wacdata.zero
    let bytes ← Wac.write_wacrpt pct D
    return ⟨none, bytes⟩

/-- editopsum.c:34-46 `main`. -/
def editopsumProgram (fs : Fs) (argv : List (List Nat)) : Res Output := do
  let (_, argv, _) ← Args.initialize_ none true argv start
  if argv.length < 2 then .err "not enough input files"
  else do
    let D ← forFiles fs Edo.read_edorpt argv Edo.Edodata.zero
    return ⟨none, Edo.write_edorpt D⟩

/-- editopcost.c:59-74 `main`. -/
def editopcostProgram (fs : Fs) (argv : List (List Nat)) : Res Output := do
  let (_, argv, _) ← Args.initialize_ none true argv start
  if argv.length < 1 ∨ argv.length > 2 then .err "invalid number of files"
  else do
    let name0 ← rd argv 0
    let file0 ← open_file fs name0
    let D ← Edo.read_edorpt Edo.Edodata.zero file0
    let D ← (if argv.length = 2 then do
        let name1 ← rd argv 1
        let file1 ← open_file fs name1
        let D2 ← Edo.read_edorpt Edo.Edodata.zero file1
        pure (Edo.decrement_edodata D D2)
      else pure D)
    return ⟨none, Edo.write_results D⟩

end Ocr.Prog
