import Verif.Spec.Programs
import Verif.Model.Programs
import Verif.Spec.Edit
import Verif.Spec.Accuracy

/-!
# Reports written by the programs, as input of other programs
-/

namespace Ocr.Spec
open Text Prog

/-- `correct` and `generated` are the texts of the two files named first on a command line with options `T`, possibly followed by the
name of a report. -/
structure Compares (U : Unicode) (fold : Bool) (T : List (Nat × Args.Kind)) (fs : Fs) (prog : List Nat) (args : List (List Nat))
    (ss : List Args.Setting) (correct generated : List Ch) : Prop where
  files : ∃ f0 f1 rest file0 file1, CommandLine T prog args (f0 :: f1 :: rest) ss ∧ rest.length ≤ 1 ∧ fs f0 = some file0 ∧
    fs f1 = some file1 ∧ ¬ Headed file0 ∧ IsPage U fold file0 correct ∧ HoldsText U fold file1 generated

/-- `report` was written by some run of `editop` on these texts. -/
def EditopReport (U : Unicode) (texts : List Ch × List Ch) (report : List Nat) : Prop :=
  ∃ junk fs prog args ss out, Compares U false [(68, .flag 0)] fs prog args ss texts.1 texts.2 ∧
    editopMain U junk fs (prog :: args) = .ok ⟨out, report⟩

/-- `report` was written by some run of `accuracy` on these texts. -/
def AccuracyReport (U : Unicode) (pct : Int → Int → List Nat) (texts : List Ch × List Ch) (report : List Nat) : Prop :=
  ∃ junk fs prog args ss out, Compares U false [] fs prog args ss texts.1 texts.2 ∧
    accuracyMain U pct junk fs (prog :: args) = .ok ⟨out, report⟩

/-- A page for `wordacc`: the words of the correct text, those of the generated text, and the stopwords. -/
structure WordPage where
  correct   : List (List Nat)
  generated : List (List Nat)
  stops     : List (List Nat)

/-- The words of a page can be processed: no empty or too long word, and not too many matches. -/
def Manageable (p : WordPage) : Prop :=
  (∀ w ∈ p.correct, 1 ≤ w.length ∧ w.length ≤ 50 ∧ 10 ∉ w ∧ 0 ∉ w) ∧
    (p.correct.filter (fun w => decide (w ∈ p.generated))).length ≤ 65535

/-- `report` was written by some run of `wordacc` on texts with these words. -/
def WordaccReport (U : Unicode) (prop : Nat → Word.WB) (nfc : List Nat → Option (List Nat)) (pct : Int → Int → List Nat) (p : WordPage)
    (report : List Nat) : Prop :=
  ∃ junk junk' fs prog args ss out t0 t1, Bytes junk ∧ Compares U true [(83, .value 0)] fs prog args ss t0 t1 ∧
    HasWords U prop nfc t0 p.correct ∧ HasWords U prop nfc t1 p.generated ∧ HasStopwords U prop nfc fs ss p.stops ∧
    wordaccMain U prop nfc pct junk junk' fs (prog :: args) = .ok ⟨out, report⟩

/-- The figures of a page for which `accuracy` has written a report: the number of characters of the correct text, reject characters aside,
and the number of errors. -/
structure AccuracyFigures (p : List Ch × List Ch) (o : Int × Int) : Prop where
  characters : o.1 = ((p.1.map Ch.value).filter (fun v => v ≠ 126)).length
  positive   : 0 ≤ o.2
  errors     : (∀ c ∈ p.1, c.value ≠ 126) → ∃ d : Nat, o.2 = d ∧ IsEditDistance (p.1.map Ch.value) (p.2.map Ch.value) d

/-- The figures of a page of words, `c` being a longest common subsequence: the number of words, and of those left over. -/
def wordFigures (p : WordPage) (c : List (List Nat)) : Int × Int := (p.correct.length, p.correct.length - c.length)

/-- The figures of the characters of the page with correct text `t`, according to an alignment: the occurrences, and those in unmatched
parts. -/
def characterFigures (t : List Ch) (items : List Sync.Sync) : Acc.Accdata :=
  { Acc.Accdata.zero with small_class := fun v => ⟨((t.map Ch.value).filter (fun v => v ≠ 126)).count v, (items.flatMap (Acc.itemMissed t)).count v⟩ }

end Ocr.Spec
