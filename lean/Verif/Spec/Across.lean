import Verif.Model.Programs
import Verif.Spec.Args
import Verif.Spec.TextEndings

/-!
# Figures of runs over several files

What a run over two files reports, as read from its report.
-/

namespace Ocr.Across
open Text Spec Prog AnyText Ending

/-- A name that stands for a file on the command line. -/
def Name (f : List Nat) : Prop := 0 ∉ f ∧ ¬ Args.Dashed f

/-- A file without header that holds the text `t`, without `~` and without U+10FFFF. -/
def TextFile (U : Unicode) (fs : Fs) (f : List Nat) (t : List Ch) : Prop :=
  Name f ∧ (∃ file, fs f = some file ∧ ¬ Headed file ∧ TextOf U false file t) ∧
    (∀ c ∈ t, c.value ≠ REJECT_CHARACTER ∧ c.value ≠ 0x10FFFF) ∧ t.length < 5 * 10^7

/-- A file without header that holds the words `u`, which can be written to a report. -/
def WordFile (U : Unicode) (prop : Nat → Word.WB) (nfc : List Nat → Option (List Nat)) (fs : Fs) (f : List Nat) (u : List (List Nat)) : Prop :=
  Name f ∧ (∃ file, fs f = some file ∧ ¬ Headed file ∧ ReadsWords U prop nfc file u) ∧
    (∀ w ∈ u, 1 ≤ w.length ∧ w.length ≤ 50 ∧ 10 ∉ w ∧ 0 ∉ w) ∧ u.length ≤ 65535

/-- `accuracy f g` reports `n` characters and `e` errors. -/
def Accuracy (U : Unicode) (pct : Int → Int → List Nat) (junk : List Nat) (fs : Fs) (f g : List Nat) (n e : Nat) : Prop :=
  ∃ bytes E, accuracyMain U pct junk fs [ascii "accuracy", f, g] = .ok ⟨none, bytes⟩ ∧
    Acc.read_accrpt Acc.Accdata.zero bytes = .ok E ∧ E.characters = n ∧ E.errors = e

/-- `wordacc f g` reports `n` words, `m` of them misrecognized. -/
def Wordacc (U : Unicode) (prop : Nat → Word.WB) (nfc : List Nat → Option (List Nat)) (pct : Int → Int → List Nat) (junk : List Nat)
    (junk' : Nat) (fs : Fs) (f g : List Nat) (n m : Nat) : Prop :=
  ∃ bytes E, wordaccMain U prop nfc pct junk junk' fs [ascii "wordacc", f, g] = .ok ⟨none, bytes⟩ ∧
    Wac.read_wacrpt Wac.Wacdata.zero bytes = .ok E ∧ E.total.count = n ∧ E.total.missed = m

/-- `editop f g` reports `i` insertions and `d` deletions. -/
def Editop (U : Unicode) (junk : List Nat) (fs : Fs) (f g : List Nat) (i d : Nat) : Prop :=
  ∃ bytes E, editopMain U junk fs [ascii "editop", f, g] = .ok ⟨none, bytes⟩ ∧
    Edo.read_edorpt Edo.Edodata.zero bytes = .ok E ∧ E.total_insertions = i ∧ E.total_deletions = d

end Ocr.Across
