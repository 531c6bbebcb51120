import Verif.Spec.Args
import Verif.Spec.Word
import Verif.Spec.Page
import Verif.Model.Stopword
import Verif.Spec.Vote

/-!
# Command lines and words, for the statements about whole programs
-/

namespace Ocr.Spec

/-- The arguments `args` of the program called `prog` are the operands `ops` and the settings `ss`, according to the table `T`. -/
structure CommandLine (T : List (Nat × Args.Kind)) (prog : List Nat) (args ops : List (List Nat)) (ss : List Args.Setting) : Prop where
  prog  : prog.length ≤ 32768
  many  : args.length < 32768
  nul   : ∀ a ∈ args, 0 ∉ a
  some  : args ≠ []
  parse : Args.Parse T args ops ss
  once  : Args.Once ss

/-- The words of a text: the strings of those segments that begin with a word character.  (`nfc` normalizes; a text of nothing but
Extend and Format characters is left out here, see C35.) -/
def HasWords (U : Unicode) (prop : Nat → Word.WB) (nfc : List Nat → Option (List Nat)) (t : List Text.Ch) (u : List (List Nat)) : Prop :=
  (∀ c ∈ t, c.value < 0x110000) ∧ (t = [] ∨ ∃ c ∈ t, Word.isExt (prop c.value) = false) ∧
    ∃ segs, Word.CutAt (Word.SkipBreak prop) (t.map (·.value)) segs ∧ Word.wordsOf U nfc segs = u.map some

/-- The stopwords of a run of `wordacc`: the default list, or the words of the file named by the option `-S` (string 0). -/
def HasStopwords (U : Unicode) (prop : Nat → Word.WB) (nfc : List Nat → Option (List Nat)) (fs : List Nat → Option (List Nat))
    (ss : List Args.Setting) (stops : List (List Nat)) : Prop :=
  ((∀ name, ⟨.value 0, name⟩ ∉ ss) ∧ stops = Stopword.default_stopword.map ascii) ∨
    ∃ name file t, ⟨.value 0, name⟩ ∈ ss ∧ fs name = some file ∧ Bytes file ∧ IsList U false true file t ∧ HasWords U prop nfc t stops

/-- The value given to the option with string variable `v`, if any. -/
def Given (ss : List Args.Setting) (v : Nat) (s : Option (List Nat)) : Prop := ∀ x, s = some x ↔ ⟨.value v, x⟩ ∈ ss

/-- The voters chosen: all, or with optimization the three closest to the median (see C43). -/
def Chosen (optimize : Bool) (texts chosen : List (List Text.Ch)) : Prop :=
  (optimize = false ∧ chosen = texts) ∨
    optimize = true ∧ ∃ order : List Nat, order.Perm (List.range texts.length) ∧ order.Pairwise (Vote.Closer texts) ∧
      chosen = (order.take (min 3 texts.length)).map (fun i => texts.getD i [])

end Ocr.Spec
