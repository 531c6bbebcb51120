import Verif.Model.Process
import Verif.Spec.TextEndings

/-!
# What a run prints on `stderr`, and its status
-/

namespace Ocr.Process

/-- The lines that programs print. -/
def errorLine (exec msg : List Nat) : List Nat := exec ++ ascii ": " ++ msg ++ ascii "\n"
def namedLine (exec msg name : List Nat) : List Nat := errorLine exec (msg ++ ascii " \"" ++ name ++ ascii "\"")
def usageLine (exec usage : List Nat) : List Nat := ascii "Usage:  " ++ exec ++ ascii " " ++ usage ++ ascii "\n"

/-- The warnings about stopwords given twice. -/
def warnings (exec : List Nat) (ws : List (List Nat)) : List Nat := ws.flatMap (namedLine exec (ascii "duplicate stopword"))

/-- The text of a message; that of utf8proc is `errmsg`. -/
def messageText (errmsg : List Nat) (m : String) : List Nat := if m = "utf8proc_errmsg" then errmsg else ascii m

/-- The run `o` of the program `exec` ends as `r`: the same value, and status 1 and a line with the message, perhaps with the name
that it is about; in either case after the warnings. -/
inductive Agrees {α : Type} (exec errmsg : List Nat) : Out α → Res α → Prop
  | ok (ws : List (List Nat)) (a : α) : Agrees exec errmsg (.ok (warnings exec ws) a) (.ok a)
  | message (ws : List (List Nat)) (m : String) :
      Agrees exec errmsg (.exit 1 (warnings exec ws ++ errorLine exec (messageText errmsg m))) (.err m)
  | named (ws : List (List Nat)) (m : String) (name : List Nat) :
      Agrees exec errmsg (.exit 1 (warnings exec ws ++ namedLine exec (ascii m) name)) (.err m)
  | abort : Agrees exec errmsg .abort (.err "assertion encoded_length > 0 failed")
  | ub : Agrees exec errmsg .ub .ub
  | fuel : Agrees exec errmsg .fuel .fuel

/-- The whole run: as above, or status 0 and the usage. -/
def EndsLike {α : Type} (exec errmsg usage : List Nat) (o : Out α) (r : Res α) : Prop :=
  (o = .exit 0 (usageLine exec usage) ∧ r = .err "usage") ∨ Agrees exec errmsg o r

/-- What the program takes: the options of the table `T`, or none. -/
structure Takes (T : List (Nat × Args.Kind)) (option : Option (List Args.Opt)) : Prop where
  table  : Args.Table T
  option : option = some (T.map Args.optOf) ∨ (option = none ∧ T = [])

/-- The number of bytes of the character that a byte begins. -/
inductive Announces : Nat → Nat → Prop
  | one {b : Nat} : b < 0x80 → Announces b 1
  | two {b : Nat} : 0xC0 ≤ b → b < 0xE0 → Announces b 2
  | three {b : Nat} : 0xE0 ≤ b → b < 0xF0 → Announces b 3
  | four {b : Nat} : 0xF0 ≤ b → b < 0xF8 → Announces b 4

/-- Where bytes stop being UTF-8, and the message: a byte that begins no character, the end in the middle of a character, or anything
else that is not a character. -/
inductive Broken (body : List Nat) : String → Prop
  | lead (cs : List Char) (b : Nat) (r : List Nat) : body = utf8 cs ++ b :: r → (∀ n, ¬ Announces b n) → Broken body "invalid UTF-8 character"
  | short (cs : List Char) (b : Nat) (r : List Nat) (n : Nat) : body = utf8 cs ++ b :: r → Announces b n → r.length < n - 1 →
      Broken body "unexpected end of input"
  | other (cs : List Char) (b : Nat) (r : List Nat) (n : Nat) : body = utf8 cs ++ b :: r → Announces b n → n - 1 ≤ r.length →
      (∀ c : Char, ¬ utf8 [c] <+: b :: r) → Broken body "utf8proc_errmsg"

/-- The first file that does not read well, and why: `F name msg` says that `msg` is the complaint about the file `name`. -/
def Halts {β μ : Type} (fs : List Nat → Option (List Nat)) (R : List Nat → β → Prop) (F : List Nat → μ → Prop)
    (names : List (List Nat)) (name : List Nat) (msg : μ) : Prop :=
  ∃ pre post os, names = pre ++ name :: post ∧ Ending.AllRead fs R pre os ∧ F name msg

/-- The complaints about reports. -/
inductive EditopFault (fs : List Nat → Option (List Nat)) (name : List Nat) : String → Prop
  | missing : fs name = none → EditopFault fs name "unable to open file"
  | format (file : List Nat) : fs name = some file → AnyReport.editop (AnyReport.lines file) = none → EditopFault fs name "invalid format in"

inductive WordaccFault (fs : List Nat → Option (List Nat)) (name : List Nat) : String → Prop
  | missing : fs name = none → WordaccFault fs name "unable to open file"
  | format (file : List Nat) : fs name = some file → AnyReport.wordacc (AnyReport.lines file) = none → WordaccFault fs name "invalid format in"

inductive AccuracyFault (fs : List Nat → Option (List Nat)) (name : List Nat) : String → Prop
  | missing : fs name = none → AccuracyFault fs name "unable to open file"
  | format (file : List Nat) : fs name = some file → AnyReport.accuracy (AnyReport.lines file) = none → AccuracyFault fs name "invalid format in"
  | character (file : List Nat) (p : AnyReport.AccuracyParts) (pre post : List AnyReport.Row) (r : AnyReport.Row) (us : List Nat) :
      fs name = some file → AnyReport.accuracy (AnyReport.lines file) = some p → AnyReport.HasNames 20 p.confs →
      p.classes = pre ++ r :: post → AnyReport.About pre us → AnyReport.Refused r → AccuracyFault fs name "invalid character in"

/-- The line printed about a text: the name of the file only if it cannot be opened. -/
inductive TextFault (exec errmsg : List Nat) (fs : List Nat → Option (List Nat)) (name : List Nat) : List Nat → Prop
  | missing : fs name = none → TextFault exec errmsg fs name (namedLine exec (ascii "unable to open file") name)
  | broken (file : List Nat) (m : String) : fs name = some file → Broken (AnyText.bodyOf file) m →
      TextFault exec errmsg fs name (errorLine exec (messageText errmsg m))

/-- A text that is read. -/
def ReadsText (file : List Nat) (_ : Unit) : Prop := AnyText.WellFormed file

/-- The line printed about the two texts of a comparison. -/
inductive PairFault (exec errmsg : List Nat) (fs : List Nat → Option (List Nat)) (n0 n1 : List Nat) : List Nat → Prop
  | first (line : List Nat) : TextFault exec errmsg fs n0 line → PairFault exec errmsg fs n0 n1 line
  | header (file : List Nat) : fs n0 = some file → AnyText.WellFormed file → Spec.Headed file →
      PairFault exec errmsg fs n0 n1 (errorLine exec (ascii "no correct file specified"))
  | second (file line : List Nat) : fs n0 = some file → AnyText.WellFormed file → ¬ Spec.Headed file → TextFault exec errmsg fs n1 line →
      PairFault exec errmsg fs n0 n1 line

/-- The same for a list of stopwords or groups of characters, where there is no header. -/
inductive ListFault (exec errmsg : List Nat) (fs : List Nat → Option (List Nat)) (name : List Nat) : List Nat → Prop
  | missing : fs name = none → ListFault exec errmsg fs name (namedLine exec (ascii "unable to open file") name)
  | broken (file : List Nat) (m : String) : fs name = some file → Broken file m →
      ListFault exec errmsg fs name (errorLine exec (messageText errmsg m))

/-- Counts for which the floating-point percentages of the distributions are exact enough. -/
def Moderate (o : Int × Int) : Prop := |o.1| < 2 ^ 46 ∧ |o.1 - o.2| < 2 ^ 46 ∧ ¬ Ending.Over o

end Ocr.Process
