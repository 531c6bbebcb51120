import Verif.Model.Text

/-!
How the programs want their input files to be read.  Written from the manual pages, independently of the models of the
programs, so that a theorem about a program says which reading it is about.
-/

namespace Ocr.Spec
open Text

/-- A page of text: a vendor header is skipped, suspect markers are interpreted, spacing is compressed. -/
def pageText (fold_case : Bool) : Textopt :=
  { find_header := true, find_markers := true, suspect_marker := 0, normalize := true, case_insensitive := fold_case,
    found_header := false }

/-- A list of words (stopwords): no header, no suspect markers; spacing is compressed, letters become lower-case. -/
def wordList : Textopt :=
  { find_header := false, find_markers := false, suspect_marker := 0, normalize := true, case_insensitive := true,
    found_header := false }

/-- A list of characters (groupacc): no header; suspect markers are interpreted, spacing is compressed. -/
def charList : Textopt :=
  { find_header := false, find_markers := true, suspect_marker := 0, normalize := true, case_insensitive := false,
    found_header := false }

end Ocr.Spec
