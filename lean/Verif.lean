import Verif.Props.CList
import Verif.Props.Table
import Verif.Props.Sort
import Verif.Props.Compare
import Verif.Props.Text
import Verif.Props.Sync
import Verif.Props.Greedy
import Verif.Props.Charclass
import Verif.Props.Accuracy
import Verif.Props.Edorpt
import Verif.Props.Accrpt
import Verif.Props.Wacrpt
import Verif.Props.Wordacc
import Verif.Props.Word
import Verif.Props.Vote
import Verif.Props.Ngram
import Verif.Props.Wordfreq
import Verif.Props.Stopword
import Verif.Props.Groupacc
import Verif.Props.Dist
import Verif.Props.Running
import Verif.Props.Args
import Verif.Props.Synctext
import Verif.Props.Page
import Verif.Props.Programs
import Verif.Props.Pipelines
import Verif.Props.Frequencies
import Verif.Props.Evaluations
import Verif.Props.Selections
import Verif.Props.Confusions
import Verif.Props.Reports
import Verif.Props.AnyReport
import Verif.Props.CString
import Verif.Props.Endings
import Verif.Props.AnyText
import Verif.Props.TextEndings
import Verif.Props.WordEndings
import Verif.Props.PrintEndings
import Verif.Props.EditopTrace
import Verif.Props.VoteTrace
import Verif.Props.Percent
import Verif.Props.FloatDist
import Verif.Props.FloatVote
import Verif.Props.FileOrder
import Verif.Props.Across
import Verif.Props.Transposed
import Verif.Props.Majority
import Verif.Props.FloatCi
import Verif.Props.SyncCost
import Verif.Props.Process
import Verif.Props.Faults
import Verif.Props.Heap
import Verif.Props.Paths
import Verif.Props.SortCost
import Verif.Props.WordaccCost
import Verif.Props.TextHeap
import Verif.Props.Tempfile
import Verif.Props.Ranges
import Verif.Props.VoteOptions
import Verif.Props.GreedyCost
import Verif.Props.World
import Verif.Props.Signal
import Verif.Props.Scripts
import Verif.Props.WordBreakGen
import Verif.Props.Shown
import Verif.Props.FullDisk
import Verif.Props.CutWords
import Verif.Props.Alike
import Verif.Props.Backwards
