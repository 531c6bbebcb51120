import Verif.Model.Signal
import Verif.Spec.World
import Verif.Spec.Process
import Verif.Spec.Edorpt

/-!
# What a program leaves when it is killed
-/

namespace Ocr.Signal
open Prog Process Disk

/-- The state at the start. -/
def now (w : World) : Snapshot := ⟨w.files, w.out, w.err⟩

/-- The states of a run: those before its end and the one at the start. -/
def states (w : World) : Fin Unit → List Snapshot
  | .ok _ w' => now w :: w'.past
  | .exit _ w' => now w :: w'.past
  | .abort w' => now w :: w'.past
  | .ub => []
  | .fuel => []

/-- Every signal that arrives is one of those with a handler. -/
def Only (signals : List Nat) (events : List Event) : Prop := ∀ n, Event.signal n ∈ events → n ∈ signals

/-- Edit operations without the moves that are longer than `n`. -/
def shortened (D : Edo.Edodata) (n : Nat) : Edo.Edodata := { D with moves := fun i => if i ≤ n then D.moves i else 0 }

end Ocr.Signal
