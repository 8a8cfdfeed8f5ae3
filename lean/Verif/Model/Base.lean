import Verif.Model.Classes
import Verif.Model.Group
/-!
# The empty heap

The state after importing the package, before any object exists; used for examples and witnesses.
-/
namespace ATG

/-- No objects; the classes of the package. -/
def heap0 : Heap where
  ct := baseClasses
  nE := 0
  cls := fun _ => cInterval
  start := fun _ => 0
  stop := fun _ => 0
  label := fun _ => ""
  fol := fun _ => none
  prev := fun _ => none
  subs := fun _ => SL.empty
  sup := fun _ => none
  intier := fun _ => none
  within := fun _ => none
  cont := fun _ => .unset
  nT := 0
  tseq := fun _ => SL.empty
  tname := fun _ => ""
  tcls := fun _ => cInterval
  tsup := fun _ => none
  tsub := fun _ => none
  twithin := fun _ => none
  tcont := fun _ => .unset
  nG := 0
  gtiers := fun _ => []
  gcont := fun _ => none
  gpoint := fun _ => false
  gwithin := fun _ => none
  nA := 0
  agroups := fun _ => []
  acont := fun _ => []
  acloned := fun _ => []

/-- run a model program from the empty heap and look at the final heap -/
def run0 {α} (m : M α) : Heap := (m heap0).heap

/-- a heap holding the given entries (class, start, end, label) as `0, 1, 2, ...`; for examples -/
def heapOf (l : List (CRef × Time × Time × String)) : Heap :=
  run0 (M.forL l fun e => do
    let _ ← newEntry e.1 e.2.1 e.2.2.1 e.2.2.2)

end ATG
