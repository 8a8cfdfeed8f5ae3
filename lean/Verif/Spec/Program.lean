import Verif.Model.Program
/-!
# Properties of client programs
-/
namespace ATG

/-- assigning times, shifting and concatenating: the operations meant to move entries -/
def Call.moves : Call → Bool
  | .shift .. | .start .. | .stop .. | .starts .. | .ends .. | .tierShift .. | .groupShift ..
  | .textgridShift .. | .tierConcat .. | .groupConcat .. | .pointsConcat .. => true
  | _ => false

/-- fusing and assigning a label: the operations meant to change a label -/
def Call.relabels : Call → Bool
  | .fuseRight .. | .fuseLeft .. | .label .. => true
  | _ => false

/-- operations that relate the tiers of a group (again) -/
def Call.relates : Call → Bool
  | .group .. | .textgrid .. | .textgridOf .. | .tierAppend .. | .tierCleanup .. | .groupCleanup ..
  | .groupAdd .. | .groupAppend .. | .reRelate .. | .textgridCleanup .. | .textgridAppend .. | .interleave .. | .popClass .. => true
  | _ => false

/-- no entry disappears, and the existing ones keep their times and labels -/
def Still (h h' : Heap) : Prop :=
  h.nE ≤ h'.nE ∧ ∀ x, x < h.nE → h'.start x = h.start x ∧ h'.stop x = h.stop x ∧ h'.label x = h.label x

/-- no entry disappears, the existing ones keep their labels, and their boundaries move at most inward -/
def Inward (h h' : Heap) : Prop :=
  h.nE ≤ h'.nE ∧ ∀ x, x < h.nE → h.start x ≤ h'.start x ∧ h'.stop x ≤ h.stop x ∧ h'.label x = h.label x

/-- no entry disappears, and the existing ones keep their labels -/
def SameLabels (h h' : Heap) : Prop :=
  h.nE ≤ h'.nE ∧ ∀ x, x < h.nE → h'.label x = h.label x

/-- no entry is its own neighbour -/
def NotOwnNeighbour (h : Heap) : Prop := ∀ x, h.fol x ≠ some (.obj x) ∧ h.prev x ≠ some (.obj x)

/-- an entry labelled `"#"` (like the boundary objects of the package) has no neighbours -/
def HashLoose (h : Heap) : Prop := ∀ x, h.label x = "#" → h.fol x = none ∧ h.prev x = none

end ATG
