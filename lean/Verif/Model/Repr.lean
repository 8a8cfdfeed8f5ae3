import Verif.Model.Show
import Verif.Model.Points
/-!
# `repr` of entries, groups and textgrids

SIMPLIFICATION: the `repr` of a string, with Python's rules for quotes and escapes, is a parameter `rq`; the name of a group is a parameter
as in the rest of the heap model. Labels are shown by `str`, which leaves strings as they are.
-/
namespace ATG

/-- `repr` of a list whose entries are shown as `l` -/
def pyList (l : List String) : String := "[" ++ ", ".intercalate l ++ "]"

/-- what is shown of the superset: its label if there is one and its subset list is not empty, since the test is the truth of the
    interval, for which `__len__` counts (`sequences/sequences.py:465-468`, `:423-424`) -/
def superPart (h : Heap) (x : Ref) : String :=
  match h.sup x with
  | none => ", .super_instance, None"
  | some u => if (h.subs u).vals = [] then ", .super_instance, None" else ", .super_instance: " ++ h.label u

/-- `SequenceInterval.__repr__` (`sequences/sequences.py:461-477`). -/
def intervalRepr (rq : String → String) (h : Heap) (x : Ref) : String :=
  "Class " ++ h.ct.name (h.cls x) ++ ", label: " ++ h.label x ++
  (match h.ct.sup (h.cls x) with
    | some p => ", .superset_class: " ++ h.ct.name p ++ superPart h x
    | none => ", .superset_class: None") ++
  (match h.ct.sub (h.cls x) with
    | some q => ", .subset_class: " ++ h.ct.name q ++
      (if (h.subs x).vals = [] then "" else ", .subset_list: " ++ pyList ((subLabels h x).map rq))
    | none => ", .subset_class: None")

/-- `SequencePoint.__repr__` (`points/points.py:102-106`); a tier without points counts as false -/
def pointRepr (h : Heap) (x : Ref) : Except Err String :=
  let start := "Class " ++ h.ct.name (h.cls x) ++ ", label: " ++ h.label x ++ ";"
  match h.intier x with
  | none => .ok start
  | some t =>
    if (h.tseq t).vals = [] then .ok start
    else (tierIndex h x).map fun i => start ++ " tier_index: " ++ (i.map toString).getD "None"

/-- `SequencePointTier.__repr__` (`points/tiers.py:136-137`) -/
def pointTierRepr (h : Heap) (t : TRef) : String := "Sequence Point tier of " ++ h.ct.name (h.tcls t) ++ ";"

/-- `TierGroup.__repr__` (`sequences/tiers.py:524-527`) and `PointsGroup.__repr__` (`points/tiers.py:325-328`) -/
def groupRepr (rq : String → String) (h : Heap) (g : GRef) : String :=
  (if h.gpoint g then "PointsGroup with " else "TierGroup with ") ++ toString (h.gtiers g).length ++ " tiers. " ++
    pyList ((h.gtiers g).map fun t => rq (h.ct.name (h.tcls t)))

/-- `AlignedTextGrid.__repr__` (`aligned_textgrid.py:108-114`), for groups named by `nm` -/
def atgRepr (rq : String → String) (nm : GRef → String) (h : Heap) (a : ARef) : String :=
  "AlignedTextGrid with " ++ toString (h.agroups a).length ++ " groups named " ++ pyList ((h.agroups a).map fun g => rq (nm g)) ++
    " each with " ++ pyList ((h.agroups a).map fun g => toString (h.gtiers g).length) ++ " tiers. " ++
    pyList ((h.agroups a).map fun g => pyList ((h.gtiers g).map fun t => rq (h.ct.name (h.tcls t))))

end ATG
