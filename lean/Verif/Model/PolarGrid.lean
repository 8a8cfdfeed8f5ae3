import Verif.Model.Polar
import Verif.Model.Textgrid
/-!
# Making a `PolarGrid` (`polar/polar_grid.py`)

The names of the groups (`_name_groups`, `_set_group_names`) are in `Model/Names`. SIMPLIFICATION: a class named like another
attribute of a `PolarGrid` (`contains`, `tier_groups`, ...) is not treated.
-/
namespace ATG

/-- the attribute `n` after `_set_named_accessors` (`polar_grid.py:41-44`): the last tier whose entry class has that name -/
def namedTier (h : Heap) (a : ARef) (n : String) : Option TRef :=
  (((h.agroups a).flatMap h.gtiers).filter fun t => h.ct.name (h.tcls t) == n).getLast?

/-- `_relate_levels_and_ranges` (`polar_grid.py:46-50`); `cl` is the class `Levels`. A missing attribute is looked up only
    if the tests before it succeed; an object of another class than `Levels` does not have the method;
    `get_interval_at_point` (`points/points.py:224`) gives `None` for a tier of points. -/
def polarRanges (h : Heap) (cl : CRef) (a : ARef) : Except Err (Ref → Option Ref) :=
  match namedTier h a "Levels" with
  | none => .error .attributeError
  | some tl =>
    if (h.tseq tl).vals.length = 0 then .ok fun _ => none
    else match namedTier h a "Ranges" with
      | none => .error .attributeError
      | some tr =>
        if (h.tseq tr).vals.length = 0 then .ok fun _ => none
        else if (h.tseq tl).vals.all fun x => h.ct.isSub (h.cls x) cl then
          if h.isPointTier tr then .ok fun _ => none else relateRanges h tl tr
        else .error .attributeError

/-- `_relate_levels_and_points` (`polar_grid.py:52-54`) with fuel `k` for each level; `ct` is the class `TurningPoints` -/
def polarPoints (h : Heap) (cl ct : CRef) (k : Nat) (a : ARef) : Except Err (Ref → Option Ref) :=
  match namedTier h a "Levels" with
  | none => .error .attributeError
  | some tl =>
    if (h.tseq tl).vals.length = 0 then .ok fun _ => none
    else match namedTier h a "TurningPoints" with
      | none => .error .attributeError
      | some tt => relatePoints h cl ct k tt (h.tseq tl).vals fun _ => none

/-- `PolarGrid(textgrid, entry_classes)` (`polar_grid.py:25-39`): the textgrid, the table of `range_interval` and the
    table of `turning_point` and `level` -/
def newPolar (cl ct : CRef) (k : Nat) (tiers : List PTier) (arg : ClassArg) :
    M (ARef × (Ref → Option Ref) × (Ref → Option Ref)) := do
  let a ← newAtg tiers arg
  let h ← M.get
  let ranges ← liftE (polarRanges h cl a)
  let points ← liftE (polarPoints h cl ct k a)
  pure (a, ranges, points)

end ATG
