import Verif.Model.Num
import Verif.Model.Base
import Verif.Model.Points
/-!
# Relating levels and turning points (`polar/polar_classes.py`, `polar/polar_grid.py`)

`Levels.turning_point` and `TurningPoints.level` are one table here, from points to points.  The rest of
the heap is not changed by relating.
-/
namespace ATG

/-- `get_nearest_point` (`points/tiers.py:190-203`) -/
def nearestPoint (h : Heap) (t : TRef) (x : Ref) : Option Ref :=
  match nearest ((h.tseq t).vals.map h.start) (h.start x) with
  | none => none
  | some i => (h.tseq t).vals[i]?

/-- `Levels.set_turning_point` (`lev = true`, `polar_classes.py:167-177`) and `TurningPoints.set_level`
    (`lev = false`, lines 69-79), with recursion fuel.  `cl` and `ct` are the classes `Levels` and
    `TurningPoints`; an object of another class does not have the method, and `None` or an interval
    tier has no `get_nearest_point`. -/
def relatePointN (h : Heap) (cl ct : CRef) :
    Nat → Bool → Ref → Option TRef → (Ref → Option Ref) → Except Err (Ref → Option Ref)
  | 0, _, _, _, _ => .error .recursionError
  | k + 1, lev, x, tier, link =>
    if h.ct.isSub (h.cls x) (if lev then cl else ct) then
      match tier with
      | none => .error .attributeError
      | some t =>
        if h.ct.isSub (h.tcls t) cPoint then
          match nearestPoint h t x with
          | none => .error .valueError
          | some y =>
            if link x = some y then .ok link
            else if allclose (h.start x) (h.start y) then
              relatePointN h cl ct k (!lev) y (h.intier x) (upd link x (some y))
            else .ok link
        else .error .attributeError
    else .error .attributeError

/-- `PolarGrid._relate_levels_and_points` (`polar_grid.py:52-54`), with fuel `k` for each level -/
def relatePoints (h : Heap) (cl ct : CRef) (k : Nat) (t : TRef) :
    List Ref → (Ref → Option Ref) → Except Err (Ref → Option Ref)
  | [], link => .ok link
  | x :: xs, link => match relatePointN h cl ct k true x (some t) link with
    | .error e => .error e
    | .ok link' => relatePoints h cl ct k t xs link'

/-! ## Levels and ranges -/

/-- `Levels.set_range_interval` (`polar_classes.py:163-165`) on the table of `range_interval`, with the tier `tr` set -/
def setRange (h : Heap) (tr : TRef) (link : Ref → Option Ref) (x : Ref) : Except Err (Ref → Option Ref) :=
  if (h.tseq tr).vals.length > 0 then
    match intervalAtPoint h x tr with
    | .error e => .error e
    | .ok y => .ok (upd link x y)
  else .ok link

/-- `PolarGrid._relate_levels_and_ranges` (`polar_grid.py:46-50`) with `Levels.set_ranges_tier`
    (`polar_classes.py:160-161`) for the tiers `tl` of levels and `tr` of ranges. An empty
    tier is falsy. The result is the table of `range_interval`. -/
def relateRanges (h : Heap) (tl tr : TRef) : Except Err (Ref → Option Ref) :=
  if (h.tseq tl).vals.length > 0 && (h.tseq tr).vals.length > 0 then
    (h.tseq tl).vals.foldlM (setRange h tr) (fun _ => none)
  else .ok fun _ => none

/-- `s.split(c)` for one character -/
def splitChar (c : Char) : List Char → List (List Char)
  | [] => [[]]
  | x :: xs =>
    if x = c then [] :: splitChar c xs
    else match splitChar c xs with
      | [] => [[x]]
      | y :: ys => (x :: y) :: ys

/-- `Ranges.range` (`polar_classes.py:111-117`); `float` is Python's, `none` for a `ValueError`; `none` in the result is `nan` -/
def rangeNums (float : List Char → Option Time) (label : List Char) : List (Option Time) :=
  match (splitChar '-' label).mapM float with
  | some l => l.map some
  | none => [none, none]

/-- `np.linspace(lo, hi, num = 6)`; SIMPLIFICATION: exact arithmetic -/
def linspace6 (lo hi : Time) : List Time := (List.range 6).map fun (i : Nat) => lo + (hi - lo) * i / 5

/-- `Ranges.bands` (`polar_classes.py:119-131`) with `low` and `high`; `nan` anywhere makes all break points `nan` -/
def bandPoints (r : List (Option Time)) : Except Err (List (Option Time)) :=
  match r with
  | lo :: hi :: _ => match lo, hi with
    | some lo, some hi => .ok ((linspace6 lo hi).map some)
    | _, _ => .ok (List.replicate 6 none)
  | _ => .error .indexError

/-- `l[a:b]` for any integers -/
def sliceInt {α} (l : List α) (a b : Int) : List α :=
  let n : Int := l.length
  let at' (k : Int) : Nat := (if k < 0 then max 0 (k + n) else min k n).toNat
  (l.drop (at' a)).take (at' b - at' a)

/-- `Levels.level` (`polar_classes.py:185-187`); `int` is Python's -/
def levelOf (int : List Char → Option Int) (label : List Char) : Except Err Int :=
  match int (label.filter (· ≠ '?')) with
  | some k => .ok k
  | none => .error .valueError

/-- `Levels.band` (`polar_classes.py:189-191`) for the range interval with label `range`, if there is one -/
def bandOf (float : List Char → Option Time) (int : List Char → Option Int) (range : Option (List Char))
    (label : List Char) : Except Err (List (Option Time)) :=
  match range with
  | none => .error .attributeError
  | some r => match bandPoints (rangeNums float r) with
    | .error e => .error e
    | .ok b => match levelOf int label with
      | .error e => .error e
      | .ok k => .ok (sliceInt b (k - 1) (k + 1))

/-- `certainty` (`polar_classes.py:27-30,81-84,179-183`) -/
def certain (label : List Char) : Bool := !label.contains '?'

/-- `PrStr.status` (`polar_classes.py:32-39`); the warning is left out -/
def statusOf (label : List Char) : List Char :=
  if label.contains '*' then "prominence".toList
  else if label.contains ']' then "edge".toList
  else label

/-- `TurningPoints.override` (`polar_classes.py:87-92`) -/
def overrideOf (label : List Char) : Option (List Char) :=
  match (splitChar ',' label).getLast? with
  | none => none
  | some v => if v = ['0'] then none else some v

end ATG
