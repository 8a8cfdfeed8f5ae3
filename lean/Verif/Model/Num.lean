import Verif.Model.Core
/-!
# Numeric kernels

Pure functions standing for the numpy expressions of the code, over exact rationals.
-/
namespace ATG

/-- Absolute value on times (`np.abs`). -/
def tabs (a : Time) : Time := if 0 ≤ a then a else -a

/-- Scalar `np.allclose(a, b)` with numpy's defaults `rtol = 1e-5`, `atol = 1e-8`:
    `|a - b| <= atol + rtol * |b|`. Used e.g. in `sequences/sequences.py:269,278,563,567,575`. -/
def allclose (a b : Time) : Bool := tabs (a - b) ≤ 1 / 100000000 + 1 / 100000 * tabs b

/-- `np.allclose(xs, ys)` on arrays of the same length (`sequences/sequences.py:287`,
    `sequences/tiers.py:241`). -/
def allcloseL (xs ys : List Time) : Bool := (xs.zip ys).all fun p => allclose p.1 p.2

/-- `starts[1:]` against `ends[:-1]` (`sequences/sequences.py:287`, `sequences/tiers.py:241,623`). -/
def tight (starts ends : List Time) : Bool := allcloseL starts.tail ends.dropLast

/-- `np.allclose(lowers.starts[1:], lowers.ends[:1])` (`sequences/tiers.py:466`): the one-element
    array `ends[:1]` is broadcast over `starts[1:]`; on an empty list both sides are empty. -/
def firstEndClose (starts ends : List Time) : Bool :=
  match ends with
  | [] => true
  | e :: _ => starts.tail.all fun s => allclose s e

/-- insertion into a strictly sorted list without repetition -/
def uinsert (a : Time) : List Time → List Time
  | [] => [a]
  | b :: bs => if a < b then a :: b :: bs else if a = b then b :: bs else b :: uinsert a bs

/-- `np.unique`: sorted distinct values. -/
def uniq (l : List Time) : List Time := l.foldr uinsert []

/-- `boundaries`, `new_starts`, `new_ends` and their `zip`
    (`sequences/tiers.py:244-247` and `467-470`). -/
def gapPairs (starts ends : List Time) : List (Time × Time) :=
  let boundaries := uniq (starts ++ ends)
  let newStarts := boundaries.dropLast.filter fun b => !starts.contains b
  let newEnds := boundaries.tail.filter fun b => !ends.contains b
  newStarts.zip newEnds

/-- One entry of the `overlaps` matrix: `min(end_l, end_u) - max(start_l, start_u)`
    (`sequences/tiers.py:407-409`). -/
def overlap (l u : Time × Time) : Time := min l.2 u.2 - max l.1 u.1

/-- `argmax` of a non-empty list: index of the first greatest element. Auxiliary: the best value and
    index so far, and the current index. -/
def argmaxFrom (best : Time) (bi i : Nat) : List Time → Nat
  | [] => bi
  | x :: xs => if best < x then argmaxFrom x i (i + 1) xs else argmaxFrom best bi (i + 1) xs

/-- `np.argmax` (first maximum); `0` on the empty list, which the code never asks for. -/
def argmax : List Time → Nat
  | [] => 0
  | x :: xs => argmaxFrom x 0 1 xs

/-- `max` of a list of times (`overlaps.max(axis=1)`, `.max()`); `none` when empty (numpy raises). -/
def maxL : List Time → Option Time
  | [] => none
  | x :: xs => some (xs.foldl max x)

/-- `min` of a list of times; `none` when empty (numpy raises). -/
def minL : List Time → Option Time
  | [] => none
  | x :: xs => some (xs.foldl min x)

/-- `upper_container` (`sequences/tiers.py:420`): for each lower span the index of the upper span
    with the greatest overlap. -/
def containers (us ls : List (Time × Time)) : List Nat :=
  ls.map fun l => argmax (us.map (overlap l))

/-- the lower indices `lower_idx[upper_container == idx]` (`sequences/tiers.py:424,431`) -/
def idxWhere (p : Nat → Bool) (l : List Nat) : List Nat :=
  ((List.range l.length).zip l).filterMap fun ik => if p ik.2 then some ik.1 else none

/-- `_starts[idx]`, `_ends[idx]` and the masking of `-1` (`sequences/tiers.py:423-438`):
    `none` when no lower interval is assigned to `idx`. -/
def sliceBounds (asg : List Nat) (idx : Nat) : Option (Nat × Nat) :=
  match idxWhere (· == idx) asg with
  | [] => none
  | i :: is => some (is.foldl min i, is.foldl max i + 1)

/-- Python slice `l[a:b]` for `0 ≤ a`. -/
def pySlice {α} (l : List α) (a b : Nat) : List α := (l.drop a).take (b - a)

/-- `lower_sequences` as slices of the lower tier (`sequences/tiers.py:455-462`), before the gaps
    are closed. -/
def slices {α} (asg : List Nat) (lower : List α) (nUpper : Nat) : List (List α) :=
  (List.range nUpper).map fun idx =>
    match sliceBounds asg idx with
    | none => []
    | some (a, b) => pySlice lower a b

/-- `mismatches = lower_durations - max_overlaps` and whether any is positive
    (`sequences/tiers.py:414-415,440-441`). -/
def anyMismatch (us ls : List (Time × Time)) : Bool :=
  ls.any fun l => match maxL (us.map (overlap l)) with
    | none => false
    | some m => decide (0 < (l.2 - l.1) - m)

/-- The number of positive mismatches, reported in the warning (`sequences/tiers.py:446-448`). -/
def nMismatch (us ls : List (Time × Time)) : Nat :=
  (ls.filter fun l => match maxL (us.map (overlap l)) with
    | none => false
    | some m => decide (0 < (l.2 - l.1) - m)).length

/-- The indices of spans containing `t`: `np.argwhere(starts <= time & ends > time)`
    (`sequences/tiers.py:299-304`). -/
def spansAt (spans : List (Time × Time)) (t : Time) : List Nat :=
  ((List.range spans.length).zip spans).filterMap fun ik =>
    if ik.2.1 ≤ t ∧ ik.2.2 > t then some ik.1 else none

/-- Outcome of `get_interval_at_time` (`sequences/tiers.py:287-308`): an index, `None`, or the
    `TypeError` of `int()` applied to an array with more than one element. -/
def intervalAt (spans : List (Time × Time)) (t : Time) : Except Err (Option Nat) :=
  match spansAt spans t with
  | [] => .ok none
  | [i] => .ok (some i)
  | _ => .error .typeError

/-- Auxiliary for `argmin`. -/
def argminFrom (best : Time) (bi i : Nat) : List Time → Nat
  | [] => bi
  | x :: xs => if x < best then argminFrom x i (i + 1) xs else argminFrom best bi (i + 1) xs

/-- `np.abs(times - time).argmin()` (`points/tiers.py:187`); `none` models the `ValueError` on an
    empty tier. -/
def nearest (times : List Time) (t : Time) : Option Nat :=
  match times.map (fun x => tabs (x - t)) with
  | [] => none
  | d :: ds => some (argminFrom d 0 1 ds)

/-- Number of `True` in `a & b` where `a[i][j] = ends[i] > starts[j]`, `b[i][j] = starts[i] < ends[j]`
    (`sequence_list.py:134-137`). -/
def nOverlaps (spans : List (Time × Time)) : Nat :=
  (spans.map fun p => (spans.filter fun q => decide (p.2 > q.1) && decide (p.1 < q.2)).length).sum

/-- `_check_no_overlaps` (`sequence_list.py:128-144`): `True` when no overlap was found. -/
def checkNoOverlaps (spans : List (Time × Time)) : Bool := !decide (nOverlaps spans > spans.length)

end ATG
