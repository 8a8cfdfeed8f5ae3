import Verif.Model.Tier
/-!
# Positions in tiers, and points (`mixins/mixins.py:136-180`, `points/points.py`)
-/
namespace ATG

/-- `tier_index` (`mixins/mixins.py:145-150`): `None` without a tier, otherwise
    `collections.abc.Sequence.index`, which compares by identity since neither intervals nor points
    define `__eq__`; `ValueError` when the tier does not list the entry. -/
def tierIndex (h : Heap) (x : Ref) : Except Err (Option Nat) :=
  match h.intier x with
  | none => .ok none
  | some t => match (h.tseq t).vals.findIdx? (· == x) with
    | some i => .ok (some i)
    | none => .error .valueError

/-- `get_tierwise` (`mixins/mixins.py:152-183`): `self.intier[self.tier_index + idx]`, a Python list
    index. -/
def getTierwise (h : Heap) (x : Ref) (k : Int) : Except Err (Option Ref) :=
  match h.intier x with
  | none => .ok none
  | some t => match tierIndex h x with
    | .error e => .error e
    | .ok none => .error .typeError
    | .ok (some i) => match pyGet (h.tseq t).vals (i + k) with
      | some y => .ok (some y)
      | none => .error .indexError

/-- What `fol_distance` and `prev_distance` compute from a neighbour (`points/points.py:140-164`):
    `None` for an undefined neighbour, for a boundary (its time is `None`), and — the test is the
    truthiness of the time — for a neighbour at time zero. -/
def linkDistance (h : Heap) (x : Ref) : Option Link → Option Time
  | none => none
  | some .bumper => none
  | some (.obj y) => if h.start y = 0 then none else some (h.start y - h.start x)

/-- `fol_distance` (`points/points.py:140-151`) -/
def folDistance (h : Heap) (x : Ref) : Option Time := linkDistance h x (h.fol x)
/-- `prev_distance` (`points/points.py:153-164`) -/
def prevDistance (h : Heap) (x : Ref) : Option Time := linkDistance h x (h.prev x)

/-- `distance_from` (`points/points.py:170-191`): one number for a point, two for an interval. -/
def distanceFrom (h : Heap) (x y : Ref) : List Time :=
  if h.isPoint y then [h.start x - h.start y]
  else [h.start x - h.start y, h.start x - h.stop y]

/-- `get_interval_at_point(tier)` (`points/points.py:193-225`): an empty tier is falsy and gives `None`;
    no interval at the time gives `tier[None]`, a `TypeError`. -/
def intervalAtPoint (h : Heap) (x : Ref) (t : TRef) : Except Err (Option Ref) :=
  if (h.tseq t).vals.length = 0 then .ok none
  else match tierAt h t (h.start x) with
    | .error e => .error e
    | .ok none => .error .typeError
    | .ok (some i) => match (h.tseq t).vals[i]? with
      | some y => .ok (some y)
      | none => .error .indexError

end ATG
