import Verif.Model.Tier
/-!
# `first` and `last`
-/
namespace ATG

/-- `x.first` for an interval or a point (`mixins/mixins.py:47-54`); a point has no `subset_list` -/
def ivalFirst (h : Heap) (x : Ref) : Except Err Ref :=
  if h.isPoint x then .error .attributeError
  else match (h.subs x).vals[0]? with
    | some y => .ok y
    | none => .error .indexError

/-- `x.last` (`mixins/mixins.py:56-63`) -/
def ivalLast (h : Heap) (x : Ref) : Except Err Ref :=
  if h.isPoint x then .error .attributeError
  else match (h.subs x).vals.getLast? with
    | some y => .ok y
    | none => .error .indexError

/-- `tier.first` (`mixins/tiermixins.py:150-157`); tiers of both kinds have a `sequence_list` -/
def tierFirst (h : Heap) (t : TRef) : Except Err Ref :=
  match (h.tseq t).vals[0]? with
  | some y => .ok y
  | none => .error .indexError

/-- `tier.last` (`mixins/tiermixins.py:159-166`) -/
def tierLast (h : Heap) (t : TRef) : Except Err Ref :=
  match (h.tseq t).vals.getLast? with
  | some y => .ok y
  | none => .error .indexError

/-- `x.first.first…` with `n` accesses, or `x.last.last…` -/
def descend (step : Ref → Except Err Ref) : Nat → Ref → Except Err Ref
  | 0, x => .ok x
  | n + 1, x => match step x with
    | .ok y => descend step n y
    | .error e => .error e

end ATG
