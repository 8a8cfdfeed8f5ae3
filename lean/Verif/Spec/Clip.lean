import Verif.Spec.Import
import Verif.Spec.Basic
import Verif.Spec.Grid
/-!
# Two tiers for the same speech with different boundaries
-/
namespace ATG

/-- how much of one entry lies in another (negative: the distance between them) -/
def common (p w : Time × Time × String) : Time := shared (p.1, p.2.1) (w.1, w.2.1)

/-- Two tiers of a Praat textgrid that cover the same time without gaps, from some time after `0` on. Their boundaries
    need not match, but every upper entry has a lower one that lies more in it than in any other. -/
structure LooselyAligned (ts : List PTier) (lo hi : Time) : Prop where
  two : ts.length = 2
  label : ∀ t ∈ ts, ∀ p ∈ t.2, p.2.2 ≠ "#"
  tiled : ∀ t ∈ ts, TilesS (rawSpans t.2) lo hi
  owns : ∀ up low, ts = [up, low] → ∀ w ∈ up.2, ∃ p ∈ low.2, ∀ v ∈ up.2, v ≠ w → common p v < common p w
  pos : 0 < lo

/-- The lower entries are divided among the upper ones: each belongs to the entry in which most of it lies, the first
    of them if there are several. -/
structure Divided (upper lower : List (Time × Time × String)) (parts : List (List (Time × Time × String))) : Prop where
  len : parts.length = upper.length
  flat : parts.flatten = lower
  ne : ∀ part ∈ parts, part ≠ []
  most : ∀ (k : Nat) w part, upper[k]? = some w → parts[k]? = some part → ∀ p ∈ part, ∀ (j : Nat) v, upper[j]? = some v →
    common p v ≤ common p w ∧ (j < k → common p v < common p w)

/-- the part of the entry `p` within the entry `w` -/
def clip (w p : Time × Time × String) : Time × Time × String := (max w.1 p.1, min w.2.1 p.2.1, p.2.2)

/-- the part of the entry `w` from the start of the first to the end of the last of the given entries -/
def clipUpper (w : Time × Time × String) (part : List (Time × Time × String)) : Time × Time × String :=
  match part.head?, part.getLast? with
  | some p, some q => (max w.1 p.1, min w.2.1 q.2.1, w.2.2)
  | _, _ => w

/-- Two tiers before and after their entries were reduced to what they have in common. -/
def Clipped (ts ts' : List PTier) : Prop :=
  ∃ (n m : String) (upper lower : List (Time × Time × String)) (parts : List (List (Time × Time × String))),
    ts = [(n, upper), (m, lower)] ∧ Divided upper lower parts ∧
    ts' = [(n, List.zipWith clipUpper upper parts), (m, (List.zipWith (fun w part => part.map (clip w)) upper parts).flatten)]

/-- The tiers of a group can be related as they are, and stay so, or they are reduced to what they have in common. -/
def Reconciled (ts ts' : List PTier) : Prop :=
  (GoodTiers ts ∧ ts' = ts) ∨ ((∃ lo hi, LooselyAligned ts lo hi) ∧ Clipped ts ts')

/-- all tiers start at `lo` and end at `hi` -/
def Reaches (ts : List PTier) (lo hi : Time) : Prop :=
  ∀ t ∈ ts, ((∃ p ∈ t.2, p.1 = lo) ∧ ∀ p ∈ t.2, lo ≤ p.1) ∧ (∃ p ∈ t.2, p.2.1 = hi) ∧ ∀ p ∈ t.2, p.2.1 ≤ hi

/-- The rows `raw'` are the rows `raw` in their order, with one blank row for each gap between them, at its place. -/
structure FilledRows (raw raw' : List (Time × Time × String)) : Prop where
  kept : raw.Sublist raw'
  perm : raw'.Perm (raw ++ (gapsOf (rawSpans raw)).map fun p => (p.1, p.2, ""))
  touching : gapsOf (rawSpans raw') = []
  laid : Laid (rawSpans raw')

/-- Tiers before and after filling their gaps, which happens if numpy's comparison notices one of them. -/
structure Completed (ts ts' : List PTier) : Prop where
  names : ts'.map (·.1) = ts.map (·.1)
  same : (∀ t ∈ ts, ∀ p ∈ gapsOf (rawSpans t.2), ¬ RealGap p) → ts' = ts
  filled : (∃ t ∈ ts, ∃ p ∈ gapsOf (rawSpans t.2), RealGap p) → ∀ (i : Nat) t t', ts[i]? = some t → ts'[i]? = some t' →
    FilledRows t.2 t'.2

end ATG
