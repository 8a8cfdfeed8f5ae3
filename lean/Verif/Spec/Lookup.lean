import Verif.Spec.Group
/-!
# Intervals at a time
-/
namespace ATG

/-- the interval contains the time (its end does not belong to it) -/
def At (h : Heap) (time : Time) (x : Ref) : Prop := h.start x ≤ time ∧ time < h.stop x

instance (h : Heap) (time : Time) (x : Ref) : Decidable (At h time x) := by unfold At; infer_instance

/-- no two intervals of the tier overlap -/
def NoOverlap (h : Heap) (t : TRef) : Prop :=
  (h.tseq t).vals.Pairwise fun x y => ¬ Overlap (h.start x, h.stop x) (h.start y, h.stop y)

instance (h : Heap) (t : TRef) : Decidable (NoOverlap h t) := by unfold NoOverlap; infer_instance

/-- `l` has for each of the tiers its interval at `time` -/
def AllAt (h : Heap) (time : Time) (ts : List TRef) (l : List Ref) : Prop :=
  l.length = ts.length ∧ ∀ (i : Nat) t x, ts[i]? = some t → l[i]? = some x →
    x ∈ (h.tseq t).vals ∧ At h time x

end ATG
