import Verif.Spec.Group
/-!
# Tiers whose boundaries do not match
-/
namespace ATG

/-- Two tiers that follow the same speech with different boundaries: the upper intervals are in order, the
    lower ones follow each other without gaps, every upper interval has a lower one that lies more in it than
    in any other, and at least one lower interval crosses a boundary of the upper tier. -/
structure Mismatched (h : Heap) (upper lower : List Ref) : Prop where
  order : SortedSpans (upper.map fun u => (h.start u, h.stop u))
  tiled : ∃ a b, Tiles h lower a b
  owns : ∀ u ∈ upper, ∃ x ∈ lower, ∀ v ∈ upper, v ≠ u →
    shared (h.start x, h.stop x) (h.start v, h.stop v) < shared (h.start x, h.stop x) (h.start u, h.stop u)
  crosses : ∃ x ∈ lower, ∀ u ∈ upper, ¬ Inside h u x

end ATG
