import Verif.Model.Textgrid
/-!
# The groups an import makes
-/
namespace ATG

/-- name and class of a tier -/
def tag (h : Heap) (t : TRef) : String × CRef := (h.tname t, h.tcls t)

/-- name and class for each tier whose class is a class of points (`pt`) or is not -/
def tagsOf (ct : ClassTab) (pt : Bool) (l : List (PTier × CRef)) : List (String × CRef) :=
  (l.filter fun p => ct.isSub p.2 cPoint == pt).map fun p => (p.1.1, p.2)

/-- The groups `gs` made of one list of tiers with classes: one of interval tiers, if there are any, then one of
    all point tiers, if there are any. Points are given classes of points, intervals are not. -/
structure MadeOf (h : Heap) (ct : ClassTab) (l : List (PTier × CRef)) (gs : List GRef) : Prop where
  kinds : gs.map h.gpoint = (if tagsOf ct false l = [] then [] else [false]) ++ (if tagsOf ct true l = [] then [] else [true])
  points : ∀ g ∈ gs, h.gpoint g = true → (h.gtiers g).map (tag h) = tagsOf ct true l
  intervals : ∀ g ∈ gs, h.gpoint g = false → ∀ t ∈ h.gtiers g, tag h t ∈ tagsOf ct false l
  tiers : ∀ g ∈ gs, ∀ t ∈ h.gtiers g, t < h.nT
  groups : ∀ g ∈ gs, g < h.nG
  fit : ∀ q ∈ l, ∀ p ∈ q.1.2, p.1 = p.2.1 ↔ ct.isSub q.2 cPoint = true

end ATG
