import Verif.Spec.Gaps
/-!
# Aligned lists of spans
-/
namespace ATG

/-- the span `x` lies within `u` -/
def InsideS (u x : Time × Time) : Prop := u.1 ≤ x.1 ∧ x.2 ≤ u.2

instance (u x : Time × Time) : Decidable (InsideS u x) := by unfold InsideS; infer_instance

/-- the spans follow each other without gap from `a` to `b`, each of positive length -/
def TilesS : List (Time × Time) → Time → Time → Prop
  | [], _, _ => False
  | [x], a, b => x.1 = a ∧ x.2 = b ∧ a < b
  | x :: y :: r, a, b => x.1 = a ∧ a < x.2 ∧ TilesS (y :: r) x.2 b

instance decTilesS : (l : List (Time × Time)) → (a b : Time) → Decidable (TilesS l a b)
  | [], _, _ => inferInstanceAs (Decidable False)
  | [x], a, b => inferInstanceAs (Decidable (x.1 = a ∧ x.2 = b ∧ a < b))
  | x :: y :: r, _, b => @instDecidableAnd _ _ _ (@instDecidableAnd _ _ _ (decTilesS (y :: r) x.2 b))

/-- The boundaries of the lower spans refine those of the upper ones (`Aligned`, for lists of spans). -/
structure AlignedS (us ls : List (Time × Time)) : Prop where
  upperDisjoint : us.Pairwise fun u v => u.2 ≤ v.1
  lowerDisjoint : ls.Pairwise fun x y => x.2 ≤ y.1
  covered : ∀ x ∈ ls, ∃ u ∈ us, InsideS u x
  tiled : ∀ u ∈ us, TilesS (ls.filter (InsideS u ·)) u.1 u.2

end ATG
