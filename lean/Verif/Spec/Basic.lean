import Verif.Model.Core
/-!
# Specification vocabulary

What the property statements talk about, written without the model's helper functions.
-/
namespace ATG

/-- start times never decrease along the list -/
def SortedByStart (h : Heap) (l : List Ref) : Prop := l.Pairwise fun a b => h.start a ≤ h.start b

/-- the two entries are both points or both intervals, with the same times and label -/
def SameValue (h : Heap) (x y : Ref) : Prop :=
  h.isPoint x = h.isPoint y ∧ h.start x = h.start y ∧ h.stop x = h.stop y ∧ h.label x = h.label y

/-- what `x in list` is documented to mean: the object itself or an entry with the same value -/
def Listed (h : Heap) (l : List Ref) (x : Ref) : Prop := x ∈ l ∨ ∃ y ∈ l, SameValue h y x

instance (h : Heap) (x y : Ref) : Decidable (SameValue h x y) := by
  unfold SameValue; infer_instance
instance (h : Heap) (l : List Ref) (x : Ref) : Decidable (Listed h l x) := by
  unfold Listed; infer_instance
instance (h : Heap) (l : List Ref) : Decidable (SortedByStart h l) := by
  unfold SortedByStart; infer_instance

/-- Consecutive entries point at each other and the two ends have boundary neighbours. -/
structure DoublyLinked (h : Heap) (l : List Ref) : Prop where
  next : ∀ i x y, l[i]? = some x → l[i + 1]? = some y →
    h.fol x = some (.obj y) ∧ h.prev y = some (.obj x)
  first : ∀ x, l.head? = some x → h.prev x = some .bumper
  last : ∀ x, l.getLast? = some x → h.fol x = some .bumper

/-- two spans share more than a boundary point -/
def Overlap (p q : Time × Time) : Prop := p.1 < q.2 ∧ q.1 < p.2

instance (p q : Time × Time) : Decidable (Overlap p q) := by unfold Overlap; infer_instance

/-- how much of `l` lies in `u` (negative: the distance between them) -/
def shared (l u : Time × Time) : Time := min l.2 u.2 - max l.1 u.1

/-- the starts never decrease, and neither do the ends -/
def SortedSpans (l : List (Time × Time)) : Prop := l.Pairwise fun p q => p.1 ≤ q.1 ∧ p.2 ≤ q.2

instance (l : List (Time × Time)) : Decidable (SortedSpans l) := by
  unfold SortedSpans; infer_instance

end ATG
