import Verif.Spec.Group
import Verif.Model.Within
/-!
# Paths through containers
-/
namespace ATG

/-- `p` leads from `r` to `n` through `contains`, and back through `within`: each number is a position in
    the `contains` of the object before. -/
inductive Path (h : Heap) (r : Node) : List Nat → Node → Prop
  | here : Path h r [] r
  | down {m n : Node} {p : List Nat} {l : List Node} {i : Nat} : Path h r p m → h.withinOf n = some m →
      h.containsOf m = some l → l[i]? = some n → Path h r (p ++ [i]) n

/-- `r` is an outermost container -/
def Outermost (h : Heap) (r : Node) : Prop :=
  h.withinOf r = none ∨ ∃ m, h.withinOf r = some m ∧ h.containsOf m = none

/-- `n` is `r` or is contained in something under `r` -/
def Under (h : Heap) (r n : Node) : Prop := ∃ p, Path h r p n

end ATG
