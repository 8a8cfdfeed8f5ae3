import Verif.Model.Textgrid
/-!
# Flat lists of classes of several hierarchies
-/
namespace ATG

/-- The list `l` has exactly the classes of the hierarchies `hs`, each once, in any order. Each hierarchy is
    listed from its top (below a `Top` class) down, each class the subset class of the one before; the last
    one has below it a `Bottom` class or a class that is not listed. -/
structure Hierarchies (ct : ClassTab) (l : List CRef) (hs : List (List CRef)) : Prop where
  nodup : l.Nodup
  all : l.Perm hs.flatten
  interval : ∀ c ∈ l, ct.isSub c cPoint = false
  top : ∀ hh ∈ hs, ∃ c s, hh[0]? = some c ∧ ct.sup c = some s ∧ ct.isSub s cTop = true
  below : ∀ hh ∈ hs, ∀ (i : Nat) c d, hh[i]? = some c → hh[i + 1]? = some d →
    ct.sub c = some d ∧ ct.isSub d cBottom = false ∧ ∃ s, ct.sup d = some s ∧ ct.isSub s cTop = false
  bottom : ∀ hh ∈ hs, ∀ c, hh.getLast? = some c → ∃ d, ct.sub c = some d ∧ (ct.isSub d cBottom = true ∨ d ∉ l)

end ATG
