import Verif.Model.Classes
/-!
# Structure as a stair of names
-/
namespace ATG

/-- the names, each followed by `(` and a newline, the one at place `i` after `2 * i` spaces -/
def stair (names : List String) : List String :=
  names.mapIdx fun i n => String.ofList (List.replicate (2 * i) ' ') ++ n ++ "(\n"

/-- a chain of classes from top to bottom: each is the superset class of the next, and the next its subset class, seen from the inner
    classes, those other than the first and the last -/
structure Descent (ct : ClassTab) (p : CRef) (cs : List CRef) (q : CRef) : Prop where
  first : cs.head?.bind ct.sup = some p
  last : cs.getLast?.bind ct.sub = some q
  down : ∀ (i : Nat) c c', cs[i]? = some c → cs[i + 1]? = some c' → ct.sub c = some c' ∧ ct.sup c' = some c

end ATG
