import Verif.Spec.Book
import Verif.Model.Repr
/-!
# What plain data has to say of an interval
-/
namespace ATG

/-- one row lies within another -/
def Span3.within (r s : Span3) : Prop := s.1 ≤ r.1 ∧ r.2.1 ≤ s.2.1

instance (r s : Span3) : Decidable (r.within s) := by unfold Span3.within; infer_instance

/-- the rows of tier `j` -/
def Page.rows (p : Page) (j : Nat) : List Span3 := (p[j]?.map (·.2)).getD []

/-- the rows of the tier above tier `j` that contain the row `r` -/
def Page.above (p : Page) (r : Span3) : Nat → List Span3
  | 0 => []
  | j + 1 => (p.rows j).filter fun s => r.within s

/-- The text for row `r` of tier `j`, if the class above the first tier is called `top` and the class below the last `bottom`: names of
    the class and its neighbours, the label, that of the row of the tier above which contains it, and those of the rows of the tier below
    which it contains. -/
def Page.portrait (rq : String → String) (top bottom : String) (p : Page) (j : Nat) (r : Span3) : String :=
  let names := top :: p.map (·.1) ++ [bottom]
  let below := (p.rows (j + 1)).filter fun s => s.within r
  "Class " ++ (names[j + 1]?).getD "" ++ ", label: " ++ r.2.2 ++ ", .superset_class: " ++ (names[j]?).getD "" ++
    (match p.above r j with
      | [] => ", .super_instance, None"
      | s :: _ => ", .super_instance: " ++ s.2.2) ++
    ", .subset_class: " ++ (names[j + 2]?).getD "" ++
    (if below = [] then "" else ", .subset_list: " ++ pyList (below.map fun s => rq s.2.2))

end ATG
