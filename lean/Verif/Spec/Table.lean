import Verif.Spec.Book
import Verif.Model.DataFrame
/-!
# The table of plain data
-/
namespace ATG

/-- the rows for a group named `nm`: tier by tier, with the place of each entry in its tier and the name of the tier's class -/
def Page.table (nm : String) (p : Page) : List Row :=
  p.flatMap fun t => t.2.mapIdx fun k r =>
    [("tier_index", .int k), ("label", .text r.2.2), ("start", .num r.1), ("end", .num r.2.1), ("entry_class", .text t.1), ("name", .text nm)]

/-- the rows of all groups, named by `names` -/
def Book.table (names : List String) (b : Book) : List Row := (b.zip names).flatMap fun q => q.1.table q.2

/-- a row without its id -/
def withoutId (r : Row) : Row := r.filter fun c => c.1 ≠ "id"

/-- a row without its id and its place -/
def withoutPlace (r : Row) : Row := r.filter fun c => c.1 ≠ "id" && c.1 ≠ "tier_index"

end ATG
