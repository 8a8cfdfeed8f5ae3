import Verif.Spec.Book
import Verif.Model.Index
/-!
# Fusing and relabelling intervals of a textgrid, for plain data
-/
namespace ATG

/-- The rows `k` and `k + 1` of the tier `j` as one. This is possible if they touch, the joined label is an ordinary one, and, unless `j` is
    the first tier, a row of the tier above contains both. -/
def Page.fuse (J : String → String → String) (j k : Nat) (p : Page) : Option Page :=
  match p[j]? with
  | none => none
  | some (n, rs) =>
    match rs[k]?, rs[k + 1]? with
    | some r, some r' =>
      if r.2.1 = r'.1 ∧ J r.2.2 r'.2.2 ≠ "#" ∧
          (j = 0 ∨ ∃ q ∈ ((p[j - 1]?).map (·.2)).getD [], (q.1 ≤ r.1 ∧ r.2.1 ≤ q.2.1) ∧ q.1 ≤ r'.1 ∧ r'.2.1 ≤ q.2.1) then
        some (p.set j (n, rs.take k ++ (r.1, r'.2.1, J r.2.2 r'.2.2) :: rs.drop (k + 2)))
      else none
    | _, _ => none

/-- the row `k` of the tier `j` with another label -/
def Page.relabel (lab : String) (j k : Nat) (p : Page) : Option Page :=
  match p[j]? with
  | none => none
  | some (n, rs) =>
    match rs[k]? with
    | some r => if lab ≠ "#" then some (p.set j (n, rs.set k (r.1, r.2.1, lab))) else none
    | none => none

/-- the row `k` of the tier `j` and the one before it as one -/
def Page.fuseLeft (J : String → String → String) (j : Nat) : Nat → Page → Option Page
  | 0, _ => none
  | k + 1, p => p.fuse J j k

/-- edits of single intervals: `atg[i][j][k].fuse_rightwards(J)`, `atg[i][j][k].fuse_leftwards(J)`, `atg[i][j][k].label = lab` -/
inductive Touch where
  | fuse (J : String → String → String) (i j k : Nat)
  | fuseLeft (J : String → String → String) (i j k : Nat)
  | relabel (lab : String) (i j k : Nat)

def Touch.run (a : ARef) : Touch → M Unit
  | .fuse J i j k => fuseAt J a i j k
  | .fuseLeft J i j k => fuseLeftAt J a i j k
  | .relabel lab i j k => relabelAt lab a i j k

end ATG
