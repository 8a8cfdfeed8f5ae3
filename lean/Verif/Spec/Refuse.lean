import Verif.Spec.Draft
/-!
# Edits of single intervals that are not possible
-/
namespace ATG

/-- the row `k` of the tier `j` is the last, or, unless `j` is the first tier, no row of the tier above contains it and the next one -/
def Page.rightEdge (j k : Nat) (p : Page) : Prop :=
  ∃ n rs r, p[j]? = some (n, rs) ∧ rs[k]? = some r ∧
    (rs[k + 1]? = none ∨ ∃ r', rs[k + 1]? = some r' ∧ j ≠ 0 ∧
      ∀ q ∈ ((p[j - 1]?).map (·.2)).getD [], ¬ ((q.1 ≤ r.1 ∧ r.2.1 ≤ q.2.1) ∧ q.1 ≤ r'.1 ∧ r'.2.1 ≤ q.2.1))

/-- the row `k` of the tier `j` is the first, or no row of the tier above contains it and the one before -/
def Page.leftEdge (j k : Nat) (p : Page) : Prop :=
  ∃ n rs r, p[j]? = some (n, rs) ∧ rs[k]? = some r ∧
    (k = 0 ∨ ∃ r', rs[k - 1]? = some r' ∧
      ∀ q ∈ ((p[j - 1]?).map (·.2)).getD [], ¬ ((q.1 ≤ r'.1 ∧ r'.2.1 ≤ q.2.1) ∧ q.1 ≤ r.1 ∧ r.2.1 ≤ q.2.1))

/-- the place of the edit: group, tier, row -/
def Touch.place : Touch → Nat × Nat × Nat
  | .fuse _ i j k => (i, j, k)
  | .fuseLeft _ i j k => (i, j, k)
  | .relabel _ i j k => (i, j, k)

/-- labels are never the boundary mark, and `fuse_leftwards` is not for the first tier -/
def Touch.sure : Touch → Prop
  | .fuse J _ _ _ => ∀ s t, J s t ≠ "#"
  | .fuseLeft J _ j _ => j ≠ 0 ∧ ∀ s t, J s t ≠ "#"
  | .relabel lab _ _ _ => lab ≠ "#"

/-- each first tier has its mark, and its rows touch -/
def Solid (d : Draft) : Prop :=
  ∀ q ∈ d, q.2 = true ∧ ∀ n rs, q.1[0]? = some (n, rs) → ∀ (k : Nat) r r', rs[k]? = some r → rs[k + 1]? = some r' → r.2.1 = r'.1

/-- `try: ... except Exception: pass` -/
def attempt (m : M Unit) : M Unit := fun h =>
  match m h with
  | .ok _ h' => .ok () h'
  | .err _ h' => .ok () h'

def Touch.tryAll (a : ARef) : List Touch → M Unit
  | [] => pure ()
  | e :: es => do
    attempt (e.run a)
    Touch.tryAll a es

/-- the edits that are possible, one after the other; the others are left out -/
def Touch.actAll : List Touch → Draft → Draft
  | [], d => d
  | e :: es, d => Touch.actAll es (((Change.touch e).act d).getD d)

end ATG
