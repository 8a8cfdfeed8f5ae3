import Verif.Spec.Import
/-!
# Point tiers of a Praat textgrid
-/
namespace ATG

/-- classes of points -/
def PointClasses (ct : ClassTab) (cs : List CRef) : Prop :=
  cs ≠ [] ∧ ∀ c ∈ cs, c < ct.next ∧ ct.isSub c cPoint = true

/-- Point tiers of a Praat textgrid: they consist of points, the times of each tier increase and no label is `#`. A tier may be empty. -/
def GoodPoints (ts : List PTier) : Prop :=
  ∀ t ∈ ts, (∀ p ∈ t.2, p.2.2 ≠ "#") ∧ (t.2.Pairwise fun a b => a.1 < b.1) ∧ ∀ p ∈ t.2, p.1 = p.2.1

/-- Each list of classes is a hierarchy, complete and in order, whose names do not contain `Top` or `Bottom`, or
    consists of classes of points; different classes have different names. -/
structure MixedClasses (ct : ClassTab) (css : List (List CRef)) : Prop where
  kind : ∀ cs ∈ css, (IsHierarchy ct cs ∧ ∀ c ∈ cs, PlainName (ct.name c)) ∨ PointClasses ct cs
  names : ∀ c ∈ css.flatten, ∀ d ∈ css.flatten, ct.name c = ct.name d → c = d

/-- Each list of classes is a hierarchy, complete or without its lowest classes, or consists of classes of points; the
    names of all classes of these hierarchies are as in `MixedClasses`. -/
def ImportClasses (ct : ClassTab) (css : List (List CRef)) : Prop :=
  ∃ full, MixedClasses ct full ∧ TopParts css full ∧
    ∀ (i : Nat) cs L, css[i]? = some cs → full[i]? = some L → PointClasses ct L → cs = L

end ATG
