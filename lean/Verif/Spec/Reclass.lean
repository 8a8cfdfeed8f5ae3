import Verif.Spec.Import
import Verif.Spec.Group
/-!
# A tier with another class (C67)
-/
namespace ATG

/-- `h`, except that the class of the tier `t`, of its list and of its entries is `c` -/
def reclassed (h : Heap) (t : TRef) (c : CRef) : Heap :=
  { h with
    tcls := upd h.tcls t c
    tsup := upd h.tsup t (h.ct.sup c)
    tsub := upd h.tsub t (h.ct.sub c)
    tseq := upd h.tseq t ⟨(h.tseq t).vals, if (h.tseq t).vals = [] then none else some c⟩
    cls := fun x => if x ∈ (h.tseq t).vals then c else h.cls x }

/-- The textgrid `a`, whose classes are the hierarchies `Ls`, has in its hierarchy `K` a class `c` of the name of the
    class of the tier `t`; if that class is the highest of its hierarchy, so is `c`. -/
structure HasClass (h : Heap) (a : ARef) (t : TRef) (Ls : List (List CRef)) (K : List CRef) (c : CRef) : Prop where
  cloned : h.acloned a = Ls.flatten
  good : GoodClasses h.ct Ls
  hier : K ∈ Ls
  cls : c ∈ K
  name : h.ct.name c = h.ct.name (h.tcls t)
  interval : h.ct.isSub (h.tcls t) cInterval = true ∧ h.ct.isSub (h.tcls t) cPoint = false
  top : ∃ s, h.ct.sup (h.tcls t) = some s ∧ (h.ct.isSub s cTop = true → K.head? = some c)

end ATG
