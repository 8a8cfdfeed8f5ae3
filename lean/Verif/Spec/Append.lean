import Verif.Spec.Import
import Verif.Spec.Grid
/-!
# Appending groups to a textgrid
-/
namespace ATG

/-- The classes of the tiers, top to bottom, are a complete hierarchy, and the tiers have been made with it. -/
structure Seated (h : Heap) (ts : List TRef) : Prop where
  hier : IsHierarchy h.ct (ts.map h.tcls)
  tsup : ∀ t ∈ ts, h.tsup t = h.ct.sup (h.tcls t)
  tsub : ∀ t ∈ ts, h.tsub t = h.ct.sub (h.tcls t)

/-- the names of the classes of a group, top to bottom -/
def classNames (h : Heap) (g : GRef) : List String := (h.gtiers g).map fun t => h.ct.name (h.tcls t)

/-- From `h` to `h'` the group `g` was appended to the textgrid `a`, and its tiers were cast to the classes `K`, which
    have the same names; each tier is now named after its class. No interval was made or lost, no time or label differs,
    and other tiers and other groups are what they were. -/
structure Joined (h h' : Heap) (a : ARef) (g : GRef) (K : List CRef) : Prop where
  agroups : h'.agroups = upd h.agroups a (h.agroups a ++ [g])
  gwithin : h'.gwithin g = some a
  gtiers : h'.gtiers = h.gtiers
  start : h'.start = h.start
  stop : h'.stop = h.stop
  label : h'.label = h.label
  vals : ∀ t, (h'.tseq t).vals = (h.tseq t).vals
  tcls : (h.gtiers g).map h'.tcls = K
  cls : ∀ t ∈ h.gtiers g, ∀ x ∈ (h.tseq t).vals, h'.cls x = h'.tcls t
  names : K.map h'.ct.name = classNames h g
  tname : ∀ t ∈ h.gtiers g, h'.tname t = h'.ct.name (h'.tcls t)
  acloned : h'.acloned = upd h.acloned a (h.acloned a ++ K)
  other : ∀ t, t ∉ h.gtiers g → h'.tcls t = h.tcls t ∧ h'.tname t = h.tname t ∧ h'.tseq t = h.tseq t
  otherEntry : ∀ x, ¬ OnTiers h (h.gtiers g) x → h'.cls x = h.cls x ∧ h'.sup x = h.sup x ∧
    (h'.subs x).vals = (h.subs x).vals ∧ h'.fol x = h.fol x ∧ h'.prev x = h.prev x

end ATG
