import Verif.Spec.Group
/-!
# Tiers and groups that can be added
-/
namespace ATG

/-- Two existing interval tiers of one class `c`, the first not empty and in order: each lists no entry twice,
    and all entries are of class `c` with ordinary labels. (The tiers may share entries.) -/
structure Addable (h : Heap) (t u : TRef) (c : CRef) : Prop where
  old : t < h.nT ∧ u < h.nT
  tcls : h.tcls t = c ∧ h.tcls u = c
  interval : h.ct.isSub c cPoint = false
  sup : ∃ s, h.ct.sup c = some s
  ecls : (h.tseq t).ecls = some c
  ne : (h.tseq t).vals ≠ []
  cls : ∀ x, x ∈ (h.tseq t).vals ∨ x ∈ (h.tseq u).vals → h.cls x = c
  label : ∀ x, x ∈ (h.tseq t).vals ∨ x ∈ (h.tseq u).vals → h.label x ≠ "#"
  once : (h.tseq t).vals.Nodup ∧ (h.tseq u).vals.Nodup
  sorted : SortedByStart h (h.tseq t).vals

/-- Two groups of interval tiers, class by class the same, where everything in the second comes after
    everything in the first, and no entry is in both. -/
structure Consecutive (h : Heap) (ts us : List TRef) : Prop where
  length : us.length = ts.length
  tcls : ∀ (i : Nat) t u, ts[i]? = some t → us[i]? = some u → h.tcls u = h.tcls t
  after : ∀ t ∈ ts, ∀ x ∈ (h.tseq t).vals, ∀ u ∈ us, ∀ y ∈ (h.tseq u).vals, h.stop x ≤ h.start y
  apart : ∀ t ∈ ts, ∀ x ∈ (h.tseq t).vals, ∀ u ∈ us, x ∉ (h.tseq u).vals

/-- The tiers exist, are not empty, have the class links of their class, and each lists intervals of positive
    duration that do not overlap. -/
structure PlainTiers (h : Heap) (ts : List TRef) : Prop where
  old : ∀ t ∈ ts, t < h.nT
  interval : ∀ t ∈ ts, h.ct.isSub (h.tcls t) cPoint = false
  tsup : ∀ t ∈ ts, h.tsup t = h.ct.sup (h.tcls t)
  tsub : ∀ t ∈ ts, h.tsub t = h.ct.sub (h.tcls t)
  sup : ∀ t ∈ ts, ∃ s, h.ct.sup (h.tcls t) = some s
  ecls : ∀ t ∈ ts, (h.tseq t).ecls = some (h.tcls t)
  ne : ∀ t ∈ ts, (h.tseq t).vals ≠ []
  dur : ∀ t ∈ ts, ∀ x ∈ (h.tseq t).vals, h.start x < h.stop x
  disjoint : ∀ t ∈ ts, (h.tseq t).vals.Pairwise fun x y => h.stop x ≤ h.start y

end ATG
