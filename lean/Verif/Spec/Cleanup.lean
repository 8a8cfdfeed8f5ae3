import Verif.Spec.Group
import Verif.Spec.Gaps
import Verif.Spec.Interleave
/-!
# Groups with gaps
-/
namespace ATG

/-- a tier whose entries exist, are of its class and laid out one after the other, at positive times if there
    are gaps between them -/
structure Fillable (h : Heap) (t : TRef) : Prop where
  old : ∀ x ∈ (h.tseq t).vals, x < h.nE
  ecls : (h.tseq t).ecls = some (h.tcls t)
  laid : Laid ((h.tseq t).vals.map h.span)
  pos : gapsOf ((h.tseq t).vals.map h.span) ≠ [] → ∀ x ∈ (h.tseq t).vals, 0 < h.start x

/-- The interval group `g` has the tiers `ts`, one for each class of a hierarchy from below `Top` down to some
    class, aligned with each other (coinciding gaps are allowed, if all times are positive). Only a group whose
    tiers reach down to `Bottom` is what they are within; the tiers of any other group are within nothing. -/
structure TierStack (h : Heap) (g : GRef) (ts : List TRef) : Prop where
  gtiers : h.gtiers g = ts
  gcont : ToBottom h ts → h.gcont g = some ts
  gpoint : h.gpoint g = false
  ne : ts ≠ []
  chain : ClassChain h ts
  top : ∀ t, ts[0]? = some t → ∃ c, h.ct.sup (h.tcls t) = some c ∧ h.ct.isSub c cTop = true
  aligned : AlignedTiers h ts
  tiers : ∀ t ∈ ts, Fillable h t
  twithin : ToBottom h ts → ∀ t ∈ ts, h.twithin t = some g
  loose : ¬ ToBottom h ts → ∀ t ∈ ts, h.twithin t = none

/-- such a group whose intervals are related by containment -/
structure GapGroup (h : Heap) (g : GRef) (ts : List TRef) : Prop extends TierStack h g ts where
  related : RelatedByContainment h ts

/-- Exactly one blank interval of the tier's class fills each gap of the tier `t`; the old entries are still there
    in their old order, and consecutive entries touch. -/
structure FilledTier (h h' : Heap) (t : TRef) (new : List Ref) : Prop where
  fresh : ∀ x ∈ new, h.nE ≤ x ∧ x < h'.nE ∧ h'.label x = "" ∧ h'.cls x = h.tcls t
  spans : new.map h'.span = gapsOf ((h.tseq t).vals.map h.span)
  kept : (h.tseq t).vals.Sublist (h'.tseq t).vals
  perm : (h'.tseq t).vals.Perm ((h.tseq t).vals ++ new)
  touching : gapsOf ((h'.tseq t).vals.map h'.span) = []
  laid : Laid ((h'.tseq t).vals.map h'.span)

end ATG
