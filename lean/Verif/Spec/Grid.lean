import Verif.Spec.Cleanup
import Verif.Props.Cleanup
import Verif.Lemmas.PopAll
/-!
# Textgrids with gaps
-/
namespace ATG

/-- The groups `gs` consist of complete, aligned and related tiers; no tier and no entry is in two places, and the
    relations stay within the groups. -/
structure GapGrid (h : Heap) (gs : List GRef) : Prop where
  nodup : gs.Nodup
  tiers : (gs.flatMap h.gtiers).Nodup
  separate : Separate h gs
  groups : ∀ g ∈ gs, GapGroup h g (h.gtiers g)
  interval : ∀ g ∈ gs, ∀ t ∈ h.gtiers g, h.ct.isSub (h.tcls t) cPoint = false
  closed : ∀ g ∈ gs, SupClosed h (h.gtiers g)
  tidy : Tidy h
  alloc : Allocated h

/-- some tier of the group has a gap that numpy's comparison notices -/
def HasGap (h : Heap) (g : GRef) : Prop :=
  ∃ t ∈ h.gtiers g, ∃ p ∈ gapsOf ((h.tseq t).vals.map h.span), RealGap p

/-- the tiers of the group `g` have been filled, if one of them had a gap -/
def GroupFilled (h h' : Heap) (g : GRef) : Prop :=
  (¬ HasGap h g → ∀ t ∈ h.gtiers g, h'.tseq t = h.tseq t) ∧
  (HasGap h g → ∃ new : TRef → List Ref, ∀ t ∈ h.gtiers g, FilledTier h h' t (new t))

end ATG
