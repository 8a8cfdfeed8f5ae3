import Verif.Model.Tier
/-!
# What an append can reach
-/
namespace ATG

/-- The tiers `T` and the entries `E` are all that an append can reach: with an entry its superset and its subset list,
    with a tier the other tiers of its group. -/
structure Reach (h : Heap) (T : List TRef) (E : List Ref) : Prop where
  subs : ∀ x ∈ E, ∀ y ∈ (h.subs x).vals, y ∈ E
  sup : ∀ x ∈ E, ∀ y, h.sup x = some y → y ∈ E
  tiers : ∀ t ∈ T, ∀ g, h.twithin t = some g → ∀ u ∈ h.gtiers g, u ∈ T

/-- no two different entries have the same times and the same label -/
structure Distinct (h : Heap) (T : List TRef) (E : List Ref) : Prop where
  entries : ∀ x ∈ E, ∀ y ∈ E, h.tup x = h.tup y → x = y
  tiers : ∀ t ∈ T, ∀ y ∈ (h.tseq t).vals, ∀ x ∈ E, h.tup y = h.tup x → y = x

/-- the pairs of a tier and an entry that is not on it -/
def absent (h : Heap) (T : List TRef) (E : List Ref) : List (TRef × Ref) :=
  (T.flatMap fun t => E.map fun x => (t, x)).filter fun p => !(h.tseq p.1).vals.contains p.2

end ATG
