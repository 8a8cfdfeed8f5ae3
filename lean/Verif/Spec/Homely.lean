import Verif.Model.Textgrid
/-!
# Tiers that know their entries
-/
namespace ATG

/-- the superset and subset classes that the tiers have written down are those of their classes -/
def TiersFresh (h : Heap) (ts : List TRef) : Prop :=
  ∀ t ∈ ts, h.tsup t = h.ct.sup (h.tcls t) ∧ h.tsub t = h.ct.sub (h.tcls t)

/-- the entry before the place `i`, or the boundary mark -/
def beforeAt (l : List Ref) : Nat → Link
  | 0 => .bumper
  | k + 1 => l[k]?.elim .bumper .obj

/-- each entry of the first tier is preceded by the one before it, the first by the boundary mark -/
def Backed (h : Heap) (ts : List TRef) : Prop :=
  ∀ t, ts[0]? = some t → ∀ (i : Nat) u, (h.tseq t).vals[i]? = some u →
    h.prev u = some (beforeAt (h.tseq t).vals i)

/-- The tiers know their entries and each other: each entry is at home on its tier, the superset class of each tier is
    the class of the tier above, subset lists know the class of their entries, and each entry of the first tier
    is followed by the next one and preceded by the one before it, the last and the first by the boundary mark. -/
structure Homely (h : Heap) (ts : List TRef) : Prop where
  home : ∀ t ∈ ts, ∀ x ∈ (h.tseq t).vals, h.intier x = some t
  tsup : ∀ (i : Nat) t t', ts[i]? = some t → ts[i + 1]? = some t' → h.tsup t' = some (h.tcls t)
  typed : ∀ (i : Nat) t t', ts[i]? = some t → ts[i + 1]? = some t' → ∀ u ∈ (h.tseq t).vals,
    (h.subs u).ecls = some (h.tcls t')
  chained : ∀ t, ts[0]? = some t → ∀ (i : Nat) u, (h.tseq t).vals[i]? = some u →
    h.fol u = some ((h.tseq t).vals[i + 1]?.elim .bumper .obj)
  fresh : TiersFresh h ts
  back : Backed h ts

/-- The part of this that interleaving and popping tiers keep: each entry is at home on its tier, no tier with entries below
    the first has `Top` as its superset class, subset lists know the class of their entries, and the tiers are fresh. -/
structure Homed (h : Heap) (ts : List TRef) : Prop where
  home : ∀ t ∈ ts, ∀ x ∈ (h.tseq t).vals, h.intier x = some t
  below : ∀ (i : Nat) t, ts[i + 1]? = some t → (h.tseq t).vals ≠ [] → h.tsup t ≠ some cTop
  typed : ∀ (i : Nat) t t', ts[i]? = some t → ts[i + 1]? = some t' → ∀ u ∈ (h.tseq t).vals,
    (h.subs u).ecls = some (h.tcls t')
  fresh : TiersFresh h ts

/-- the subset lists of the entries of all tiers but the last know the class of the tier below -/
def Typed (h : Heap) (ts : List TRef) : Prop :=
  ∀ (i : Nat) t t', ts[i]? = some t → ts[i + 1]? = some t' → ∀ u ∈ (h.tseq t).vals, (h.subs u).ecls = some (h.tcls t')

/-- entries of the first tier that had no superset are followed and preceded by what followed and preceded them, and within what they
    were within -/
def FirstKept (h h' : Heap) (ts : List TRef) : Prop :=
  ∀ t, ts[0]? = some t → ∀ x ∈ (h.tseq t).vals, h.sup x = none →
    h'.fol x = h.fol x ∧ h'.within x = h.within x ∧ h'.prev x = h.prev x

/-- each entry of the first tier is followed by the next one, the last by the boundary mark, and is within the tier -/
def Strung (h : Heap) (ts : List TRef) : Prop :=
  ∀ t, ts[0]? = some t → ∀ (i : Nat) u, (h.tseq t).vals[i]? = some u →
    h.fol u = some ((h.tseq t).vals[i + 1]?.elim .bumper .obj) ∧ h.within u = some (.tier t)

/-- the superset class is a `Top` -/
def UnderTop (ct : ClassTab) (c : CRef) : Prop := ∃ p, ct.sup c = some p ∧ ct.isSub p cTop = true

/-- the entries of the first tier are within the tier -/
def Rooted (h : Heap) (ts : List TRef) : Prop :=
  ∀ t, ts[0]? = some t → ∀ x ∈ (h.tseq t).vals, h.within x = some (.tier t)

end ATG
