import Verif.Spec.Basic
/-!
# Aligned tiers
-/
namespace ATG

/-- the span of `x` lies within that of `u` -/
def Inside (h : Heap) (u x : Ref) : Prop := h.start u ≤ h.start x ∧ h.stop x ≤ h.stop u

instance (h : Heap) (u x : Ref) : Decidable (Inside h u x) := by unfold Inside; infer_instance

/-- the entries follow each other without gap from `a` to `b`, each with a positive duration -/
def Tiles (h : Heap) : List Ref → Time → Time → Prop
  | [], _, _ => False
  | [x], a, b => h.start x = a ∧ h.stop x = b ∧ a < b
  | x :: y :: r, a, b => h.start x = a ∧ a < h.stop x ∧ Tiles h (y :: r) (h.stop x) b

instance decTiles (h : Heap) : (l : List Ref) → (a b : Time) → Decidable (Tiles h l a b)
  | [], _, _ => inferInstanceAs (Decidable False)
  | [x], a, b => inferInstanceAs (Decidable (h.start x = a ∧ h.stop x = b ∧ a < b))
  | x :: y :: r, _, b => @instDecidableAnd _ _ _ (@instDecidableAnd _ _ _ (decTiles h (y :: r) (h.stop x) b))

/-- The boundaries of the lower tier refine those of the upper one: neither tier overlaps itself, every
    lower interval lies in some upper one, and every upper interval is tiled by the lower intervals inside
    it. (The upper tier may have gaps; the lower tier then has the same gaps.) -/
structure Aligned (h : Heap) (upper lower : List Ref) : Prop where
  upperDisjoint : upper.Pairwise fun u v => h.stop u ≤ h.start v
  lowerDisjoint : lower.Pairwise fun x y => h.stop x ≤ h.start y
  covered : ∀ x ∈ lower, ∃ u ∈ upper, Inside h u x
  tiled : ∀ u ∈ upper, Tiles h (lower.filter (Inside h u ·)) (h.start u) (h.stop u)

/-- Supersets and subset lists agree, and every subset list holds entries of one class, once each, with
    distinct values and ordinary labels. (Holds for intervals not yet related; C12, C13 keep it.) -/
structure Tidy (h : Heap) : Prop where
  agree : ∀ v x, x ∈ (h.subs v).vals ↔ h.sup x = some v
  nodup : ∀ v, (h.subs v).vals.Nodup
  distinct : ∀ v, ∀ x ∈ (h.subs v).vals, ∀ y ∈ (h.subs v).vals, SameValue h x y → x = y
  cls : ∀ v, ∀ x ∈ (h.subs v).vals, ∀ y ∈ (h.subs v).vals, h.cls x = h.cls y
  label : ∀ v, ∀ x ∈ (h.subs v).vals, h.label x ≠ "#"

/-- The same, but only the entries in `L` have to be listed by their superset: others may name a superset that
    does not list them (any more). -/
structure TidyOn (L : Ref → Prop) (h : Heap) : Prop where
  down : ∀ v x, x ∈ (h.subs v).vals → h.sup x = some v
  up : ∀ v x, L x → h.sup x = some v → x ∈ (h.subs v).vals
  nodup : ∀ v, (h.subs v).vals.Nodup
  distinct : ∀ v, ∀ x ∈ (h.subs v).vals, ∀ y ∈ (h.subs v).vals, SameValue h x y → x = y
  cls : ∀ v, ∀ x ∈ (h.subs v).vals, ∀ y ∈ (h.subs v).vals, h.cls x = h.cls y
  label : ∀ v, ∀ x ∈ (h.subs v).vals, h.label x ≠ "#"

/-- `x` is an entry of one of the tiers -/
def OnTiers (h : Heap) (ts : List TRef) (x : Ref) : Prop := ∃ t ∈ ts, x ∈ (h.tseq t).vals

/-- Tiers from top to bottom that fit together: no entry occurs twice, entries have the class of their tier
    and ordinary labels, each tier's class is the subset class of the one above, and the boundaries of each
    tier refine those of the one above. -/
structure AlignedTiers (h : Heap) (ts : List TRef) : Prop where
  once : (ts.map fun t => (h.tseq t).vals).flatten.Nodup
  cls : ∀ t ∈ ts, ∀ x ∈ (h.tseq t).vals, h.cls x = h.tcls t
  label : ∀ t ∈ ts, ∀ x ∈ (h.tseq t).vals, h.label x ≠ "#"
  chain : ∀ i t t', ts[i]? = some t → ts[i + 1]? = some t' → h.ct.sub (h.tcls t) = some (h.tcls t')
  aligned : ∀ i t t', ts[i]? = some t → ts[i + 1]? = some t' →
    Aligned h (h.tseq t).vals (h.tseq t').vals

/-- Tiers, top to bottom, whose classes form a chain: distinct classes, each the subset class of the one
    above (and that one its superset class); above the first and below the last there is the `Top` or
    `Bottom` class or a class without a tier among these. -/
structure ClassChain (h : Heap) (ts : List TRef) : Prop where
  distinct : (ts.map h.tcls).Nodup
  down : ∀ i t t', ts[i]? = some t → ts[i + 1]? = some t' →
    h.tsub t = some (h.tcls t') ∧ h.tsup t' = some (h.tcls t)
  inner : ∀ i t t', ts[i]? = some t → ts[i + 1]? = some t' →
    h.ct.isSub (h.tcls t) cTop = false ∧ h.ct.isSub (h.tcls t') cBottom = false
  top : ∀ t, ts[0]? = some t → ∃ c, h.tsup t = some c ∧
    (h.ct.isSub c cTop = true ∨ ∀ t' ∈ ts, h.tcls t' ≠ c)
  bottom : ∀ t, ts[ts.length - 1]? = some t → ∃ c, h.tsub t = some c ∧
    (h.ct.isSub c cBottom = true ∨ ∀ t' ∈ ts, h.tcls t' ≠ c)

/-- The lowest of the tiers has a class right above `Bottom`: no tier is missing below it. -/
def ToBottom (h : Heap) (ts : List TRef) : Prop :=
  ∀ t, ts.getLast? = some t → ∃ c, h.tsub t = some c ∧ h.ct.isSub c cBottom = true

/-- The tiers, top to bottom, are related by containment: every interval's subset list is exactly the
    intervals of the next tier inside it, in order, linked among themselves only; their superset and
    container is that interval, whose `contains` is its subset list; every interval below the top tier is in such a list; the intervals of the
    top tier have no superset. -/
structure RelatedByContainment (h : Heap) (ts : List TRef) : Prop where
  subs : ∀ i t t', ts[i]? = some t → ts[i + 1]? = some t' → ∀ u ∈ (h.tseq t).vals,
    (h.subs u).vals = (h.tseq t').vals.filter (Inside h u ·) ∧ (h.subs u).vals ≠ []
  linked : ∀ i t t', ts[i]? = some t → ts[i + 1]? = some t' → ∀ u ∈ (h.tseq t).vals,
    DoublyLinked h (h.subs u).vals
  sup : ∀ i t t', ts[i]? = some t → ts[i + 1]? = some t' → ∀ u ∈ (h.tseq t).vals, ∀ x ∈ (h.subs u).vals,
    h.sup x = some u ∧ h.within x = some (.ival u)
  covered : ∀ i t t', ts[i]? = some t → ts[i + 1]? = some t' → ∀ x ∈ (h.tseq t').vals,
    ∃ u ∈ (h.tseq t).vals, x ∈ (h.subs u).vals
  top : ∀ t, ts[0]? = some t → ∀ x ∈ (h.tseq t).vals, h.sup x = none
  contains : ∀ i t t', ts[i]? = some t → ts[i + 1]? = some t' → ∀ u ∈ (h.tseq t).vals, h.cont u = .alias

/-- no time, label, class, tier content or tier attribute differs, and no entry was made -/
structure SameContents (h h' : Heap) : Prop where
  start : h'.start = h.start
  stop : h'.stop = h.stop
  label : h'.label = h.label
  cls : h'.cls = h.cls
  nE : h'.nE = h.nE
  tseq : h'.tseq = h.tseq
  tcls : h'.tcls = h.tcls
  tname : h'.tname = h.tname
  ct : h'.ct = h.ct

end ATG
