import Verif.Lemmas.Extent
import Verif.Props.Shift
/-!
# C44: extents of groups and textgrids
-/
namespace ATG

/-- `m` is the least value of `f` on the list -/
def Least (f : Ref → Time) (l : List Ref) (m : Time) : Prop := (∃ x ∈ l, f x = m) ∧ ∀ x ∈ l, m ≤ f x
/-- `m` is the greatest value of `f` on the list -/
def Greatest (f : Ref → Time) (l : List Ref) (m : Time) : Prop := (∃ x ∈ l, f x = m) ∧ ∀ x ∈ l, f x ≤ m

instance (f l m) : Decidable (Least f l m) := by unfold Least; infer_instance
instance (f l m) : Decidable (Greatest f l m) := by unfold Greatest; infer_instance

/-- no tier of the group is empty -/
def NoEmptyTier (h : Heap) (g : GRef) : Prop := ∀ t ∈ h.gtiers g, (h.tseq t).vals ≠ []

instance (h g) : Decidable (NoEmptyTier h g) := by unfold NoEmptyTier; infer_instance

/-- C44: `group.xmin` (of either kind of group) is the least start on any of its tiers; it fails exactly
    when a tier is empty or there is none. -/
theorem C44_group_xmin (h : Heap) (g : GRef) (m : Time) :
    groupXmin h g = .ok m ↔ NoEmptyTier h g ∧ Least h.start (groupEntries h g) m := by
  unfold groupXmin NoEmptyTier Least groupEntries
  rw [minOfExtents_iff]
  simp only [List.mem_map, List.mem_flatMap]
  constructor
  · rintro ⟨⟨t, ht, hm⟩, hall⟩
    rw [tierXmin_iff] at hm
    refine ⟨?_, ⟨hm.1.choose, ⟨t, ht, hm.1.choose_spec.1⟩, hm.1.choose_spec.2⟩, ?_⟩
    · intro s hs e
      obtain ⟨k, hk, _⟩ := hall _ ⟨s, hs, rfl⟩
      rw [tierXmin_iff, e] at hk; simp at hk
    · rintro x ⟨s, hs, hx⟩
      obtain ⟨k, hk, hle⟩ := hall _ ⟨s, hs, rfl⟩
      rw [tierXmin_iff] at hk
      have := hk.2 x hx; grind
  · rintro ⟨hne, ⟨x, ⟨t, ht, hx⟩, hxm⟩, hall⟩
    refine ⟨⟨t, ht, ?_⟩, ?_⟩
    · rw [tierXmin_iff]; exact ⟨⟨x, hx, hxm⟩, fun y hy => hall y ⟨t, ht, hy⟩⟩
    · rintro o ⟨s, hs, rfl⟩
      obtain ⟨k, hk⟩ := tierXmin_some h s (hne s hs)
      refine ⟨k, hk, ?_⟩
      rw [tierXmin_iff] at hk
      obtain ⟨⟨y, hy, rfl⟩, _⟩ := hk
      exact hall y ⟨s, hs, hy⟩

/-- C44: `xmax` of a `TierGroup` is the greatest end on any of its tiers. -/
theorem C44_group_xmax (h : Heap) (g : GRef) (m : Time) (hg : h.gpoint g = false) :
    groupXmax h g = .ok m ↔ NoEmptyTier h g ∧ Greatest h.stop (groupEntries h g) m := by
  unfold groupXmax NoEmptyTier Greatest groupEntries
  rw [if_neg (by simp [hg]), maxOfExtents_iff]
  simp only [List.mem_map, List.mem_flatMap]
  constructor
  · rintro ⟨⟨t, ht, hm⟩, hall⟩
    rw [tierXmax_iff] at hm
    refine ⟨?_, ⟨hm.1.choose, ⟨t, ht, hm.1.choose_spec.1⟩, hm.1.choose_spec.2⟩, ?_⟩
    · intro s hs e
      obtain ⟨k, hk, _⟩ := hall _ ⟨s, hs, rfl⟩
      rw [tierXmax_iff, e] at hk; simp at hk
    · rintro x ⟨s, hs, hx⟩
      obtain ⟨k, hk, hle⟩ := hall _ ⟨s, hs, rfl⟩
      rw [tierXmax_iff] at hk
      have := hk.2 x hx; grind
  · rintro ⟨hne, ⟨x, ⟨t, ht, hx⟩, hxm⟩, hall⟩
    refine ⟨⟨t, ht, ?_⟩, ?_⟩
    · rw [tierXmax_iff]; exact ⟨⟨x, hx, hxm⟩, fun y hy => hall y ⟨t, ht, hy⟩⟩
    · rintro o ⟨s, hs, rfl⟩
      obtain ⟨k, hk⟩ := tierXmax_some h s (hne s hs)
      refine ⟨k, hk, ?_⟩
      rw [tierXmax_iff] at hk
      obtain ⟨⟨y, hy, rfl⟩, _⟩ := hk
      exact hall y ⟨s, hs, hy⟩

/-- Two points on one tier of a points group. -/
def exPoints : Heap := run0 (do
  let p ← newEntry cPoint 1 1 "a"
  let q ← newEntry cPoint 4 4 "b"
  let t ← newPointTier [p, q] cPoint "pts"
  let _ ← newPointsGroup [t])

/-- C44 is violated for a points group: `xmax` takes the maximum of the tiers' `xmin`
    (`points/tiers.py:318-323`), so a tier with points at 1 and 4 gives 1. -/
theorem C44_points_violated : ∃ (h : Heap) (g : GRef) (m : Time), h.gpoint g = true ∧
    groupXmax h g = .ok m ∧ ¬ Greatest h.stop (groupEntries h g) m :=
  ⟨exPoints, 0, 1, by decide +kernel⟩

/-- C44, what does hold for a points group: `xmax` is the greatest of the tiers' first times. It is the
    greatest time, as claimed, when no tier has two different times. -/
theorem C44_points_partial (h : Heap) (g : GRef) (m : Time) (hg : h.gpoint g = true)
    (hp : ∀ x ∈ groupEntries h g, h.stop x = h.start x)
    (hone : ∀ t ∈ h.gtiers g, ∀ x ∈ (h.tseq t).vals, ∀ y ∈ (h.tseq t).vals, h.start x = h.start y) :
    groupXmax h g = .ok m ↔ NoEmptyTier h g ∧ Greatest h.stop (groupEntries h g) m := by
  have hx : groupXmax h g = groupXmax { h with gpoint := fun _ => false } g := by
    unfold groupXmax
    simp only [hg, if_true]
    congr 1
    apply List.map_congr_left
    intro t ht
    show tierXmin h t = tierXmax h t
    by_cases e : (h.tseq t).vals = []
    · simp [tierXmin, tierXmax, Heap.tstarts, Heap.tends, e, minL, maxL]
    · obtain ⟨k, hk⟩ := tierXmin_some h t e
      rw [hk]; symm
      rw [tierXmin_iff] at hk
      rw [tierXmax_iff]
      have hst : ∀ x ∈ (h.tseq t).vals, h.stop x = h.start x := fun x hx =>
        hp x (by unfold groupEntries; rw [List.mem_flatMap]; exact ⟨t, ht, hx⟩)
      obtain ⟨⟨x, hx, rfl⟩, h2⟩ := hk
      refine ⟨⟨x, hx, hst x hx⟩, fun y hy => ?_⟩
      rw [hst y hy, hone t ht y hy x hx]; exact Rat.le_refl
  rw [hx]
  exact C44_group_xmax { h with gpoint := fun _ => false } g m rfl

/-- no group of the textgrid has an empty tier -/
def NoEmptyTierA (h : Heap) (a : ARef) : Prop := ∀ g ∈ h.agroups a, NoEmptyTier h g ∧ h.gtiers g ≠ []

theorem groupXmin_ok (h : Heap) (g : GRef) (h1 : NoEmptyTier h g) (h2 : h.gtiers g ≠ []) :
    ∃ m, groupXmin h g = .ok m := by
  have : ∃ ts : List Time, (h.gtiers g).map (tierXmin h) = ts.map some := allSome _ (by
    intro o ho
    simp only [List.mem_map] at ho
    obtain ⟨t, ht, rfl⟩ := ho
    exact tierXmin_some h t (h1 t ht))
  obtain ⟨ts, hts⟩ := this
  unfold groupXmin minOfExtents
  rw [(mapM_id_some _ ts).mpr hts]
  simp only []
  cases e : minL ts with
  | some m => exact ⟨m, rfl⟩
  | none => rw [minL_none] at e; subst e; simp at hts; exact absurd hts h2

theorem groupXmax_ok (h : Heap) (g : GRef) (hg : h.gpoint g = false) (h1 : NoEmptyTier h g)
    (h2 : h.gtiers g ≠ []) : ∃ m, groupXmax h g = .ok m := by
  have : ∃ ts : List Time, (h.gtiers g).map (tierXmax h) = ts.map some := allSome _ (by
    intro o ho
    simp only [List.mem_map] at ho
    obtain ⟨t, ht, rfl⟩ := ho
    exact tierXmax_some h t (h1 t ht))
  obtain ⟨ts, hts⟩ := this
  unfold groupXmax maxOfExtents
  rw [if_neg (by simp [hg]), (mapM_id_some _ ts).mpr hts]
  simp only []
  cases e : maxL ts with
  | some m => exact ⟨m, rfl⟩
  | none => rw [maxL_none] at e; subst e; simp at hts; exact absurd hts h2

/-- C44: `xmin` of a textgrid is the least start of all its entries; it fails exactly when there is no
    group or some group has no tier or an empty one. -/
theorem C44_textgrid_xmin (h : Heap) (a : ARef) (m : Time) :
    atgXmin h a = .ok m ↔ NoEmptyTierA h a ∧ Least h.start (atgEntries h a) m := by
  unfold atgXmin
  constructor
  · intro e
    cases hm : (h.agroups a).mapM (groupXmin h) with
    | error x => rw [hm] at e; cases e
    | ok l =>
      rw [hm] at e
      simp only [] at e
      cases hl : minL l with
      | none => rw [hl] at e; cases e
      | some k =>
        rw [hl] at e
        injection e with e; subst e
        rw [mapM_ok_iff] at hm
        rw [minL_iff] at hl
        have hg : ∀ g ∈ h.agroups a, ∃ k ∈ l, groupXmin h g = .ok k := by
          intro g hg
          have : groupXmin h g ∈ (h.agroups a).map (groupXmin h) := List.mem_map.mpr ⟨g, hg, rfl⟩
          rw [hm, List.mem_map] at this
          obtain ⟨k, hk, e⟩ := this
          exact ⟨k, hk, e.symm⟩
        have hk : ∃ g ∈ h.agroups a, groupXmin h g = .ok k := by
          have : Except.ok k ∈ l.map (Except.ok (ε := Err)) := List.mem_map.mpr ⟨k, hl.1, rfl⟩
          rw [← hm, List.mem_map] at this
          exact this
        refine ⟨?_, ?_, ?_⟩
        · intro g hgm
          obtain ⟨j, _, hj⟩ := hg g hgm
          rw [C44_group_xmin] at hj
          refine ⟨hj.1, ?_⟩
          intro e
          have := hj.2.1
          simp [groupEntries, e] at this
        · obtain ⟨g, hgm, hj⟩ := hk
          rw [C44_group_xmin] at hj
          obtain ⟨x, hx, hxm⟩ := hj.2.1
          exact ⟨x, List.mem_flatMap.mpr ⟨g, hgm, hx⟩, hxm⟩
        · intro x hx
          obtain ⟨g, hgm, hxg⟩ := List.mem_flatMap.mp hx
          obtain ⟨j, hjl, hj⟩ := hg g hgm
          rw [C44_group_xmin] at hj
          have h1 := hj.2.2 x hxg
          have h2 := hl.2 j hjl
          grind
  · rintro ⟨hne, ⟨x, hx, hxm⟩, hall⟩
    obtain ⟨l, hl⟩ := mapM_exists_ok (groupXmin h) (h.agroups a) (fun g hg =>
      groupXmin_ok h g (hne g hg).1 (hne g hg).2)
    rw [hl]
    simp only []
    rw [mapM_ok_iff] at hl
    obtain ⟨g, hgm, hxg⟩ := List.mem_flatMap.mp hx
    have hmin : groupXmin h g = .ok m := by
      rw [C44_group_xmin]
      exact ⟨(hne g hgm).1, ⟨x, hxg, hxm⟩, fun y hy => hall y (List.mem_flatMap.mpr ⟨g, hgm, hy⟩)⟩
    have : minL l = some m := by
      rw [minL_iff]
      constructor
      · have : groupXmin h g ∈ (h.agroups a).map (groupXmin h) := List.mem_map.mpr ⟨g, hgm, rfl⟩
        rw [hl, hmin, List.mem_map] at this
        obtain ⟨k, hk, e⟩ := this
        injection e with e; exact e ▸ hk
      · intro k hk
        have : Except.ok k ∈ l.map (Except.ok (ε := Err)) := List.mem_map.mpr ⟨k, hk, rfl⟩
        rw [← hl, List.mem_map] at this
        obtain ⟨g', hg', e⟩ := this
        rw [C44_group_xmin] at e
        obtain ⟨y, hy, hyk⟩ := e.2.1
        rw [← hyk]
        exact hall y (List.mem_flatMap.mpr ⟨g', hg', hy⟩)
    rw [this]

/-- C44: `xmax` of a textgrid without points groups is the greatest end of all its entries. -/
theorem C44_textgrid_xmax_partial (h : Heap) (a : ARef) (m : Time)
    (hp : ∀ g ∈ h.agroups a, h.gpoint g = false) :
    atgXmax h a = .ok m ↔ NoEmptyTierA h a ∧ Greatest h.stop (atgEntries h a) m := by
  unfold atgXmax
  constructor
  · intro e
    cases hm : (h.agroups a).mapM (groupXmax h) with
    | error x => rw [hm] at e; cases e
    | ok l =>
      rw [hm] at e
      simp only [] at e
      cases hl : maxL l with
      | none => rw [hl] at e; cases e
      | some k =>
        rw [hl] at e
        injection e with e; subst e
        rw [mapM_ok_iff] at hm
        rw [maxL_iff] at hl
        have hg : ∀ g ∈ h.agroups a, ∃ k ∈ l, groupXmax h g = .ok k := by
          intro g hg
          have : groupXmax h g ∈ (h.agroups a).map (groupXmax h) := List.mem_map.mpr ⟨g, hg, rfl⟩
          rw [hm, List.mem_map] at this
          obtain ⟨k, hk, e⟩ := this
          exact ⟨k, hk, e.symm⟩
        have hk : ∃ g ∈ h.agroups a, groupXmax h g = .ok k := by
          have : Except.ok k ∈ l.map (Except.ok (ε := Err)) := List.mem_map.mpr ⟨k, hl.1, rfl⟩
          rw [← hm, List.mem_map] at this
          exact this
        refine ⟨?_, ?_, ?_⟩
        · intro g hgm
          obtain ⟨j, _, hj⟩ := hg g hgm
          rw [C44_group_xmax h g j (hp g hgm)] at hj
          refine ⟨hj.1, ?_⟩
          intro e
          have := hj.2.1
          simp [groupEntries, e] at this
        · obtain ⟨g, hgm, hj⟩ := hk
          rw [C44_group_xmax h g k (hp g hgm)] at hj
          obtain ⟨x, hx, hxm⟩ := hj.2.1
          exact ⟨x, List.mem_flatMap.mpr ⟨g, hgm, hx⟩, hxm⟩
        · intro x hx
          obtain ⟨g, hgm, hxg⟩ := List.mem_flatMap.mp hx
          obtain ⟨j, hjl, hj⟩ := hg g hgm
          rw [C44_group_xmax h g j (hp g hgm)] at hj
          have h1 := hj.2.2 x hxg
          have h2 := hl.2 j hjl
          grind
  · rintro ⟨hne, ⟨x, hx, hxm⟩, hall⟩
    obtain ⟨l, hl⟩ := mapM_exists_ok (groupXmax h) (h.agroups a) (fun g hg =>
      groupXmax_ok h g (hp g hg) (hne g hg).1 (hne g hg).2)
    rw [hl]
    simp only []
    rw [mapM_ok_iff] at hl
    obtain ⟨g, hgm, hxg⟩ := List.mem_flatMap.mp hx
    have hmin : groupXmax h g = .ok m := by
      rw [C44_group_xmax h g m (hp g hgm)]
      exact ⟨(hne g hgm).1, ⟨x, hxg, hxm⟩, fun y hy => hall y (List.mem_flatMap.mpr ⟨g, hgm, hy⟩)⟩
    have : maxL l = some m := by
      rw [maxL_iff]
      constructor
      · have : groupXmax h g ∈ (h.agroups a).map (groupXmax h) := List.mem_map.mpr ⟨g, hgm, rfl⟩
        rw [hl, hmin, List.mem_map] at this
        obtain ⟨k, hk, e⟩ := this
        injection e with e; exact e ▸ hk
      · intro k hk
        have : Except.ok k ∈ l.map (Except.ok (ε := Err)) := List.mem_map.mpr ⟨k, hk, rfl⟩
        rw [← hl, List.mem_map] at this
        obtain ⟨g', hg', e⟩ := this
        rw [C44_group_xmax h g' k (hp g' hg')] at e
        obtain ⟨y, hy, hyk⟩ := e.2.1
        rw [← hyk]
        exact hall y (List.mem_flatMap.mpr ⟨g', hg', hy⟩)
    rw [this]

/-- The extents of a textgrid with two tiers. -/
example : atgXmin exGrid 0 = .ok 0 ∧ atgXmax exGrid 0 = .ok 5 ∧ groupXmin exGrid 0 = .ok 0 ∧
    exGrid.agroups 0 = [0] ∧ exGrid.gpoint 0 = false := by decide +kernel

end ATG
