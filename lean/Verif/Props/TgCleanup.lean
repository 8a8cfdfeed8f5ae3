import Verif.Lemmas.PadLoop
import Verif.Model.Base
/-!
# Cleanup of a whole textgrid (`aligned_textgrid.py:459-508`)
-/
namespace ATG

/-- the first step of the cleanup: every interval group is cleaned up -/
def cleanGroups (a : ARef) : M Unit := do
  let h ← M.get
  M.forL (h.agroups a) (fun g => do
    let h ← M.get
    if h.gpoint g then pure () else groupCleanup g)

/-- a textgrid of interval groups; the tiers of group `g` are in good order and all reach from `lo g` to
    `hi g`; no tier is in two places -/
structure FlushGroups (h : Heap) (a : ARef) (lo hi : GRef → Time) : Prop where
  flush : ∀ g ∈ h.agroups a, Flush h g (lo g) (hi g)
  nodup : ((h.agroups a).flatMap h.gtiers).Nodup

/-- the least and greatest of the groups' starts and ends -/
structure Extents (h : Heap) (a : ARef) (lo hi : GRef → Time) (smin smax emin emax : Time) : Prop where
  smin : Least lo (h.agroups a) smin
  smax : Greatest lo (h.agroups a) smax
  emin : Least hi (h.agroups a) emin
  emax : Greatest hi (h.agroups a) emax

theorem mapM_ok_map {α β} (f : α → Except Err β) (k : α → β) (l : List α) (hf : ∀ x ∈ l, f x = .ok (k x)) :
    l.mapM f = .ok (l.map k) := by
  induction l with
  | nil => rfl
  | cons x xs ih =>
    rw [List.mapM_cons, hf x (by simp), ih (fun y hy => hf y (by simp [hy]))]
    rfl

/-- the cleanup up to the point where the extents are compared -/
theorem atgCleanup_extents (h h1 : Heap) (a : ARef) (lo hi : GRef → Time) (smin smax emin emax : Time)
    (hc : cleanGroups a h = .ok () h1) (fl : FlushGroups h1 a lo hi)
    (ex : Extents h1 a lo hi smin smax emin emax) :
    atgCleanup a h = (if allclose smin smax && allclose emin emax then pure ()
      else do
        M.forL (h1.agroups a) (fun g => do
          let h ← M.get
          let x ← liftE (groupXmin h g)
          if allclose x smin then pure () else padGroup g smin x)
        M.forL (h1.agroups a) (fun g => do
          let h ← M.get
          let x ← liftE (groupXmax h g)
          if allclose x smax then pure () else padGroup g x emax) : M Unit) h1 := by
  have hiv : (h1.agroups a).filter (fun g => !h1.gpoint g) = h1.agroups a := by
    rw [List.filter_eq_self]
    intro g hg
    rw [(fl.flush g hg).interval]; rfl
  have hs := mapM_ok_map (groupXmin h1) lo (h1.agroups a) (fun g hg => (fl.flush g hg).xmin)
  have he := mapM_ok_map (groupXmax h1) hi (h1.agroups a) (fun g hg => (fl.flush g hg).xmax)
  have e1 : minL ((h1.agroups a).map lo) = some smin := by
    rw [minL_iff]
    refine ⟨?_, ?_⟩
    · obtain ⟨g, hg, e⟩ := ex.smin.1; exact List.mem_map.mpr ⟨g, hg, e⟩
    · intro y hy; obtain ⟨g, hg, rfl⟩ := List.mem_map.mp hy; exact ex.smin.2 g hg
  have e2 : maxL ((h1.agroups a).map lo) = some smax := by
    rw [maxL_iff]
    refine ⟨?_, ?_⟩
    · obtain ⟨g, hg, e⟩ := ex.smax.1; exact List.mem_map.mpr ⟨g, hg, e⟩
    · intro y hy; obtain ⟨g, hg, rfl⟩ := List.mem_map.mp hy; exact ex.smax.2 g hg
  have e3 : minL ((h1.agroups a).map hi) = some emin := by
    rw [minL_iff]
    refine ⟨?_, ?_⟩
    · obtain ⟨g, hg, e⟩ := ex.emin.1; exact List.mem_map.mpr ⟨g, hg, e⟩
    · intro y hy; obtain ⟨g, hg, rfl⟩ := List.mem_map.mp hy; exact ex.emin.2 g hg
  have e4 : maxL ((h1.agroups a).map hi) = some emax := by
    rw [maxL_iff]
    refine ⟨?_, ?_⟩
    · obtain ⟨g, hg, e⟩ := ex.emax.1; exact List.mem_map.mpr ⟨g, hg, e⟩
    · intro y hy; obtain ⟨g, hg, rfl⟩ := List.mem_map.mp hy; exact ex.emax.2 g hg
  unfold cleanGroups at hc
  unfold atgCleanup
  mstep M.get_apply h
  mstep hc
  mstep M.get_apply h1
  simp only [hiv, hs, he]
  mstep (show liftE (Except.ok ((h1.agroups a).map lo)) h1 = .ok ((h1.agroups a).map lo) h1 from rfl)
  mstep (show liftE (Except.ok ((h1.agroups a).map hi)) h1 = .ok ((h1.agroups a).map hi) h1 from rfl)
  simp only [e1, e2, e3, e4]

/-- C39, agreeing extents: the cleanup only cleans up the groups. -/
theorem C39_agree_partial (h h1 : Heap) (a : ARef) (lo hi : GRef → Time) (smin smax emin emax : Time)
    (hc : cleanGroups a h = .ok () h1) (fl : FlushGroups h1 a lo hi)
    (ex : Extents h1 a lo hi smin smax emin emax) (h1' : CloseTo smin smax) (h2' : CloseTo emin emax) :
    atgCleanup a h = .ok () h1 := by
  rw [atgCleanup_extents h h1 a lo hi smin smax emin emax hc fl ex,
    if_pos (by rw [(allclose_iff _ _).mpr h1', (allclose_iff _ _).mpr h2']; rfl)]
  rfl

/-- C39 (what holds): let the cleanup of the groups lead to `h1`, in which the tiers of each interval group
    `g` reach from `lo g` to `hi g`. If the groups' extents differ, then every tier of `g` gets a blank
    interval from the least start to `lo g` in front, unless `lo g` is that start already, and a blank
    interval from `hi g` to the greatest end behind, **unless `hi g` is the greatest start**. Nothing else is
    added and the old intervals are as before. So the groups agree in `xmin`, within numpy's tolerance.

    Missing for the full statement: the groups need not agree in `xmax` (`C39_xmax_violated`) and intervals
    of length 0 are added (`C39_zero_violated`); a points group makes it raise (`C39_points_violated`);
    groups whose tiers differ in extent after their own cleanup. -/
theorem C39_pads_partial (h h1 : Heap) (a : ARef) (lo hi : GRef → Time) (smin smax emin emax : Time)
    (hc : cleanGroups a h = .ok () h1) (fl : FlushGroups h1 a lo hi)
    (ex : Extents h1 a lo hi smin smax emin emax) (hd : ¬ (CloseTo smin smax ∧ CloseTo emin emax)) :
    ∃ h', atgCleanup a h = .ok () h' ∧
      (∀ r, r < h1.nE → h'.span r = h1.span r ∧ h'.label r = h1.label r) ∧
      (∀ g ∈ h1.agroups a, h'.gtiers g = h1.gtiers g ∧ ∀ t ∈ h1.gtiers g, ∃ pre post,
        (h'.tseq t).vals = pre ++ (h1.tseq t).vals ++ post ∧
        (CloseTo (lo g) smin → pre = []) ∧ (¬ CloseTo (lo g) smin → pre.map h'.span = [(smin, lo g)]) ∧
        (CloseTo (hi g) smax → post = []) ∧ (¬ CloseTo (hi g) smax → post.map h'.span = [(hi g, emax)]) ∧
        ∀ r ∈ pre ++ post, h1.nE ≤ r ∧ h'.label r = "" ∧ h'.cls r = h1.tcls t) ∧
      ∀ g ∈ h1.agroups a, (CloseTo (lo g) smin → groupXmin h' g = .ok (lo g)) ∧
        (¬ CloseTo (lo g) smin → groupXmin h' g = .ok smin) ∧
        (CloseTo (hi g) smax → groupXmax h' g = .ok (hi g)) ∧
        (¬ CloseTo (hi g) smax → groupXmax h' g = .ok emax) := by
  obtain ⟨h2, hr2, f2, q2, o2⟩ := padLoop_left smin lo hi (h1.agroups a) h1 fl.nodup fl.flush ex.smin.2
  have fl2 : ∀ g ∈ h1.agroups a, Flush h2 g (if allclose (lo g) smin then lo g else smin) (hi g) :=
    fun g hg => (fl.flush g hg).padded f2 (ex.smin.2 g hg) (q2 g hg)
  obtain ⟨h3, hr3, f3, q3, o3⟩ := padLoop_right smax emax (fun g => if allclose (lo g) smin then lo g else smin)
    hi (h1.agroups a) h2 (by rw [f2.gtiers]; exact fl.nodup) fl2
  have hold : ∀ g ∈ h1.agroups a, ∀ t ∈ h1.gtiers g, ∀ x ∈ (h2.tseq t).vals, x < h2.nE := fun g hg t ht x hx =>
    ((fl2 g hg).good t (by rw [f2.gtiers]; exact ht)).old x hx
  have hi0 : ∀ x y : Time, ¬ CloseTo x y → ¬ allclose x y = true := fun x y e => by rw [allclose_iff]; exact e
  refine ⟨h3, ?_, fun r hr => ?_, ?_, ?_⟩
  · rw [atgCleanup_extents h h1 a lo hi smin smax emin emax hc fl ex, if_neg (by
      rw [Bool.and_eq_true, allclose_iff, allclose_iff]; exact hd)]
    mstep hr2
    exact hr3
  · exact ⟨(f2.trans f3).span r hr, (f2.trans f3).label r hr⟩
  · intro g hg
    refine ⟨(f2.trans f3).gtiers ▸ rfl, fun t ht => ?_⟩
    obtain ⟨pre, p2, e2⟩ := q2 g hg t ht
    obtain ⟨post, p3, e3⟩ := q3 g hg t (by rw [f2.gtiers]; exact ht)
    have p2' := p2.entry f3
    refine ⟨pre, post, by rw [e3, e2], ?_, ?_, ?_, ?_, ?_⟩
    · intro hcl
      have := p2.spans
      unfold padL at this
      rw [if_pos ((allclose_iff _ _).mpr hcl)] at this
      exact List.map_eq_nil_iff.mp this
    · intro hcl
      have := p2'.spans
      unfold padL at this
      rw [if_neg (hi0 _ _ hcl)] at this
      exact this
    · intro hcl
      have := p3.spans
      unfold padR at this
      rw [if_pos ((allclose_iff _ _).mpr hcl)] at this
      exact List.map_eq_nil_iff.mp this
    · intro hcl
      have := p3.spans
      unfold padR at this
      rw [if_neg (hi0 _ _ hcl)] at this
      exact this
    · intro r hr
      rcases List.mem_append.mp hr with hr | hr
      · exact ⟨(p2'.fresh r hr).1, p2'.blank r hr, p2'.cls r hr⟩
      · exact ⟨Nat.le_trans f2.nE (p3.fresh r hr).1, p3.blank r hr, by rw [p3.cls r hr, f2.tcls]⟩
  · intro g hg
    have F := fl2 g hg
    have hx : ∀ t ∈ h3.gtiers g, ∃ post, PadOf h2 h3 (h2.tcls t) (padR (hi g) smax emax) post ∧
        h3.tseq t = ⟨(h2.tseq t).vals ++ post, some (h2.tcls t)⟩ := fun t ht => q3 g hg t (by rw [← f3.gtiers]; exact ht)
    have hne : NoEmptyTier h3 g := by
      intro t ht e
      obtain ⟨post, _, e3⟩ := hx t ht
      rw [e3] at e
      exact F.noEmpty t (by rw [← f3.gtiers]; exact ht) (List.append_eq_nil_iff.mp e).1
    have hsp : ∀ t ∈ h3.gtiers g, ∀ x ∈ (h2.tseq t).vals, h3.span x = h2.span x := fun t ht x hx =>
      f3.span x ((F.good t (by rw [← f3.gtiers]; exact ht)).old x hx)
    have hlo : groupXmin h3 g = .ok (if allclose (lo g) smin then lo g else smin) := by
      rw [C44_group_xmin]
      refine ⟨hne, ?_, ?_⟩
      · obtain ⟨t, ht⟩ := List.exists_mem_of_ne_nil _ F.nonempty
        obtain ⟨⟨x, hxm, e⟩, _⟩ := F.first t ht
        have ht3 : t ∈ h3.gtiers g := by rw [f3.gtiers]; exact ht
        obtain ⟨post, _, e3⟩ := hx t ht3
        refine ⟨x, List.mem_flatMap.mpr ⟨t, ht3, by rw [e3]; simp [hxm]⟩, ?_⟩
        rw [← e]; exact congrArg Prod.fst (hsp t ht3 x hxm)
      · intro x hxm
        obtain ⟨t, ht3, hxm⟩ := List.mem_flatMap.mp hxm
        have ht : t ∈ h2.gtiers g := by rw [← f3.gtiers]; exact ht3
        obtain ⟨post, p3, e3⟩ := hx t ht3
        rw [e3] at hxm
        rcases List.mem_append.mp hxm with hm | hm
        · rw [show h3.start x = h2.start x from congrArg Prod.fst (hsp t ht3 x hm)]
          exact (F.first t ht).2 x hm
        · have hs := List.mem_map_of_mem (f := h3.span) hm
          rw [p3.spans] at hs
          unfold padR at hs
          split at hs
          · cases hs
          · have := congrArg Prod.fst (List.mem_singleton.mp hs)
            rw [show h3.start x = hi g from this]
            obtain ⟨⟨y, hy, ey⟩, hmax⟩ := F.last t ht
            have h1 := (F.first t ht).2 y hy
            have h2' := (F.good t ht).laid.1 _ (List.mem_map_of_mem hy)
            simp only [Heap.span] at h2'
            grind
    have hhi : groupXmax h3 g = .ok (if allclose (hi g) smax then hi g else emax) := by
      rw [C44_group_xmax h3 g _ (by rw [f3.gpoint]; exact F.interval)]
      refine ⟨hne, ?_, ?_⟩
      · obtain ⟨t, ht⟩ := List.exists_mem_of_ne_nil _ F.nonempty
        have ht3 : t ∈ h3.gtiers g := by rw [f3.gtiers]; exact ht
        obtain ⟨post, p3, e3⟩ := hx t ht3
        by_cases hcl : allclose (hi g) smax = true
        · rw [if_pos hcl]
          obtain ⟨⟨x, hxm, e⟩, _⟩ := F.last t ht
          refine ⟨x, List.mem_flatMap.mpr ⟨t, ht3, by rw [e3]; simp [hxm]⟩, ?_⟩
          rw [← e]; exact congrArg Prod.snd (hsp t ht3 x hxm)
        · rw [if_neg hcl]
          have hs := p3.spans
          unfold padR at hs
          rw [if_neg hcl] at hs
          have hm : (hi g, emax) ∈ post.map h3.span := by rw [hs]; simp
          obtain ⟨x, hxm, e⟩ := List.mem_map.mp hm
          exact ⟨x, List.mem_flatMap.mpr ⟨t, ht3, by rw [e3]; simp [hxm]⟩, congrArg Prod.snd e⟩
      · intro x hxm
        obtain ⟨t, ht3, hxm⟩ := List.mem_flatMap.mp hxm
        have ht : t ∈ h2.gtiers g := by rw [← f3.gtiers]; exact ht3
        obtain ⟨post, p3, e3⟩ := hx t ht3
        rw [e3] at hxm
        rcases List.mem_append.mp hxm with hm | hm
        · rw [show h3.stop x = h2.stop x from congrArg Prod.snd (hsp t ht3 x hm)]
          have h1 := (F.last t ht).2 x hm
          have h2' := ex.emax.2 g hg
          split <;> grind
        · have hs := List.mem_map_of_mem (f := h3.span) hm
          rw [p3.spans] at hs
          unfold padR at hs
          split at hs
          · cases hs
          · rename_i hcl
            rw [if_neg hcl]
            have := congrArg Prod.snd (List.mem_singleton.mp hs)
            rw [show h3.stop x = emax from this]
            grind
    refine ⟨fun e => ?_, fun e => ?_, fun e => ?_, fun e => ?_⟩
    · rw [hlo, if_pos ((allclose_iff _ _).mpr e)]
    · rw [hlo, if_neg (hi0 _ _ e)]
    · rw [hhi, if_pos ((allclose_iff _ _).mpr e)]
    · rw [hhi, if_neg (hi0 _ _ e)]

/-- C39 fails whenever the padding runs at all: a group that already reaches to the greatest end, beyond
    every start, gets an interval of length 0 behind each of its tiers. -/
theorem C39_zero_always (h h1 : Heap) (a : ARef) (lo hi : GRef → Time) (smin smax emin emax : Time)
    (hc : cleanGroups a h = .ok () h1) (fl : FlushGroups h1 a lo hi)
    (ex : Extents h1 a lo hi smin smax emin emax) (hd : ¬ (CloseTo smin smax ∧ CloseTo emin emax))
    (g : GRef) (hg : g ∈ h1.agroups a) (hge : hi g = emax) (hgs : ¬ CloseTo emax smax) (t : TRef)
    (ht : t ∈ h1.gtiers g) :
    ∃ h' r, atgCleanup a h = .ok () h' ∧ r ∈ (h'.tseq t).vals ∧ h1.nE ≤ r ∧ h'.start r = h'.stop r := by
  obtain ⟨h', hr, _, hp, _⟩ := C39_pads_partial h h1 a lo hi smin smax emin emax hc fl ex hd
  obtain ⟨pre, post, e, _, _, _, hpost, hnew⟩ := (hp g hg).2 t ht
  have hs := hpost (by rw [hge]; exact hgs)
  have hm : (hi g, emax) ∈ post.map h'.span := by rw [hs]; simp
  obtain ⟨r, hrm, er⟩ := List.mem_map.mp hm
  refine ⟨h', r, hr, by rw [e]; simp [hrm], (hnew r (by simp [hrm])).1, ?_⟩
  have e1 : h'.start r = hi g := congrArg Prod.fst er
  have e2 : h'.stop r = emax := congrArg Prod.snd er
  rw [e1, e2, hge]

/-- two groups of one word tier each, from 1 to 3 and from 2 to 5 -/
def exTwoGroups : Heap := run0 (do
  let t ← newTierFrom [(1, 2, "w"), (2, 3, "v")] cWord "Word"
  let g ← newGroup [t]
  let u ← newTierFrom [(2, 3, "a"), (3, 5, "b")] cWord "Word"
  let g' ← newGroup [u]
  let _ ← newAtgOf [g, g']
  pure ())

/-- the second group starts where the first one ends -/
def exLateGroup : Heap := run0 (do
  let t ← newTierFrom [(1, 2, "w"), (2, 3, "v")] cWord "Word"
  let g ← newGroup [t]
  let u ← newTierFrom [(3, 4, "a"), (4, 5, "b")] cWord "Word"
  let g' ← newGroup [u]
  let _ ← newAtgOf [g, g']
  pure ())

/-- two interval groups with a points group in between -/
def exMixedGroups : Heap := run0 (do
  let t ← newTierFrom [(1, 2, "w"), (2, 3, "v")] cWord "Word"
  let g ← newGroup [t]
  let p ← newEntry cPoint 2 2 "p"
  let u ← newPointTier [p] cPoint "pp"
  let g' ← newPointsGroup [u]
  let u ← newTierFrom [(3, 4, "a"), (4, 5, "b")] cWord "Word"
  let g'' ← newGroup [u]
  let _ ← newAtgOf [g, g', g'']
  pure ())

instance (a b : Time) : Decidable (CloseTo a b) := by unfold CloseTo; infer_instance
instance (h : Heap) (t : TRef) : Decidable (GoodTier h t) :=
  decidable_of_iff (h.ct.isSub (h.tcls t) cPoint = false ∧ (h.tseq t).ecls = some (h.tcls t) ∧
      (h.tsup t).isSome = true ∧ (∀ x ∈ (h.tseq t).vals, x < h.nE) ∧ (∀ x ∈ (h.tseq t).vals, h.cls x = h.tcls t) ∧
      (∀ x ∈ (h.tseq t).vals, h.label x ≠ "#") ∧ Laid ((h.tseq t).vals.map h.span))
    ⟨fun ⟨a, b, c, d, e, f, g⟩ => ⟨a, b, c, d, e, f, g⟩, fun ⟨a, b, c, d, e, f, g⟩ => ⟨a, b, c, d, e, f, g⟩⟩
instance (h : Heap) (g : GRef) (lo hi : Time) : Decidable (Flush h g lo hi) :=
  decidable_of_iff (h.gpoint g = false ∧ h.gtiers g ≠ [] ∧ (h.gtiers g).Nodup ∧ (∀ t ∈ h.gtiers g, GoodTier h t) ∧
      (∀ t ∈ h.gtiers g, Least h.start (h.tseq t).vals lo) ∧ (∀ t ∈ h.gtiers g, Greatest h.stop (h.tseq t).vals hi))
    ⟨fun ⟨a, b, c, d, e, f⟩ => ⟨a, b, c, d, e, f⟩, fun ⟨a, b, c, d, e, f⟩ => ⟨a, b, c, d, e, f⟩⟩

/-- the hypotheses of `C39_pads_partial` and `C39_zero_always` are met -/
example : ∃ h1 lo hi, cleanGroups 0 exTwoGroups = .ok () h1 ∧ FlushGroups h1 0 lo hi ∧
    Extents h1 0 lo hi 1 2 3 5 ∧ ¬ (CloseTo 1 2 ∧ CloseTo 3 5) ∧ 1 ∈ h1.agroups 0 ∧ hi 1 = 5 ∧
    ¬ CloseTo 5 2 := by
  refine ⟨(cleanGroups 0 exTwoGroups).heap, fun g => if g = 0 then 1 else 2, fun g => if g = 0 then 3 else 5,
    ?_, ⟨by decide +kernel, by decide +kernel⟩,
    ⟨by decide +kernel, by decide +kernel, by decide +kernel, by decide +kernel⟩, by decide +kernel,
    by decide +kernel, by decide +kernel, by decide +kernel⟩
  have : (cleanGroups 0 exTwoGroups).out = .ok () := by decide +kernel
  revert this
  cases cleanGroups 0 exTwoGroups with
  | ok v h => intro; rfl
  | err e h => intro h; cases h

/-- C39 is violated: an interval of length 0 is added. -/
theorem C39_zero_violated : ∃ (h : Heap) (a : ARef), (atgCleanup a h).out = .ok () ∧
    (∀ t ∈ (h.agroups a).flatMap h.gtiers, ∀ x ∈ (h.tseq t).vals, h.start x < h.stop x) ∧
    ∃ t ∈ (h.agroups a).flatMap h.gtiers, ∃ x ∈ ((atgCleanup a h).heap.tseq t).vals,
      (atgCleanup a h).heap.start x = (atgCleanup a h).heap.stop x :=
  ⟨exTwoGroups, 0, by decide +kernel⟩

/-- C39 is violated: the groups do not agree in `xmax`, because the group that ends where another one
    starts is not padded on the right. -/
theorem C39_xmax_violated : ∃ (h : Heap) (a : ARef), (atgCleanup a h).out = .ok () ∧
    (∀ g ∈ h.agroups a, h.gpoint g = false) ∧ ∃ g ∈ h.agroups a, ∃ g' ∈ h.agroups a,
      groupXmax (atgCleanup a h).heap g = .ok 3 ∧ groupXmax (atgCleanup a h).heap g' = .ok 5 :=
  ⟨exLateGroup, 0, by decide +kernel⟩

/-- C39 is violated: with a points group in the textgrid the cleanup raises, as the loops that pad
    (`aligned_textgrid.py:483,497`) run over all groups and a point cannot be made from three values. -/
theorem C39_points_violated : ∃ (h : Heap) (a : ARef), (atgCleanup a h).out = .error .valueError ∧
    (h.agroups a).length = 3 :=
  ⟨exMixedGroups, 0, by decide +kernel⟩

end ATG
