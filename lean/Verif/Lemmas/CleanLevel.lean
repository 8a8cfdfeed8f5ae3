import Verif.Props.Reload
/-!
# `AlignedTextGrid.cleanup()` on groups that all reach from one time to another
-/
namespace ATG

/-- the tiers of the groups have no gaps and reach from `lo` to `hi` -/
theorem Drafted.level {R : ClassTab → List (List CRef) → Prop} {h : Heap} {gs : List GRef} (wk : WorkableFor R h gs) {d : Draft}
    (dr : Drafted h gs d) (fl : ∀ q ∈ d, q.1 ≠ []) {lo hi : Time} (sp : d.Spans lo hi) :
    (∀ g ∈ gs, h.gtiers g ≠ []) ∧
    (∀ g ∈ gs, ∀ t ∈ h.gtiers g, ∀ p ∈ gapsOf ((h.tseq t).vals.map h.span), ¬ RealGap p) ∧
    (∀ g ∈ gs, groupXmin h g = .ok lo) ∧ ∀ g ∈ gs, groupXmax h g = .ok hi := by
  obtain ⟨fl', rfl, -⟩ := dr
  have hne : ∀ g ∈ gs, h.gtiers g ≠ [] := by
    intro g hg e
    refine fl _ (List.mem_map_of_mem hg) ?_
    show pageOf h g = []
    unfold pageOf
    rw [e]
    rfl
  have hs : ∀ g ∈ gs, ∀ t ∈ h.gtiers g, rowsOf h t ≠ [] ∧ Seamless lo (rowsOf h t) hi := by
    intro g hg t ht
    exact sp _ (List.mem_map_of_mem hg) (h.ct.name (h.tcls t), rowsOf h t)
      (List.mem_map_of_mem (f := fun t => (h.ct.name (h.tcls t), rowsOf h t)) ht)
  have hb : ∀ g ∈ gs, ∀ t ∈ h.gtiers g, ((∃ x ∈ (h.tseq t).vals, h.start x = lo) ∧ ∀ x ∈ (h.tseq t).vals, lo ≤ h.start x) ∧
      (∃ x ∈ (h.tseq t).vals, h.stop x = hi) ∧ ∀ x ∈ (h.tseq t).vals, h.stop x ≤ hi := by
    intro g hg t ht
    have hl : Laid (rawSpans (rowsOf h t)) := by
      rw [rawSpans_rowsOf]
      refine ⟨?_, List.pairwise_map.mpr ((wk.fit g hg).disjoint t ht)⟩
      intro p hp
      obtain ⟨x, hx, rfl⟩ := List.mem_map.mp hp
      exact (wk.fit g hg).positive t ht x hx
    obtain ⟨⟨⟨p, hp, b1⟩, b2⟩, ⟨p', hp', b3⟩, b4⟩ := Seamless.bounds (hs g hg t ht).1 hl (hs g hg t ht).2
    unfold rowsOf at hp hp' b2 b4
    obtain ⟨x, hx, rfl⟩ := List.mem_map.mp hp
    obtain ⟨x', hx', rfl⟩ := List.mem_map.mp hp'
    exact ⟨⟨⟨x, hx, b1⟩, fun y hy => b2 _ (List.mem_map_of_mem hy)⟩, ⟨x', hx', b3⟩, fun y hy => b4 _ (List.mem_map_of_mem hy)⟩
  have hno : ∀ g ∈ gs, NoEmptyTier h g := by
    intro g hg t ht e
    obtain ⟨⟨⟨x, hx, -⟩, -⟩, -⟩ := hb g hg t ht
    rw [e] at hx
    cases hx
  have hmin : ∀ g ∈ gs, groupXmin h g = .ok lo := by
    intro g hg
    rw [C44_group_xmin]
    refine ⟨hno g hg, ?_, ?_⟩
    · obtain ⟨t, ht⟩ := List.exists_mem_of_ne_nil _ (hne g hg)
      obtain ⟨⟨⟨x, hx, e⟩, -⟩, -⟩ := hb g hg t ht
      exact ⟨x, List.mem_flatMap.mpr ⟨t, ht, hx⟩, e⟩
    · intro x hx
      obtain ⟨t, ht, hx⟩ := List.mem_flatMap.mp hx
      exact (hb g hg t ht).1.2 x hx
  have hmax : ∀ g ∈ gs, groupXmax h g = .ok hi := by
    intro g hg
    rw [C44_group_xmax h g hi (wk.gpoint g hg)]
    refine ⟨hno g hg, ?_, ?_⟩
    · obtain ⟨t, ht⟩ := List.exists_mem_of_ne_nil _ (hne g hg)
      obtain ⟨-, ⟨x, hx, e⟩, -⟩ := hb g hg t ht
      exact ⟨x, List.mem_flatMap.mpr ⟨t, ht, hx⟩, e⟩
    · intro x hx
      obtain ⟨t, ht, hx⟩ := List.mem_flatMap.mp hx
      exact (hb g hg t ht).2.2 x hx
  refine ⟨hne, ?_, hmin, hmax⟩
  intro g hg t ht p hp
  have := (hs g hg t ht).2.noGap
  rw [rawSpans_rowsOf] at this
  rw [this] at hp
  cases hp

/-- if cleaning up the groups leaves them all reaching from one time to another, this is all there is to do -/
theorem atgCleanup_level {h h' : Heap} {a : ARef} {lo hi : Time} (hag : h'.agroups a = h.agroups a) (hgne : h.agroups a ≠ [])
    (hp : ∀ g ∈ h'.agroups a, h'.gpoint g = false) (hmin : ∀ g ∈ h'.agroups a, groupXmin h' g = .ok lo)
    (hmax : ∀ g ∈ h'.agroups a, groupXmax h' g = .ok hi)
    (e1 : M.forL (h.agroups a) (fun g => do
      let h ← M.get
      if h.gpoint g then pure () else groupCleanup g) h = .ok () h') : atgCleanup a h = .ok () h' := by
  have hiv : (h'.agroups a).filter (fun g => !h'.gpoint g) = h'.agroups a := by
    rw [List.filter_eq_self]
    intro g hg
    rw [hp g hg]; rfl
  obtain ⟨g0, hg0⟩ := List.exists_mem_of_ne_nil (h'.agroups a) (by rw [hag]; exact hgne)
  have emin : ∀ m : Time, minL ((h'.agroups a).map fun _ => m) = some m := by
    intro m
    rw [minL_iff]
    exact ⟨List.mem_map.mpr ⟨g0, hg0, rfl⟩, fun y hy => by obtain ⟨g, -, rfl⟩ := List.mem_map.mp hy; exact Rat.le_refl⟩
  have emax : ∀ m : Time, maxL ((h'.agroups a).map fun _ => m) = some m := by
    intro m
    rw [maxL_iff]
    exact ⟨List.mem_map.mpr ⟨g0, hg0, rfl⟩, fun y hy => by obtain ⟨g, -, rfl⟩ := List.mem_map.mp hy; exact Rat.le_refl⟩
  unfold atgCleanup
  mstep M.get_apply h
  mstep e1
  mstep M.get_apply h'
  simp only [hiv, mapM_ok_map (groupXmin h') (fun _ => lo) _ hmin, mapM_ok_map (groupXmax h') (fun _ => hi) _ hmax]
  mstep (show liftE (Except.ok ((h'.agroups a).map fun _ => lo)) h' = .ok ((h'.agroups a).map fun _ => lo) h' from rfl)
  mstep (show liftE (Except.ok ((h'.agroups a).map fun _ => hi)) h' = .ok ((h'.agroups a).map fun _ => hi) h' from rfl)
  simp only [emin, emax]
  rw [if_pos (by rw [(allclose_iff _ _).mpr (CloseTo.refl _), (allclose_iff _ _).mpr (CloseTo.refl _)]; rfl)]
  rfl

/-- the textgrid made from covering tiers, before any edit -/
theorem import_start (h : Heap) (tiers : List PTier) (arg : ClassArg) (tss : List (List PTier)) (css : List (List CRef))
    (hr : ReachC h.ct) (td : Tidy h) (ac : Allocated h) (hn : nestify h.ct tiers arg = .ok (tss, css)) (hne : tss ≠ [])
    (hlen : tss.map List.length = css.map List.length) (good : ∀ ts ∈ tss, GoodTiers ts)
    (gc : TopClasses h.ct css) (al : AlikeClasses css) (lo hi : Time) (cov : ∀ ts ∈ tss, Covering ts lo hi) :
    ∃ h1, newAtg tiers arg h = .ok h.nA h1 ∧ Workable h1 (h1.agroups h.nA) ∧
      Drafted h1 (h1.agroups h.nA) (draftFrom tss (css.map (List.map h.ct.name))) ∧ draftFrom tss (css.map (List.map h.ct.name)) ≠ [] := by
  obtain ⟨h1, e1, hd, gr, -, -, -, hm, tw, oc⟩ := C74_exact_partial h tiers arg tss css hr td ac hn hne hlen good gc lo hi cov
  have dr : Drafted h1 (h1.agroups h.nA) (draftFrom tss (css.map (List.map h.ct.name))) := by
    refine ⟨fun _ => true, ?_, fun g hg _ => (hm g hg).1.strung (hm g hg).2⟩
    unfold draftFrom
    rw [← hd.book]
    unfold bookOf
    rw [List.map_map]
    rfl
  have hh : ∀ g ∈ h1.agroups h.nA, Homed h1 (h1.gtiers g) := fun g hg =>
    (hm g hg).1.homed fun t ht => ((tw.part g hg).mem (List.mem_map.mpr ⟨t, ht, rfl⟩)).2.2.1
  have hl : tss.length = css.length := by simpa using congrArg List.length hlen
  have hne0 : draftFrom tss (css.map (List.map h.ct.name)) ≠ [] := by
    intro e
    have := congrArg List.length e
    unfold draftFrom bookFrom at this
    simp only [List.length_map, List.length_zip, List.length_nil] at this
    have : tss.length = 0 := by omega
    exact hne (List.length_eq_zero_iff.mp this)
  exact ⟨h1, e1, ⟨gr.editable (oc al), hh, gr.interval, fun g hg => (gr.groups g hg).gpoint⟩, dr, hne0⟩

end ATG
