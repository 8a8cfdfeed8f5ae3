import Verif.Lemmas.CleanAgain
import Verif.Lemmas.Filled
/-!
# C96: `AlignedTextGrid.cleanup()` among the edits

In a textgrid imported from tiers without gaps and edited as in C90, there is nothing for `cleanup()` to do as long as no group has lost its first tier:
it raises nothing and changes nothing, so it may be called at any point of an editing session.
-/
namespace ATG

/-- there is nothing to clean up: each group has tiers, and its first tier is the one it was built with or a new one -/
def Draft.Sound (d : Draft) : Prop := ∀ q ∈ d, q.2 = true ∧ q.1 ≠ []

instance (d : Draft) : Decidable d.Sound := by unfold Draft.Sound; infer_instance

/-- **C96.** If the tiers of a workable textgrid all reach from `lo` to `hi` without gaps, and its first tiers are marked, `cleanup()` returns
    and changes nothing at all, not even an object that is not part of the textgrid.
    `_partial`: for textgrids imported and edited as in C90. -/
theorem C96_idle_partial {R : ClassTab → List (List CRef) → Prop} (h : Heap) (a : ARef) (wk : WorkableFor R h (h.agroups a)) (d : Draft)
    (dr : Drafted h (h.agroups a) d) (hne : d ≠ []) (so : d.Sound) (lo hi : Time) (sp : d.Spans lo hi) :
    atgCleanup a h = .ok () h := by
  obtain ⟨h1, h2, h3, h4⟩ := dr.level wk (fun q hq => (so q hq).2) sp
  obtain ⟨fl, rfl, st⟩ := dr
  have hgne : h.agroups a ≠ [] := by
    intro e
    rw [e] at hne
    exact hne rfl
  refine atgCleanup_level rfl hgne wk.gpoint h3 h4 ?_
  refine forL_noop _ _ _ ?_
  intro g hg
  mstep M.get_apply h
  rw [if_neg (by rw [wk.gpoint g hg]; simp)]
  exact groupCleanup_idle rfl (h1 g hg) (wk.rel g hg) (st g hg (so _ (List.mem_map_of_mem hg)).1).rooted (h2 g hg)

/-- **C96, a session.** Import and edits as in C90. If then no group has lost its first tier, `cleanup()` leaves the textgrid as it is.
    `_partial`, as C90 is. -/
theorem C96_session_partial (h : Heap) (tiers : List PTier) (arg : ClassArg) (tss : List (List PTier)) (css : List (List CRef))
    (hr : ReachC h.ct) (td : Tidy h) (ac : Allocated h) (hn : nestify h.ct tiers arg = .ok (tss, css)) (hne : tss ≠ [])
    (hlen : tss.map List.length = css.map List.length) (good : ∀ ts ∈ tss, GoodTiers ts) (es : List Change)
    (gc : Suits h.ct css es) (lo hi : Time) (cov : ∀ ts ∈ tss, Covering ts lo hi) (d' : Draft)
    (hd' : Change.actAll es (draftFrom tss (css.map (List.map h.ct.name))) = some d') (so : d'.Sound) :
    ∃ h', (do let a ← newAtg tiers arg; Change.runAll a es; pure a : M ARef) h = .ok h.nA h' ∧
      bookOf h' h.nA = d'.map (·.1) ∧ atgCleanup h.nA h' = .ok () h' := by
  obtain ⟨h', e, q, wk, dr⟩ := import_workable h tiers arg tss css hr td ac hn hne hlen good es gc lo hi cov d' hd'
  have hl : tss.length = css.length := by simpa using congrArg List.length hlen
  have hne0 : draftFrom tss (css.map (List.map h.ct.name)) ≠ [] := by
    intro e
    have := congrArg List.length e
    unfold draftFrom bookFrom at this
    simp only [List.length_map, List.length_zip, List.length_nil] at this
    have : tss.length = 0 := by omega
    exact hne (List.length_eq_zero_iff.mp this)
  obtain ⟨⟨lo', hi', s⟩, hne'⟩ := Change.actAll_spans es (draftFrom_spans good cov) hne0 hd'
  exact ⟨h', e, q, C96_idle_partial h' h.nA wk d' dr hne' so lo' hi' s⟩

/-! ## Edits and cleanups in any order -/

/-- edits, and `cleanup()` where the list has `none` -/
def Change.runMixed (a : ARef) : List (Option Change) → M Unit
  | [] => pure ()
  | none :: es => do
    atgCleanup a
    Change.runMixed a es
  | some e :: es => do
    e.run a
    Change.runMixed a es

/-- the edits of the plain data; a cleanup leaves it as it is and is called if no group has lost its first tier -/
def Change.actMixed : List (Option Change) → Draft → Option Draft
  | [], d => some d
  | none :: es, d => if d.Sound then Change.actMixed es d else none
  | some e :: es, d => (e.act d).bind (Change.actMixed es)

/-- **C96, any number of edits and cleanups.** They do to the textgrid what the edits alone do to its plain data.
    `_partial`, as `C90_step_partial` is; and no cleanup while a group has lost its first tier. -/
theorem C96_history_partial (a : ARef) (es : List (Option Change)) : ∀ (h : Heap) (d d' : Draft) (lo hi : Time),
    Workable h (h.agroups a) → Drafted h (h.agroups a) d → d ≠ [] → d.Spans lo hi → Change.actMixed es d = some d' →
    ∃ h', Change.runMixed a es h = .ok () h' ∧ Change.runAll a (es.filterMap id) h = .ok () h' ∧
      Workable h' (h'.agroups a) ∧ Drafted h' (h'.agroups a) d' := by
  induction es with
  | nil =>
    intro h d d' lo hi wk dr hne s hd
    cases hd
    exact ⟨h, rfl, rfl, wk, dr⟩
  | cons o es ih =>
    intro h d d' lo hi wk dr hne s hd
    cases o with
    | none =>
      unfold Change.actMixed at hd
      by_cases so : d.Sound
      · rw [if_pos so] at hd
        obtain ⟨h', e, e2, q⟩ := ih h d d' lo hi wk dr hne s hd
        refine ⟨h', ?_, e2, q⟩
        unfold Change.runMixed
        mstep C96_idle_partial h a wk d dr hne so lo hi s
        exact e
      · rw [if_neg so] at hd
        cases hd
    | some e =>
      obtain ⟨d1, h1, h2⟩ := Option.bind_eq_some_iff.mp hd
      obtain ⟨k, e1, wk1, dr1⟩ := C90_step_partial h a wk d dr e d1 h1
      obtain ⟨⟨lo1, hi1, s1⟩, hne1⟩ := e.act_spans s hne h1
      obtain ⟨h', e2, e3, q⟩ := ih k d1 d' lo1 hi1 wk1 dr1 hne1 s1 h2
      refine ⟨h', ?_, ?_, q⟩
      · unfold Change.runMixed
        mstep e1
        exact e2
      · show Change.runAll a (e :: es.filterMap id) h = .ok () h'
        unfold Change.runAll
        mstep e1
        exact e3

/-- **C96, from the Praat textgrid on.** `AlignedTextGrid(textgrid, classes)`, followed by edits as in C90 and cleanups in any order, no cleanup while a
    group has lost its first tier, succeeds and leaves exactly what the edits without the cleanups would have left.
    `_partial`, as `C96_history_partial` is. -/
theorem C96_import_partial (h : Heap) (tiers : List PTier) (arg : ClassArg) (tss : List (List PTier)) (css : List (List CRef))
    (hr : ReachC h.ct) (td : Tidy h) (ac : Allocated h) (hn : nestify h.ct tiers arg = .ok (tss, css)) (hne : tss ≠ [])
    (hlen : tss.map List.length = css.map List.length) (good : ∀ ts ∈ tss, GoodTiers ts) (es : List (Option Change))
    (gc : TopClasses h.ct css) (al : AlikeClasses css) (lo hi : Time) (cov : ∀ ts ∈ tss, Covering ts lo hi) (d' : Draft)
    (hd' : Change.actMixed es (draftFrom tss (css.map (List.map h.ct.name))) = some d') :
    ∃ h', (do let a ← newAtg tiers arg; Change.runMixed a es; pure a : M ARef) h = .ok h.nA h' ∧
      (do let a ← newAtg tiers arg; Change.runAll a (es.filterMap id); pure a : M ARef) h = .ok h.nA h' ∧
      bookOf h' h.nA = d'.map (·.1) := by
  obtain ⟨h1, e1, wk, dr, hne0⟩ := import_start h tiers arg tss css hr td ac hn hne hlen good gc al lo hi cov
  obtain ⟨h', e2, e3, -, dr'⟩ := C96_history_partial h.nA es h1 _ d' lo hi
    wk dr hne0 (draftFrom_spans good cov) hd'
  refine ⟨h', ?_, ?_, dr'.book⟩
  · mstep e1
    mstep e2
    rfl
  · mstep e1
    mstep e3
    rfl

/-! ## Cleanups at any time -/

/-- cleaning up a workable textgrid without gaps: marks of either kind remain -/
theorem Workable.cleaned {h : Heap} {a : ARef} (wk : Workable h (h.agroups a)) {d : Draft}
    (dr : Drafted h (h.agroups a) d) (hne : d ≠ []) (fi : d.Filled) {lo hi : Time} (sp : d.Spans lo hi) :
    ∃ h', atgCleanup a h = .ok () h' ∧ Workable h' (h'.agroups a) ∧ Drafted h' (h'.agroups a) d ∧ SameContents h h' ∧
      h'.agroups = h.agroups ∧ h'.gtiers = h.gtiers ∧ ∀ b, DraftedBy Backed h (h.agroups a) b → DraftedBy Backed h' (h'.agroups a) b := by
  obtain ⟨h1, h2, -, -⟩ := dr.level wk fi sp
  obtain ⟨h', e, wk', sc, gt, ag, st⟩ := forL_cleanup (h.agroups a) (h.agroups a) h (fun _ q => q) wk h1 h2
  have hgne : h.agroups a ≠ [] := by
    obtain ⟨fl, rfl, -⟩ := dr
    intro e
    rw [e] at hne
    exact hne rfl
  have keep : ∀ (P : Heap → List TRef → Prop), (∀ g ∈ h.agroups a, P h (h.gtiers g) → P h' (h.gtiers g)) →
      ∀ d, DraftedBy P h (h.agroups a) d → DraftedBy P h' (h'.agroups a) d := by
    rintro P hP d ⟨fl, rfl, hs⟩
    refine ⟨fl, ?_, ?_⟩
    · rw [ag]
      refine List.map_congr_left fun g _ => ?_
      unfold pageOf rowsOf
      rw [gt, sc.ct, sc.tcls, sc.tseq, sc.start, sc.stop, sc.label]
    · rw [ag, gt]
      exact fun g hg q => hP g hg (hs g hg q)
  have dr' : Drafted h' (h'.agroups a) d := keep Strung (fun g hg => (st g hg).1) d dr
  have wk' : Workable h' (h'.agroups a) := by rw [ag]; exact wk'
  obtain ⟨-, -, h3, h4⟩ := dr'.level wk' fi sp
  exact ⟨h', atgCleanup_level (by rw [ag]) hgne wk'.gpoint h3 h4 e, wk', dr', sc, ag, gt, keep Backed fun g hg => (st g hg).2⟩

/-- **C96, groups that lost their first tier.** If the tiers of a workable textgrid all reach from `lo` to `hi` without gaps, `cleanup()` returns,
    marked or not, and leaves a workable textgrid with the same groups, tiers, intervals, times and labels, in which first tiers that
    were chained still are. It makes no interval and no class.
    `_partial`: for textgrids imported and edited as in C90. -/
theorem C96_kept_partial (h : Heap) (a : ARef) (wk : Workable h (h.agroups a)) (d : Draft)
    (dr : Drafted h (h.agroups a) d) (hne : d ≠ []) (fi : d.Filled) (lo hi : Time) (sp : d.Spans lo hi) :
    ∃ h', atgCleanup a h = .ok () h' ∧ Workable h' (h'.agroups a) ∧ Drafted h' (h'.agroups a) d ∧ SameContents h h' ∧
      h'.agroups = h.agroups ∧ h'.gtiers = h.gtiers := by
  obtain ⟨h', e, wk', dr', sc, ag, gt, -⟩ := wk.cleaned dr hne fi sp
  exact ⟨h', e, wk', dr', sc, ag, gt⟩

/-- **C96, edits and cleanups in any order.** They do to the textgrid what the edits alone do to its plain data, wherever the cleanups are.
    `_partial`, as `C90_step_partial` is. -/
theorem C96_anytime_partial (a : ARef) (es : List (Option Change)) : ∀ (h : Heap) (d d' : Draft) (lo hi : Time),
    Workable h (h.agroups a) → Drafted h (h.agroups a) d → d ≠ [] → d.Filled → d.Spans lo hi → Change.actAll (es.filterMap id) d = some d' →
    ∃ h', Change.runMixed a es h = .ok () h' ∧ Workable h' (h'.agroups a) ∧ Drafted h' (h'.agroups a) d' := by
  induction es with
  | nil =>
    intro h d d' lo hi wk dr hne fi s hd
    cases hd
    exact ⟨h, rfl, wk, dr⟩
  | cons o es ih =>
    intro h d d' lo hi wk dr hne fi s hd
    cases o with
    | none =>
      obtain ⟨k, e1, wk1, dr1, -, -, -⟩ := C96_kept_partial h a wk d dr hne fi lo hi s
      obtain ⟨h', e, q⟩ := ih k d d' lo hi wk1 dr1 hne fi s hd
      refine ⟨h', ?_, q⟩
      unfold Change.runMixed
      mstep e1
      exact e
    | some e =>
      obtain ⟨d1, h1, h2⟩ := Option.bind_eq_some_iff.mp (show (e.act d).bind (Change.actAll (es.filterMap id)) = some d' from hd)
      obtain ⟨k, e1, wk1, dr1⟩ := C90_step_partial h a wk d dr e d1 h1
      obtain ⟨⟨lo1, hi1, s1⟩, hne1⟩ := e.act_spans s hne h1
      obtain ⟨h', e2, q⟩ := ih k d1 d' lo1 hi1 wk1 dr1 hne1 (e.act_filled fi (dr.nodup wk) h1) s1 h2
      refine ⟨h', ?_, q⟩
      unfold Change.runMixed
      mstep e1
      exact e2

/-- **C96, from the Praat textgrid on, cleanups at any time.** `AlignedTextGrid(textgrid, classes)`, followed by edits as in C90 and any number of cleanups
    anywhere among them, succeeds and leaves the groups, tiers, times and labels that the edits alone leave.
    `_partial`, as `C90_step_partial` is. -/
theorem C96_wherever_partial (h : Heap) (tiers : List PTier) (arg : ClassArg) (tss : List (List PTier)) (css : List (List CRef))
    (hr : ReachC h.ct) (td : Tidy h) (ac : Allocated h) (hn : nestify h.ct tiers arg = .ok (tss, css)) (hne : tss ≠ [])
    (hlen : tss.map List.length = css.map List.length) (good : ∀ ts ∈ tss, GoodTiers ts) (es : List (Option Change))
    (gc : TopClasses h.ct css) (al : AlikeClasses css) (lo hi : Time) (cov : ∀ ts ∈ tss, Covering ts lo hi) (d' : Draft)
    (hd' : Change.actAll (es.filterMap id) (draftFrom tss (css.map (List.map h.ct.name))) = some d') :
    ∃ h', (do let a ← newAtg tiers arg; Change.runMixed a es; pure a : M ARef) h = .ok h.nA h' ∧ bookOf h' h.nA = d'.map (·.1) := by
  obtain ⟨h1, e1, wk, dr, hne0⟩ := import_start h tiers arg tss css hr td ac hn hne hlen good gc al lo hi cov
  obtain ⟨h', e2, -, dr'⟩ := C96_anytime_partial h.nA es h1 _ d' lo hi wk dr hne0 (draftFrom_filled hlen gc) (draftFrom_spans good cov) hd'
  refine ⟨h', ?_, dr'.book⟩
  mstep e1
  mstep e2
  rfl

/-! ## A case that meets the hypotheses -/

/-- the edits of C90, with a cleanup before and after each of them, except while the words are gone and there are no phrases yet -/
def exMixed : List (Option Change) :=
  none :: (exChanges.take 3).flatMap (fun e => [some e, none]) ++ ((exChanges.drop 3).take 3).map some ++ none ::
    (exChanges.drop 6).flatMap fun e => [some e, none]

example : exMixed.length = 17 ∧ exMixed.filterMap id = exChanges := ⟨by decide, rfl⟩

example : ∃ h', (do let a ← newAtg exPraat (.flat [cWord, cPhone])
                    Change.runMixed a exMixed
                    pure a : M ARef) heap0 = .ok 0 h' ∧ bookOf h' 0 = exChanged.map (·.1) := by
  obtain ⟨h', e, -, q⟩ := C96_import_partial heap0 exPraat (.flat [cWord, cPhone]) [exPraat.take 2, exPraat.drop 2]
    [[cWord, cPhone], [cWord, cPhone]] .base heap0_tidy heap0_alloc rfl (by simp) (by decide) exPraat_good exMixed
    wordPhone_good.topClasses wordPhone_good.even.2 0 4 exPraat_covering exChanged (by decide +kernel)
  exact ⟨h', e, q⟩

example : ∃ h', (do let a ← newAtg exPraat (.flat [cWord, cPhone])
                    Change.runAll a exChanges
                    pure a : M ARef) heap0 = .ok 0 h' ∧ bookOf h' 0 = exChanged.map (·.1) ∧ atgCleanup 0 h' = .ok () h' :=
  C96_session_partial heap0 exPraat (.flat [cWord, cPhone]) [exPraat.take 2, exPraat.drop 2]
    [[cWord, cPhone], [cWord, cPhone]] .base heap0_tidy heap0_alloc rfl (by simp) (by decide) exPraat_good exChanges
    (.of_good wordPhone_good) 0 4 exPraat_covering exChanged (by decide +kernel) (by decide +kernel)

/-- a cleanup after each of the edits of C90, also while the words are gone -/
def exOften : List (Option Change) := exChanges.flatMap fun e => [some e, none]

example : ∃ h', (do let a ← newAtg exPraat (.flat [cWord, cPhone])
                    Change.runMixed a exOften
                    pure a : M ARef) heap0 = .ok 0 h' ∧ bookOf h' 0 = exChanged.map (·.1) :=
  C96_wherever_partial heap0 exPraat (.flat [cWord, cPhone]) [exPraat.take 2, exPraat.drop 2]
    [[cWord, cPhone], [cWord, cPhone]] .base heap0_tidy heap0_alloc rfl (by simp) (by decide) exPraat_good exOften
    wordPhone_good.topClasses wordPhone_good.even.2 0 4 exPraat_covering exChanged
    (show Change.actAll exChanges _ = _ by decide +kernel)

/-- **`cleanup()` does not make up for a first tier that was popped** (`C90_pop_violated`): it returns, but the first two phones, which touch, still cannot
    be fused. -/
theorem C96_pop_violated :
    ((do let a ← newAtg exPraat (.flat [cWord, cPhone])
         popClass a "Word"
         atgCleanup a : M Unit) heap0).out = .ok () ∧
    ((do let a ← newAtg exPraat (.flat [cWord, cPhone])
         popClass a "Word"
         atgCleanup a
         fuseAt (· ++ ·) a 0 0 0 : M Unit) heap0).out = .error .exc := by
  decide +kernel

end ATG
