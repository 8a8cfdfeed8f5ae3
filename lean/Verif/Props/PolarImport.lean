import Verif.Lemmas.FlatIndex
import Verif.Model.PolarGrid
import Verif.Props.PolarRanges
import Verif.Props.TgPoints
/-!
# C86: importing PoLaR textgrids
-/
namespace ATG

/-- `p` is the last of the tiers `tss` that is given the class `c` by `css` -/
def LastFor (tss : List (List PTier)) (css : List (List CRef)) (c : CRef) (p : PTier) : Prop :=
  ∃ i : Nat, tss.flatten[i]? = some p ∧ css.flatten[i]? = some c ∧ ∀ j : Nat, i < j → css.flatten[j]? ≠ some c

/-- the tier that gets the attribute named after a class -/
theorem import_named (h : Heap) (tiers : List PTier) (arg : ClassArg) (tss : List (List PTier)) (css : List (List CRef))
    (hr : ReachC h.ct) (td : Tidy h) (ac : Allocated h) (hn : nestify h.ct tiers arg = .ok (tss, css))
    (hlen : tss.map List.length = css.map List.length) (mc : ImportClasses h.ct css)
    (hiv : ∃ cs ∈ css, TopPart h.ct cs) (lo hi : Time)
    (good : ∀ (i : Nat) ts cs, tss[i]? = some ts → css[i]? = some cs →
      (TopPart h.ct cs → GoodTiers ts ∧ Covering ts lo hi) ∧ (PointClasses h.ct cs → GoodPoints ts)) :
    ∃ h', newAtg tiers arg h = .ok h.nA h' ∧ ∀ c p, LastFor tss css c p → ∃ t, namedTier h' h.nA (h.ct.name c) = some t ∧ h'.ptier t = p ∧
      (h.ct.isSub c cPoint = true → h'.ct.isSub (h'.tcls t) cPoint = true ∧
        h'.ct.isSub (h'.tcls t) c = true ∧ ∀ x ∈ (h'.tseq t).vals, h'.intier x = some t ∧ h'.cls x = h'.tcls t) ∧
      (h.ct.isSub c cPoint = false → h'.isPointTier t = false ∧ Laid (rawSpans (h'.ptier t).2)) := by
  have w := hr.wfc
  obtain ⟨h', e, ⟨v1, v2⟩, hkind, gr, hpts, hsub, -⟩ :=
    C83_import_partial h tiers arg tss css hr td ac hn hlen mc hiv lo hi good
  generalize hgs : h'.agroups h.nA = gs at *
  -- the tiers in one list
  have f1 : (gs.flatMap h'.gtiers).map h'.ptier = tss.flatten := by
    rw [← v1, List.map_flatMap, List.flatMap_def]
  have f2 : (gs.flatMap h'.gtiers).map (fun t => h'.ct.name (h'.tcls t)) = css.flatten.map h.ct.name := by
    rw [List.map_flatten, ← v2, List.map_flatMap, List.flatMap_def]
  have hshape : (gs.map h'.gtiers).map List.length = css.map List.length := by
    rw [← hlen, ← v1, List.map_map, List.map_map]
    exact List.map_congr_left fun g _ => by simp
  have hat := flat_at (R := fun t c => (h.ct.isSub c cPoint = true → h'.ct.isSub (h'.tcls t) cPoint = true ∧
        h'.ct.isSub (h'.tcls t) c = true ∧ ∀ x ∈ (h'.tseq t).vals, h'.intier x = some t ∧ h'.cls x = h'.tcls t) ∧
      (h.ct.isSub c cPoint = false → h'.isPointTier t = false ∧ Laid (rawSpans (h'.ptier t).2)))
    (gs.map h'.gtiers) css hshape (by
      intro i ts cs hi hc j t c hj hcj
      rw [List.getElem?_map, Option.map_eq_some_iff] at hi
      obtain ⟨g, hg, rfl⟩ := hi
      have ht := List.mem_of_getElem? hj
      have hcs := List.mem_of_getElem? hc
      have hgm := List.mem_of_getElem? hg
      have hts : tss[i]? = some ((h'.gtiers g).map h'.ptier) := by
        rw [← v1, List.getElem?_map, hg]; rfl
      have hk := hkind i cs g hc hg
      rcases mc.kind cs hcs with ⟨hh, -⟩ | hp
      · have hnp : h.ct.isSub c cPoint = false := hh.not_point w (List.mem_of_getElem? hcj)
        have hq : h'.gpoint g = false := Bool.eq_false_iff.mpr fun q => by
          rw [((hk.mp q).2 c (List.mem_of_getElem? hcj)).2] at hnp; cases hnp
        refine ⟨fun q => (by rw [hnp] at q; cases q), fun _ => ⟨?_, ?_⟩⟩
        · exact gr.interval g (List.mem_filter.mpr ⟨hgm, by rw [hq]; rfl⟩) t ht
        · exact ((good i _ cs hts hc).1 hh).1.laid _ (List.mem_map_of_mem ht)
      · have hq : h'.gpoint g = true := hk.mpr hp
        obtain ⟨a1, -, a2⟩ := hpts g hgm hq t ht
        refine ⟨fun _ => ⟨a1, hsub i cs g hc hg hp j t c hj hcj, a2⟩, fun q => ?_⟩
        rw [(hp.2 c (List.mem_of_getElem? hcj)).2] at q; cases q)
  rw [← List.flatMap_def] at hat
  refine ⟨h', e, ?_⟩
  rintro c p ⟨i, hp, hc, hlast⟩
  rw [← f1, List.getElem?_map, Option.map_eq_some_iff] at hp
  obtain ⟨t, ht, rfl⟩ := hp
  refine ⟨t, ?_, rfl, hat i t c ht hc⟩
  have hnm : ∀ (j : Nat) u d, (gs.flatMap h'.gtiers)[j]? = some u → css.flatten[j]? = some d →
      h'.ct.name (h'.tcls u) = h.ct.name d := by
    intro j u d hu hd
    have := congrArg (·[j]?) f2
    simp only [List.getElem?_map, hu, hd, Option.map_some] at this
    exact Option.some.inj this
  unfold namedTier
  rw [hgs]
  refine filter_getLast _ _ i t ht (by rw [hnm i t c ht hc]; exact beq_self_eq_true _) ?_
  intro j u hj hu
  have hlt : j < css.flatten.length := by
    have h1 := congrArg List.length f2
    rw [List.length_map, List.length_map] at h1
    rw [← h1]
    exact (List.getElem?_eq_some_iff.mp hu).1
  have hd : css.flatten[j]? = some css.flatten[j] := List.getElem?_eq_getElem hlt
  rw [hnm j u _ hu hd]
  apply beq_eq_false_iff_ne.mpr
  intro q
  exact hlast j hj (by rw [hd, mc.names _ (List.getElem_mem hlt) _ (List.mem_of_getElem? hc) q])

/-- intervals that follow each other do not overlap -/
theorem laid_apart {h : Heap} {t : TRef} (l : Laid (rawSpans (h.ptier t).2)) :
    (h.tseq t).vals.Pairwise fun x y => ¬ Overlap (h.start x, h.stop x) (h.start y, h.stop y) := by
  have := l.2
  rw [show rawSpans (h.ptier t).2 = (h.tseq t).vals.map h.span by
    unfold rawSpans Heap.ptier Heap.span; rw [List.map_map]; rfl, List.pairwise_map] at this
  refine this.imp ?_
  rintro x y hle ⟨-, b⟩
  exact absurd b (Rat.not_lt.mpr hle)

/-- the first element without a property -/
theorem exists_first {α} (P : α → Prop) (l : List α) (hx : ∃ x ∈ l, ¬ P x) :
    ∃ pre x post, l = pre ++ x :: post ∧ (∀ y ∈ pre, P y) ∧ ¬ P x := by
  induction l with
  | nil => obtain ⟨x, hx, -⟩ := hx; cases hx
  | cons a l ih =>
    by_cases ha : P a
    · obtain ⟨pre, x, post, rfl, h1, h2⟩ := ih (by
        obtain ⟨x, hx, hn⟩ := hx
        rcases List.mem_cons.mp hx with rfl | hx
        · exact absurd ha hn
        · exact ⟨x, hx, hn⟩)
      refine ⟨a :: pre, x, post, rfl, ?_, h2⟩
      intro y hy
      rcases List.mem_cons.mp hy with rfl | hy
      · exact ha
      · exact h1 y hy
    · exact ⟨[], a, l, rfl, by simp, ha⟩

/-- C86: let a Praat textgrid be as in C83, with a tier of levels, a tier of ranges and a tier of turning points, which
    are the last tiers given the classes called `Levels`, `Ranges` and `TurningPoints`; let every level lie in a range and let
    there be a turning point. Then `PolarGrid(textgrid, classes)` succeeds with the textgrid of `AlignedTextGrid`;
    its attributes `Levels`, `Ranges` and `TurningPoints` are those tiers; the range of a level is the interval it lies
    in; its turning point is the nearest one, if that is close, and none otherwise; the level of a turning point, where
    set, is the nearest level and close, and is set if that is so and a level has this turning point. Nothing else gets a
    range, a turning point or a level.
    `_partial`: the restrictions of `C83_import_partial`. -/
theorem C86_import_partial (h : Heap) (tiers : List PTier) (arg : ClassArg) (tss : List (List PTier)) (css : List (List CRef))
    (hr : ReachC h.ct) (td : Tidy h) (ac : Allocated h) (hn : nestify h.ct tiers arg = .ok (tss, css))
    (hlen : tss.map List.length = css.map List.length) (mc : ImportClasses h.ct css)
    (hiv : ∃ cs ∈ css, TopPart h.ct cs) (lo hi : Time)
    (good : ∀ (i : Nat) ts cs, tss[i]? = some ts → css[i]? = some cs →
      (TopPart h.ct cs → GoodTiers ts ∧ Covering ts lo hi) ∧ (PointClasses h.ct cs → GoodPoints ts))
    (cl cr ct : CRef) (nl : h.ct.name cl = "Levels") (nr : h.ct.name cr = "Ranges") (nt : h.ct.name ct = "TurningPoints")
    (kl : h.ct.isSub cl cPoint = true) (kr : h.ct.isSub cr cPoint = false) (kt : h.ct.isSub ct cPoint = true)
    (pl pr pt : PTier) (ll : LastFor tss css cl pl) (lr : LastFor tss css cr pr) (lt : LastFor tss css ct pt)
    (inside : ∀ p ∈ pl.2, ∃ q ∈ pr.2, q.1 ≤ p.1 ∧ p.1 < q.2.1) (some_point : pt.2 ≠ [])
    (k : Nat) (hk : pl.2.length + pt.2.length < k) :
    ∃ h' ranges link tl tr tt, newPolar cl ct k tiers arg h = .ok (h.nA, ranges, link) h' ∧ newAtg tiers arg h = .ok h.nA h' ∧
      (namedTier h' h.nA "Levels" = some tl ∧ h'.ptier tl = pl) ∧ (namedTier h' h.nA "Ranges" = some tr ∧ h'.ptier tr = pr) ∧
      (namedTier h' h.nA "TurningPoints" = some tt ∧ h'.ptier tt = pt) ∧
      (∀ x ∈ (h'.tseq tl).vals, ∀ y, ranges x = some y ↔ y ∈ (h'.tseq tr).vals ∧ OnRange h' x y) ∧
      (∀ x, x ∉ (h'.tseq tl).vals → ranges x = none) ∧
      (∀ x ∈ (h'.tseq tl).vals, ∀ y, link x = some y ↔ Near h' tt x y ∧ Close h' x y) ∧
      (∀ x ∈ (h'.tseq tt).vals, ∀ y, link x = some y → Near h' tl x y ∧ Close h' x y) ∧
      (∀ x, x ∉ (h'.tseq tl).vals → x ∉ (h'.tseq tt).vals → link x = none) ∧
      (∀ x ∈ (h'.tseq tl).vals, ∀ y z, link x = some y → Near h' tl y z → Close h' y z → link y = some z) := by
  obtain ⟨h', e, named⟩ := import_named h tiers arg tss css hr td ac hn hlen mc hiv lo hi good
  obtain ⟨tl, l1, l2, l3, -⟩ := named cl pl ll
  obtain ⟨tr, r1, r2, -, r3⟩ := named cr pr lr
  obtain ⟨tt, t1, t2, t3, -⟩ := named ct pt lt
  rw [nl] at l1
  rw [nr] at r1
  rw [nt] at t1
  obtain ⟨pl1, pl2, pl3⟩ := l3 kl
  obtain ⟨pt1, pt2, pt3⟩ := t3 kt
  obtain ⟨pr1, pr2⟩ := r3 kr
  have hvals : ∀ t, (h'.ptier t).2.length = (h'.tseq t).vals.length := fun t => List.length_map _
  -- ranges
  have hno := laid_apart pr2
  have hins : ∀ x ∈ (h'.tseq tl).vals, ∃ y ∈ (h'.tseq tr).vals, OnRange h' x y := by
    intro x hx
    obtain ⟨q, hq, a⟩ := inside (h'.start x, h'.stop x, h'.label x) (by
      rw [← l2]; exact List.mem_map_of_mem (f := fun r => (h'.start r, h'.stop r, h'.label r)) hx)
    rw [← r2] at hq
    obtain ⟨y, hy, rfl⟩ := List.mem_map.mp hq
    exact ⟨y, hy, a⟩
  obtain ⟨ranges, er, ra, rb⟩ := C76_ranges h' tl tr hno hins
  obtain ⟨link, el, la, lb, lc, ld⟩ := C50_related h' cl ct tl tt
    ⟨fun b x hx => by
        cases b with
        | true => rw [(pl3 x hx).2]; exact pl2
        | false => rw [(pt3 x hx).2]; exact pt2,
     fun b x hx => by
        cases b with
        | true => exact (pl3 x hx).1
        | false => exact (pt3 x hx).1,
     fun b => by cases b <;> assumption⟩
    (by
      intro e0
      apply some_point
      rw [← t2]
      exact List.length_eq_zero_iff.mp (by rw [hvals, e0]; rfl)) k
    (by rw [← hvals, ← hvals, l2, t2]; exact hk)
  have ep : polarRanges h' cl h.nA = .ok ranges := by
    unfold polarRanges
    rw [l1, r1]
    by_cases h0 : (h'.tseq tl).vals.length = 0
    · have h0' := List.length_eq_zero_iff.mp h0
      simp only [if_pos h0]
      congr 1
      funext x
      exact (rb x (by rw [h0']; simp)).symm
    · simp only [if_neg h0]
      obtain ⟨x, hx⟩ := List.exists_mem_of_ne_nil _ (fun q => h0 (by rw [q]; rfl) : (h'.tseq tl).vals ≠ [])
      obtain ⟨y, hy, -⟩ := hins x hx
      rw [if_neg (fun q => by rw [List.length_eq_zero_iff.mp q] at hy; cases hy), if_pos (by
        rw [List.all_eq_true]
        intro z hz
        rw [(pl3 z hz).2]; exact pl2), pr1]
      exact er
  have eq : polarPoints h' cl ct k h.nA = .ok link := by
    unfold polarPoints
    rw [l1, t1]
    by_cases h0 : (h'.tseq tl).vals.length = 0
    · have h0' := List.length_eq_zero_iff.mp h0
      simp only [if_pos h0]
      rw [h0'] at el
      exact el
    · simp only [if_neg h0]
      exact el
  refine ⟨h', ranges, link, tl, tr, tt, ?_, e, ⟨l1, l2⟩, ⟨r1, r2⟩, ⟨t1, t2⟩, ra, rb, la, lb, lc, ld⟩
  unfold newPolar
  mstep e
  mstep M.get_apply h'
  mstep (show liftE (polarRanges h' cl h.nA) h' = .ok ranges h' by rw [ep]; rfl)
  mstep (show liftE (polarPoints h' cl ct k h.nA) h' = .ok link h' by rw [eq]; rfl)
  rfl

/-- C86: in a textgrid as in C83, a single level outside all ranges makes `PolarGrid(textgrid, classes)` raise a
    `TypeError`, whatever the turning points are. -/
theorem C86_outside_violated (h : Heap) (tiers : List PTier) (arg : ClassArg) (tss : List (List PTier)) (css : List (List CRef))
    (hr : ReachC h.ct) (td : Tidy h) (ac : Allocated h) (hn : nestify h.ct tiers arg = .ok (tss, css))
    (hlen : tss.map List.length = css.map List.length) (mc : ImportClasses h.ct css)
    (hiv : ∃ cs ∈ css, TopPart h.ct cs) (lo hi : Time)
    (good : ∀ (i : Nat) ts cs, tss[i]? = some ts → css[i]? = some cs →
      (TopPart h.ct cs → GoodTiers ts ∧ Covering ts lo hi) ∧ (PointClasses h.ct cs → GoodPoints ts))
    (cl cr ct : CRef) (nl : h.ct.name cl = "Levels") (nr : h.ct.name cr = "Ranges")
    (kl : h.ct.isSub cl cPoint = true) (kr : h.ct.isSub cr cPoint = false)
    (pl pr : PTier) (ll : LastFor tss css cl pl) (lr : LastFor tss css cr pr) (some_range : pr.2 ≠ [])
    (outside : ∃ p ∈ pl.2, ∀ q ∈ pr.2, ¬ (q.1 ≤ p.1 ∧ p.1 < q.2.1)) (k : Nat) :
    (newPolar cl ct k tiers arg h).out = .error .typeError := by
  obtain ⟨h', e, named⟩ := import_named h tiers arg tss css hr td ac hn hlen mc hiv lo hi good
  obtain ⟨tl, l1, rfl, l3, -⟩ := named cl pl ll
  obtain ⟨tr, r1, rfl, -, r3⟩ := named cr pr lr
  rw [nl] at l1
  rw [nr] at r1
  obtain ⟨-, pl2, pl3⟩ := l3 kl
  obtain ⟨pr1, pr2⟩ := r3 kr
  have hv : (h'.tseq tr).vals ≠ [] := fun q => some_range (by unfold Heap.ptier; rw [q]; rfl)
  obtain ⟨p, hp, hout⟩ := outside
  obtain ⟨x0, hx0, rfl⟩ := List.mem_map.mp hp
  obtain ⟨pre, x, post, hl, a, b⟩ := exists_first (fun x => ∃ y ∈ (h'.tseq tr).vals, OnRange h' x y) (h'.tseq tl).vals
    ⟨x0, hx0, fun ⟨y, hy, hxy⟩ => hout _ (List.mem_map_of_mem (f := fun r => (h'.start r, h'.stop r, h'.label r)) hy) hxy⟩
  have er := C76_outside h' tl tr pre post x hl hv (laid_apart pr2) a fun y hy q => b ⟨y, hy, q⟩
  have ep : polarRanges h' cl h.nA = .error .typeError := by
    unfold polarRanges
    rw [l1, r1]
    have h0 : ¬ (h'.tseq tl).vals.length = 0 := fun q => by rw [List.length_eq_zero_iff.mp q] at hx0; cases hx0
    simp only [if_neg h0]
    rw [if_neg (fun q => hv (List.length_eq_zero_iff.mp q)), if_pos (by
      rw [List.all_eq_true]
      intro z hz
      rw [(pl3 z hz).2]; exact pl2), pr1]
    exact er
  have : newPolar cl ct k tiers arg h = .err .typeError h' := by
    unfold newPolar
    mstep e
    mstep M.get_apply h'
    exact M.bind_err (by rw [ep]; rfl)
  rw [this]
  rfl

/-! ## Missing tiers -/

theorem namedTier_none {h : Heap} {a : ARef} {n : String}
    (hm : ∀ g ∈ h.agroups a, ∀ t ∈ h.gtiers g, h.ct.name (h.tcls t) ≠ n) : namedTier h a n = none := by
  unfold namedTier
  rw [List.getLast?_eq_none_iff, List.filter_eq_nil_iff]
  intro t ht
  obtain ⟨g, hg, ht⟩ := List.mem_flatMap.mp ht
  have := hm g hg t ht
  simpa using this

/-- C86: a textgrid without a tier for a class called `Levels` is not accepted, although it could be made. -/
theorem C86_no_levels_violated (h h' : Heap) (a : ARef) (tiers : List PTier) (arg : ClassArg) (cl ct : CRef) (k : Nat)
    (e : newAtg tiers arg h = .ok a h') (hm : ∀ g ∈ h'.agroups a, ∀ t ∈ h'.gtiers g, h'.ct.name (h'.tcls t) ≠ "Levels") :
    newPolar cl ct k tiers arg h = .err .attributeError h' := by
  unfold newPolar
  mstep e
  mstep M.get_apply h'
  refine M.bind_err ?_
  unfold polarRanges
  rw [namedTier_none hm]
  rfl

/-- C86: a textgrid with levels but without a tier for a class called `Ranges` is not accepted. -/
theorem C86_no_ranges_violated (h h' : Heap) (a : ARef) (tiers : List PTier) (arg : ClassArg) (cl ct : CRef) (k : Nat)
    (e : newAtg tiers arg h = .ok a h') (tl : TRef) (hl : namedTier h' a "Levels" = some tl) (hne : (h'.tseq tl).vals ≠ [])
    (hm : ∀ g ∈ h'.agroups a, ∀ t ∈ h'.gtiers g, h'.ct.name (h'.tcls t) ≠ "Ranges") :
    newPolar cl ct k tiers arg h = .err .attributeError h' := by
  unfold newPolar
  mstep e
  mstep M.get_apply h'
  refine M.bind_err ?_
  unfold polarRanges
  rw [hl, namedTier_none hm]
  simp only [if_neg (fun q => hne (List.length_eq_zero_iff.mp q) : ¬ (h'.tseq tl).vals.length = 0)]
  rfl

/-- C86: with an empty tier of levels nothing is related, whether or not there are ranges and turning points. -/
theorem C86_empty_levels (h h' : Heap) (a : ARef) (tiers : List PTier) (arg : ClassArg) (cl ct : CRef) (k : Nat)
    (e : newAtg tiers arg h = .ok a h') (tl : TRef) (hl : namedTier h' a "Levels" = some tl) (he : (h'.tseq tl).vals = []) :
    newPolar cl ct k tiers arg h = .ok (a, (fun _ => none), (fun _ => none)) h' := by
  unfold newPolar
  mstep e
  mstep M.get_apply h'
  mstep (show liftE (polarRanges h' cl a) h' = .ok (fun _ => none) h' by
    unfold polarRanges; rw [hl]; simp only [he]; rfl)
  mstep (show liftE (polarPoints h' cl ct k a) h' = .ok (fun _ => none) h' by
    unfold polarPoints; rw [hl]; simp only [he]; rfl)
  rfl

/-- C86: a textgrid with levels but without a tier for a class called `TurningPoints`, or with an empty one, is not
    accepted, whatever the ranges are. -/
theorem C86_no_points_violated (h h' : Heap) (a : ARef) (tiers : List PTier) (arg : ClassArg) (cl ct : CRef) (k : Nat)
    (e : newAtg tiers arg h = .ok a h') (tl : TRef) (hl : namedTier h' a "Levels" = some tl) (hne : (h'.tseq tl).vals ≠ [])
    (hm : ∀ tt, namedTier h' a "TurningPoints" = some tt → (h'.tseq tt).vals = []) :
    ∃ x, (newPolar cl ct k tiers arg h).out = .error x := by
  have hp : ∃ x, polarPoints h' cl ct k a = .error x := by
    unfold polarPoints
    rw [hl]
    simp only [if_neg (fun q => hne (List.length_eq_zero_iff.mp q) : ¬ (h'.tseq tl).vals.length = 0)]
    cases hq : namedTier h' a "TurningPoints" with
    | none => exact ⟨_, rfl⟩
    | some tt =>
      obtain ⟨y, ys, hy⟩ := List.exists_cons_of_ne_nil hne
      rw [hy]
      simp only [relatePoints]
      have : ∃ x, relatePointN h' cl ct k true y (some tt) (fun _ => none) = .error x := by
        cases k with
        | zero => exact ⟨_, rfl⟩
        | succ k =>
          rw [relatePointN]
          simp only [(nearestPoint_none h' tt y).mpr (hm tt hq)]
          repeat' split
          all_goals first | exact ⟨_, rfl⟩ | contradiction
      obtain ⟨x, hx⟩ := this
      exact ⟨x, by rw [hx]⟩
  obtain ⟨x, hx⟩ := hp
  cases hr : polarRanges h' cl a with
  | error y =>
    refine ⟨y, ?_⟩
    have : newPolar cl ct k tiers arg h = .err y h' := by
      unfold newPolar
      mstep e
      mstep M.get_apply h'
      exact M.bind_err (by rw [hr]; rfl)
    rw [this]
    rfl
  | ok r =>
    refine ⟨x, ?_⟩
    have : newPolar cl ct k tiers arg h = .err x h' := by
      unfold newPolar
      mstep e
      mstep M.get_apply h'
      mstep (show liftE (polarRanges h' cl a) h' = .ok r h' by rw [hr]; rfl)
      exact M.bind_err (by rw [hx]; rfl)
    rw [this]
    rfl

/-! ## A concrete case -/

/-- the package's classes with `Levels`, `Ranges` and `TurningPoints` -/
def polarClasses : ClassTab :=
  (ClassOp.define "TurningPoints" cPoint).run ((ClassOp.define "Ranges" cInterval).run ((ClassOp.define "Levels" cPoint).run baseClasses))

theorem polarClasses_reach : ReachC polarClasses :=
  .step _ (.step _ (.step _ .base (by decide +kernel : cPoint < _)) (by decide +kernel : cInterval < _)) (by decide +kernel : cPoint < _)

def polarHeap : Heap := { heap0 with ct := polarClasses }

/-- words and phones, turning points and levels, and ranges; the second level has no turning point close to it -/
def exPolarTg : List (List PTier) :=
  [[("words", [(0, 1, ""), (1, 3, "cat"), (3, 4, "")]), ("phones", [(0, 1, ""), (1, 2, "K"), (2, 3, "T"), (3, 4, "")])],
   [("points", [(1, 1, "0"), (2, 2, "0")]), ("levels", [(1, 1, "1"), (3, 3, "5")])],
   [("ranges", [(0, 2, "80-200"), (2, 4, "90-150")])]]

def exPolarClasses : List (List CRef) := [[cWord, cPhone], [11, 9], [10]]

theorem exPolarClasses_mixed : MixedClasses polarHeap.ct exPolarClasses ∧ IsHierarchy polarHeap.ct [cWord, cPhone] ∧
    PointClasses polarHeap.ct [11, 9] ∧ IsHierarchy polarHeap.ct [10] := by
  have h1 : IsHierarchy polarHeap.ct [cWord, cPhone] := isHierarchy_of_check (by decide) (by decide) (by decide +kernel)
    (by decide +kernel) (by decide +kernel) (by decide +kernel)
  have h2 : PointClasses polarHeap.ct [11, 9] := ⟨by decide, by decide +kernel⟩
  have h3 : IsHierarchy polarHeap.ct [10] := isHierarchy_of_check (by decide) (by decide) (by decide +kernel)
    (by decide +kernel) (by decide +kernel) (by decide +kernel)
  refine ⟨⟨?_, by decide +kernel⟩, h1, h2, h3⟩
  intro cs hcs
  simp only [exPolarClasses, List.mem_cons, List.not_mem_nil, or_false] at hcs
  rcases hcs with rfl | rfl | rfl
  · exact .inl ⟨h1, by decide +kernel⟩
  · exact .inr h2
  · exact .inl ⟨h3, by decide +kernel⟩

theorem exPolarTg_good (ps : List PTier) (hp : GoodPoints ps) : ∀ (i : Nat) ts cs, (exPolarTg.set 1 ps)[i]? = some ts →
    exPolarClasses[i]? = some cs → (TopPart polarHeap.ct cs → GoodTiers ts ∧ Covering ts 0 4) ∧
      (PointClasses polarHeap.ct cs → GoodPoints ts) := by
  obtain ⟨-, h1, h2, h3⟩ := exPolarClasses_mixed
  have w := polarClasses_reach.wfc
  intro i ts cs hi hj
  match i, hi, hj with
  | 0, hi, hj =>
    cases hi
    cases hj
    refine ⟨fun _ => ⟨?_, by unfold Covering; decide +kernel⟩, fun q => ?_⟩
    · exact goodTiers_pair (by decide) (by decide +kernel) (by decide +kernel) (by decide +kernel)
        ⟨by decide +kernel, by decide +kernel, by decide +kernel, by decide +kernel⟩
    · exact absurd (q.2 cWord (by simp)).2 (by decide +kernel)
  | 1, hi, hj =>
    cases hi
    cases hj
    exact ⟨fun q => absurd (q.not_point w (c := 9) (by simp)) (by decide +kernel), fun _ => hp⟩
  | 2, hi, hj =>
    cases hi
    cases hj
    refine ⟨fun _ => ⟨⟨by decide, by decide, by decide +kernel, by decide +kernel, ?_⟩, by unfold Covering; decide +kernel⟩, fun q => ?_⟩
    · intro i t u _ hu
      cases hu
    · exact absurd (q.2 10 (by simp)).2 (by decide +kernel)
  | i + 3, hi, hj => cases hj

example : ∃ h' ranges link tl tr tt, newPolar 9 11 5 exPolarTg.flatten (.nested exPolarClasses) polarHeap = .ok (0, ranges, link) h' ∧
    h'.ptier tl = ("levels", [(1, 1, "1"), (3, 3, "5")]) ∧
    (∀ x ∈ (h'.tseq tl).vals, ∀ y, ranges x = some y ↔ y ∈ (h'.tseq tr).vals ∧ OnRange h' x y) ∧
    (∀ x ∈ (h'.tseq tl).vals, ∀ y, link x = some y ↔ Near h' tt x y ∧ Close h' x y) := by
  obtain ⟨h', ranges, link, tl, tr, tt, e, -, ⟨-, el⟩, -, -, ra, -, la, -⟩ := C86_import_partial polarHeap exPolarTg.flatten
    (.nested exPolarClasses) exPolarTg exPolarClasses polarClasses_reach (heap0_tidy.newClasses polarHeap rfl) heap0_alloc rfl
    (by decide) exPolarClasses_mixed.1.import ⟨_, by simp [exPolarClasses], exPolarClasses_mixed.2.1.topPart⟩ 0 4
    (exPolarTg_good _ (by unfold GoodPoints; decide +kernel : GoodPoints exPolarTg[1])) 9 10 11
    (by decide +kernel) (by decide +kernel) (by decide +kernel) (by decide +kernel) (by decide +kernel) (by decide +kernel)
    exPolarTg.flatten[3] exPolarTg.flatten[4] exPolarTg.flatten[2]
    ⟨3, rfl, rfl, fun j hj q => by
      match j, hj with
      | 4, _ => cases q
      | j + 5, _ => cases q⟩
    ⟨4, rfl, rfl, fun j hj q => by
      match j, hj with
      | j + 5, _ => cases q⟩
    ⟨2, rfl, rfl, fun j hj q => by
      match j, hj with
      | 3, _ => cases q
      | 4, _ => cases q
      | j + 5, _ => cases q⟩
    (by decide +kernel) (by decide) 5 (by decide)
  exact ⟨h', ranges, link, tl, tr, tt, e, el, ra, la⟩

/-- the same with a level at the end of the textgrid, which lies in no range -/
example : (newPolar 9 11 5 (exPolarTg.set 1 [exPolarTg.flatten[2], ("levels", [(1, 1, "1"), (4, 4, "5")])]).flatten
    (.nested exPolarClasses) polarHeap).out = .error .typeError :=
  C86_outside_violated polarHeap _ (.nested exPolarClasses) (exPolarTg.set 1 [exPolarTg.flatten[2], ("levels", [(1, 1, "1"), (4, 4, "5")])])
    exPolarClasses polarClasses_reach (heap0_tidy.newClasses polarHeap rfl) heap0_alloc rfl
    (by decide) exPolarClasses_mixed.1.import ⟨_, by simp [exPolarClasses], exPolarClasses_mixed.2.1.topPart⟩ 0 4
    (exPolarTg_good _ (by unfold GoodPoints; decide +kernel)) 9 10 11
    (by decide +kernel) (by decide +kernel) (by decide +kernel) (by decide +kernel)
    ("levels", [(1, 1, "1"), (4, 4, "5")]) exPolarTg.flatten[4]
    ⟨3, rfl, rfl, fun j hj q => by
      match j, hj with
      | 4, _ => cases q
      | j + 5, _ => cases q⟩
    ⟨4, rfl, rfl, fun j hj q => by
      match j, hj with
      | j + 5, _ => cases q⟩
    (by decide) ⟨_, List.mem_cons_of_mem _ (List.mem_cons_self ..), by decide +kernel⟩ 5

def exPolarRun (ps : List PTier) (css : List (List CRef)) : Res ARef := newAtg ps (.nested css) polarHeap

/-- no tier has a class of this name -/
def lacks (h : Heap) (n : String) : Bool := (h.agroups 0).all fun g => (h.gtiers g).all fun t => h.ct.name (h.tcls t) != n

/-- words and phones only -/
example : let r := exPolarRun exPolarTg[0] [[cWord, cPhone]]
    r.out = .ok 0 ∧ lacks r.heap "Levels" = true := by decide +kernel

/-- levels without ranges and turning points -/
example : let r := exPolarRun (exPolarTg[0] ++ [exPolarTg.flatten[3]]) [[cWord, cPhone], [9]]
    r.out = .ok 0 ∧ namedTier r.heap 0 "Levels" = some 2 ∧ (r.heap.tseq 2).vals.length = 2 ∧
      lacks r.heap "Ranges" = true ∧ namedTier r.heap 0 "TurningPoints" = none := by decide +kernel

/-- an empty tier for levels -/
example : let r := exPolarRun (exPolarTg[0] ++ [("levels", [])]) [[cWord, cPhone], [9]]
    r.out = .ok 0 ∧ namedTier r.heap 0 "Levels" = some 2 ∧ (r.heap.tseq 2).vals = [] := by decide +kernel

end ATG
