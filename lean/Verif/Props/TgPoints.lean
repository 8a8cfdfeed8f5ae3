import Verif.Lemmas.ImportMixed
import Verif.Props.TgImport
/-!
# C83: textgrids with point tiers
-/
namespace ATG

/-- C83: let the interval groups of a textgrid be as in C73 and agree in start and end, within numpy's tolerance. Then `cleanup()`
    succeeds, fills the gaps of the interval groups, and neither the points nor the links between the points of a
    points group that shares no tier and no entry with them change.
    `_partial`: if the interval groups do not agree, `cleanup()` may raise (`C39_points_violated`). -/
theorem C83_cleanup_partial (h : Heap) (a : ARef) (hne : ∃ g ∈ h.agroups a, h.gpoint g = false)
    (gr : GapGrid h ((h.agroups a).filter fun g => !h.gpoint g))
    (hn : ∀ g ∈ h.agroups a, h.gpoint g = false → ∀ t ∈ h.gtiers g, (h.tseq t).vals ≠ [])
    (hc : ∀ g ∈ h.agroups a, h.gpoint g = false → ∀ k ∈ h.agroups a, h.gpoint k = false → ∀ x y,
      (groupXmin h g = .ok x → groupXmin h k = .ok y → CloseTo x y) ∧
      (groupXmax h g = .ok x → groupXmax h k = .ok y → CloseTo x y)) :
    ∃ h', atgCleanup a h = .ok () h' ∧ h'.agroups = h.agroups ∧ h'.gtiers = h.gtiers ∧ h'.gpoint = h.gpoint ∧
      h'.ct = h.ct ∧ h'.tname = h.tname ∧ h'.tcls = h.tcls ∧
      GapGrid h' ((h'.agroups a).filter fun g => !h'.gpoint g) ∧
      (∀ g ∈ h.agroups a, h.gpoint g = false → GroupFilled h h' g) ∧
      (∀ x, x < h.nE → h'.span x = h.span x ∧ h'.label x = h.label x ∧ h'.intier x = h.intier x) ∧
      ∀ k ∈ h.agroups a, Beside h ((h.agroups a).filter fun g => !h.gpoint g) (h.gtiers k) → Unmoved h h' (h.gtiers k) := by
  generalize hiv : (h.agroups a).filter (fun g => !h.gpoint g) = ivs at *
  have hm : ∀ g, g ∈ ivs ↔ g ∈ h.agroups a ∧ h.gpoint g = false := by
    intro g
    rw [← hiv, List.mem_filter]
    simp
  have hex : ∀ g, ∃ p : Time × Time, g ∈ ivs → Flush h g p.1 p.2 := by
    intro g
    by_cases hg : g ∈ ivs
    · obtain ⟨lo, hi, fl⟩ := gr.flush hg (hn g ((hm g).mp hg).1 ((hm g).mp hg).2)
      exact ⟨(lo, hi), fun _ => fl⟩
    · exact ⟨(0, 0), fun q => absurd q hg⟩
  obtain ⟨P, hP⟩ := Classical.axiomOfChoice hex
  have hne' : ivs ≠ [] := by
    obtain ⟨g, h1, h2⟩ := hne
    intro e
    have := (hm g).mpr ⟨h1, h2⟩
    rw [e] at this
    cases this
  obtain ⟨smin, x1⟩ := exists_least (fun g => (P g).1) ivs hne'
  obtain ⟨smax, x2⟩ := exists_greatest (fun g => (P g).1) ivs hne'
  obtain ⟨emin, x3⟩ := exists_least (fun g => (P g).2) ivs hne'
  obtain ⟨emax, x4⟩ := exists_greatest (fun g => (P g).2) ivs hne'
  have hs : CloseTo smin smax := by
    obtain ⟨g, hg, rfl⟩ := x1.1
    obtain ⟨k, hk, rfl⟩ := x2.1
    exact (hc g ((hm g).mp hg).1 ((hm g).mp hg).2 k ((hm k).mp hk).1 ((hm k).mp hk).2 _ _).1 (hP g hg).xmin (hP k hk).xmin
  have he : CloseTo emin emax := by
    obtain ⟨g, hg, rfl⟩ := x3.1
    obtain ⟨k, hk, rfl⟩ := x4.1
    exact (hc g ((hm g).mp hg).1 ((hm g).mp hg).2 k ((hm k).mp hk).1 ((hm k).mp hk).2 _ _).2 (hP g hg).xmax (hP k hk).xmax
  subst hiv
  obtain ⟨h', e, gr', f, q, b⟩ := atgCleanup_points h a _ _ smin smax emin emax gr hP x1 x2 x3 x4 hs he
  have hag : h'.agroups = h.agroups := by rw [f.frame]
  have hgp : h'.gpoint = h.gpoint := by rw [f.frame]
  refine ⟨h', e, hag, by rw [f.frame], hgp, by rw [f.frame], by rw [f.frame], by rw [f.frame], by rw [hag, hgp]; exact gr',
    fun g h1 h2 => q g ((hm g).mpr ⟨h1, h2⟩), ?_, fun k _ hb => b _ hb⟩
  intro x hx
  obtain ⟨v1, v2, v3, -⟩ := f.value x hx
  exact ⟨by unfold Heap.span; rw [v1, v2], v3, f.intier x hx⟩

/-- C83: let `nestify` split the tiers of a Praat textgrid into the groups `tss` for the classes `css`, where each list
    of classes is a hierarchy, complete or without its lowest classes, or consists of classes of points, and there is a
    hierarchy. Let the interval tiers of
    each group be aligned and all interval tiers start at `lo`, end at `hi` and have no gaps; let the times of each
    point tier increase. Then `AlignedTextGrid(textgrid, classes)` has exactly the given tiers, in the given groups
    and in that order, for clones of the given classes. The groups for classes of points are points groups
    whose points are linked, know their tier and are of the class of it, which is a subclass of the class given for it; the
    others are interval groups whose intervals are related by containment.
    `_partial`: missing are lists with classes of both kinds, hierarchies without their highest classes, empty, unaligned or uneven
    interval tiers; without a hierarchy it raises (`C83_only_points_violated`). -/
theorem C83_import_partial (h : Heap) (tiers : List PTier) (arg : ClassArg) (tss : List (List PTier)) (css : List (List CRef))
    (hr : ReachC h.ct) (td : Tidy h) (ac : Allocated h) (hn : nestify h.ct tiers arg = .ok (tss, css))
    (hlen : tss.map List.length = css.map List.length) (mc : ImportClasses h.ct css)
    (hiv : ∃ cs ∈ css, TopPart h.ct cs) (lo hi : Time)
    (good : ∀ (i : Nat) ts cs, tss[i]? = some ts → css[i]? = some cs →
      (TopPart h.ct cs → GoodTiers ts ∧ Covering ts lo hi) ∧ (PointClasses h.ct cs → GoodPoints ts)) :
    ∃ h', newAtg tiers arg h = .ok h.nA h' ∧ Holds h' h.nA tss (css.map (List.map h.ct.name)) ∧
      (∀ (i : Nat) cs g, css[i]? = some cs → (h'.agroups h.nA)[i]? = some g →
        (h'.gpoint g = true ↔ PointClasses h.ct cs)) ∧
      GapGrid h' ((h'.agroups h.nA).filter fun g => !h'.gpoint g) ∧
      (∀ g ∈ h'.agroups h.nA, h'.gpoint g = true → ∀ t ∈ h'.gtiers g, h'.ct.isSub (h'.tcls t) cPoint = true ∧
        DoublyLinked h' (h'.tseq t).vals ∧ ∀ x ∈ (h'.tseq t).vals, h'.intier x = some t ∧ h'.cls x = h'.tcls t) ∧
      (∀ (i : Nat) cs g, css[i]? = some cs → (h'.agroups h.nA)[i]? = some g → PointClasses h.ct cs →
        ∀ (j : Nat) t c, (h'.gtiers g)[j]? = some t → cs[j]? = some c → h'.ct.isSub (h'.tcls t) c = true) ∧
      (∀ g ∈ h'.agroups h.nA, h'.gwithin g = some h.nA) ∧
      (∀ g ∈ h'.agroups h.nA, ∀ t ∈ h'.gtiers g, h.ct.next ≤ h'.tcls t) ∧
      ∀ c < h.ct.next, h'.ct.name c = h.ct.name c ∧ h'.ct.sup c = h.ct.sup c ∧ h'.ct.sub c = h.ct.sub c := by
  have w := hr.wfc
  have hll : tss.length = css.length := by simpa using congrArg List.length hlen
  let k : Heap := { h with
    nA := h.nA + 1
    agroups := upd h.agroups h.nA []
    acont := upd h.acont h.nA []
    acloned := upd h.acloned h.nA [] }
  obtain ⟨h1, e1, gr, v1, v2, x, hc, hk, hpt, hsubc⟩ := relateMixed_run (h := k) (a := h.nA) w (td.newClasses k rfl) ac (upd_same _ _ _)
    mc hlen fun i ts cs a b => ⟨fun q => ((good i ts cs a b).1 q).1, (good i ts cs a b).2⟩
  rw [show k.nG = h.nG from rfl] at *
  have hgi : ∀ (i : Nat) g, (List.range' h.nG tss.length)[i]? = some g → i < tss.length ∧ g = h.nG + i := by
    intro i g hi
    obtain ⟨hlt, he⟩ := List.getElem?_eq_some_iff.mp hi
    rw [List.length_range'] at hlt
    rw [List.getElem_range', Nat.one_mul] at he
    exact ⟨hlt, he.symm⟩
  -- every group, with its tiers and classes
  have hat : ∀ g ∈ List.range' h.nG tss.length, ∃ cs ∈ css, ((h1.gpoint g = true ↔ PointClasses h.ct cs) ∧
      (TopPart h.ct cs → GoodTiers ((h1.gtiers g).map h1.ptier) ∧ Covering ((h1.gtiers g).map h1.ptier) lo hi)) := by
    intro g hg
    obtain ⟨i, hi⟩ := List.mem_iff_getElem?.mp hg
    obtain ⟨hlt, rfl⟩ := hgi i g hi
    have hcs : css[i]? = some css[i] := List.getElem?_eq_getElem (by omega)
    have hts := congrArg (·[i]?) v1
    simp only [List.getElem?_map, hi, Option.map_some] at hts
    exact ⟨css[i], List.getElem_mem _, hk i _ hcs, (good i _ _ hts.symm hcs).1⟩
  have hgs : List.range' h.nG tss.length ≠ [] := by
    obtain ⟨cs, hcs, -⟩ := hiv
    intro e
    have := congrArg List.length e
    rw [List.length_range', List.length_nil, hll] at this
    rw [List.length_eq_zero_iff.mp this] at hcs
    cases hcs
  obtain ⟨h2, e2, r⟩ := setGroups_run h.nA _ hgs h1
  have hgt : h2.gtiers = h1.gtiers := by rw [r.frame]
  have hgp : h2.gpoint = h1.gpoint := by rw [r.frame]
  have htc : h2.tcls = h1.tcls := by rw [r.frame]
  have hct : h2.ct = h1.ct := by rw [r.frame]
  have hp2 : h2.ptier = h1.ptier := by rw [r.frame]; rfl
  have hsq : h2.tseq = h1.tseq := by rw [r.frame]
  have hst : h2.start = h1.start := by rw [r.frame]
  have hen : h2.stop = h1.stop := by rw [r.frame]
  have hnE : h2.nE = h1.nE := by rw [r.frame]
  have gr2 : GapGrid h2 ((h2.agroups h.nA).filter fun g => !h2.gpoint g) := by
    rw [r.agroups, hgp]; exact gr.regrouped r
  have hio : ∀ g ∈ List.range' h.nG tss.length, h1.gpoint g = false →
      GoodTiers ((h1.gtiers g).map h1.ptier) ∧ Covering ((h1.gtiers g).map h1.ptier) lo hi := by
    intro g hg hq
    obtain ⟨cs, hcs, q1, q2⟩ := hat g hg
    rcases mc.kind cs hcs with ⟨hq', -⟩ | hq'
    · exact q2 hq'
    · rw [q1.mpr hq'] at hq; cases hq
  have hnon : ∀ g ∈ List.range' h.nG tss.length, h1.gpoint g = false → ∀ t ∈ h1.gtiers g, (h1.tseq t).vals ≠ [] := by
    intro g hg hq t ht he
    refine (hio g hg hq).1.ne _ (List.mem_map_of_mem ht) ?_
    unfold Heap.ptier
    rw [he]
    rfl
  have hent : ∀ t x, x ∈ (h1.tseq t).vals → (h1.start x, h1.stop x, h1.label x) ∈ (h1.ptier t).2 := fun t x hx =>
    List.mem_map_of_mem (f := fun r => (h1.start r, h1.stop r, h1.label r)) hx
  -- all interval groups start at `lo` and end at `hi`
  have hlo : ∀ g ∈ List.range' h.nG tss.length, h1.gpoint g = false → ∀ x, (groupXmin h2 g = .ok x → x = lo) ∧
      (groupXmax h2 g = .ok x → x = hi) := by
    intro g hg hq x
    have hgm : g ∈ (h2.agroups h.nA).filter fun g => !h2.gpoint g := by
      rw [r.agroups, hgp, List.mem_filter, hq]; exact ⟨hg, rfl⟩
    obtain ⟨t, ht⟩ := List.exists_mem_of_ne_nil _ (gr2.groups g hgm).ne
    rw [hgt] at ht
    have cv := (hio g hg hq).2
    obtain ⟨-, ⟨⟨p, hp, ep⟩, -⟩, ⟨p', hp', ep'⟩, -⟩ := cv _ (List.mem_map_of_mem ht)
    obtain ⟨y, hy, rfl⟩ := List.mem_map.mp hp
    obtain ⟨y', hy', rfl⟩ := List.mem_map.mp hp'
    constructor
    · intro q
      obtain ⟨-, ⟨z, hz, ez⟩, hz2⟩ := (C44_group_xmin _ _ _).mp q
      rw [hst] at ez hz2
      unfold groupEntries at hz hz2
      rw [hgt, hsq] at hz hz2
      obtain ⟨u, hu, hzu⟩ := List.mem_flatMap.mp hz
      have a1 := (cv _ (List.mem_map_of_mem hu)).2.1.2 _ (hent u z hzu)
      have a2 := hz2 y (List.mem_flatMap.mpr ⟨t, ht, hy⟩)
      dsimp only at a1 ep
      grind
    · intro q
      obtain ⟨-, ⟨z, hz, ez⟩, hz2⟩ := (C44_group_xmax _ _ _ (by rw [hgp]; exact hq)).mp q
      rw [hen] at ez hz2
      unfold groupEntries at hz hz2
      rw [hgt, hsq] at hz hz2
      obtain ⟨u, hu, hzu⟩ := List.mem_flatMap.mp hz
      have a1 := (cv _ (List.mem_map_of_mem hu)).2.2.2 _ (hent u z hzu)
      have a2 := hz2 y' (List.mem_flatMap.mpr ⟨t, ht, hy'⟩)
      dsimp only at a1 ep'
      grind
  obtain ⟨h3, e3, f1, f2, f3, f4, f5, f6, gr3, ff, hval, hum⟩ := C83_cleanup_partial h2 h.nA
    (by
      obtain ⟨cs, hcs, hh⟩ := hiv
      obtain ⟨i, hi⟩ := List.mem_iff_getElem?.mp hcs
      obtain ⟨hlt, -⟩ := List.getElem?_eq_some_iff.mp hi
      refine ⟨h.nG + i, ?_, ?_⟩
      · rw [r.agroups, List.mem_range'_1]; romega
      · rw [hgp]
        cases hq : h1.gpoint (h.nG + i) with
        | false => rfl
        | true =>
          obtain ⟨q1, q2⟩ := (hk i cs hi).mp hq
          obtain ⟨c, hc⟩ := List.exists_mem_of_ne_nil _ q1
          have := (q2 c hc).2
          rw [show k.ct = h.ct from rfl, hh.not_point w hc] at this
          cases this)
    gr2
    (by rw [r.agroups, hgt, hgp, hsq]; exact hnon)
    (by
      rw [r.agroups, hgp]
      intro g hg hq g' hg' hq' x y
      refine ⟨fun a b => ?_, fun a b => ?_⟩
      · rw [(hlo g hg hq x).1 a, (hlo g' hg' hq' y).1 b]; exact CloseTo.refl _
      · rw [(hlo g hg hq x).2 a, (hlo g' hg' hq' y).2 b]; exact CloseTo.refl _)
  obtain ⟨h4, e4, r4⟩ := setContainsA_run h.nA h3
  have ha3 : h3.agroups h.nA = List.range' h.nG tss.length := by rw [f1]; exact r.agroups
  rw [ha3] at r4
  have g1 : h4.gtiers = h1.gtiers := (by rw [r4.frame] : h4.gtiers = h3.gtiers).trans (f2.trans hgt)
  have g2 : h4.gpoint = h1.gpoint := (by rw [r4.frame] : h4.gpoint = h3.gpoint).trans (f3.trans hgp)
  have g3 : h4.ct = h1.ct := (by rw [r4.frame] : h4.ct = h3.ct).trans (f4.trans hct)
  have g4 : h4.tcls = h1.tcls := (by rw [r4.frame] : h4.tcls = h3.tcls).trans (f6.trans htc)
  have g5 : h4.tname = h1.tname := (by rw [r4.frame] : h4.tname = h3.tname).trans (f5.trans (by rw [r.frame]))
  have g6 : h4.tseq = h3.tseq := by rw [r4.frame]
  have hbes : ∀ g ∈ List.range' h.nG tss.length, h1.gpoint g = true → Unmoved h1 h4 (h1.gtiers g) := by
    intro g hg hq
    have b1 := ((hpt g hg).2 hq).beside gr (hpt g hg).1
    have b2 : Beside h2 ((h2.agroups h.nA).filter fun g => !h2.gpoint g) (h2.gtiers g) := by
      rw [r.agroups]
      unfold Beside OnTiers at b1 ⊢
      rw [hgp, hgt, hsq, hnE]
      exact b1
    have u := hum g (by rw [r.agroups]; exact hg) b2
    rw [hgt] at u
    exact ((Unmoved.regrouped r _).trans u).trans (Unmoved.regrouped r4 _)
  have hptier : ∀ g ∈ List.range' h.nG tss.length, ∀ t ∈ h1.gtiers g, h4.ptier t = h1.ptier t := by
    intro g hg t ht
    cases hq : h1.gpoint g with
    | true => exact (hbes g hg hq).ptier ht
    | false =>
      have hno : ¬ HasGap h2 g := by
        rintro ⟨u, hu, p, hp, -⟩
        rw [hgt] at hu
        have := ((hio g hg hq).2 _ (List.mem_map_of_mem hu)).1
        rw [show rawSpans (h1.ptier u).2 = (h2.tseq u).vals.map h2.span by
          unfold rawSpans Heap.ptier Heap.span; rw [List.map_map, hsq, hst, hen]; rfl] at this
        rw [this] at hp
        cases hp
      have hs := (ff g (by rw [r.agroups]; exact hg) (by rw [hgp]; exact hq)).1 hno t (by rw [hgt]; exact ht)
      unfold Heap.ptier
      rw [g5, g6, hs, hsq]
      congr 1
      apply List.map_congr_left
      intro y hy
      obtain ⟨w1, w2, -⟩ := hval y (by rw [hnE]; exact ((hpt g hg).1.2 t ht).2 y hy)
      have u1 : h3.start y = h2.start y := congrArg Prod.fst w1
      have u2 : h3.stop y = h2.stop y := congrArg Prod.snd w1
      rw [show h4.start y = h3.start y by rw [r4.frame], show h4.stop y = h3.stop y by rw [r4.frame],
        show h4.label y = h3.label y by rw [r4.frame], u1, u2, w2, hst, hen, show h2.label = h1.label by rw [r.frame]]
  refine ⟨h4, ?_, ⟨?_, ?_⟩, ?_, ?_, ?_, ?_, ?_, ?_, ?_⟩
  · unfold newAtg
    mstep (show newAtgObj h = .ok h.nA k from rfl)
    mstep M.get_apply k
    mstep (show liftE (nestify k.ct tiers arg) k = .ok (tss, css) k by
      rw [show k.ct = h.ct from rfl, hn]; rfl)
    mstep e1
    mstep e2
    mstep e3
    mstep e4
    rfl
  · rw [r4.agroups, g1]
    refine Eq.trans ?_ v1
    exact List.map_congr_left fun g hg => List.map_congr_left fun t ht => hptier g hg t ht
  · rw [r4.agroups, g1, g4, g3]; exact v2
  · rw [r4.agroups, g2]
    intro i cs g hi hg
    obtain ⟨-, rfl⟩ := hgi i g hg
    exact hk i cs hi
  · rw [r4.agroups, g2]
    have := gr3.regrouped r4
    rw [ha3, f3, hgp] at this
    exact this
  · rw [r4.agroups, g2, g1]
    intro g hg hq t ht
    obtain ⟨l0, -, l1, l2⟩ := (hpt g hg).2 hq t ht
    have u := hbes g hg hq
    refine ⟨by rw [g3, g4]; exact l0, u.linked ht l1, ?_⟩
    rw [u.tseq t ht]
    intro y hy
    refine ⟨?_, by rw [(u.value t ht y hy).2.2.2, u.tcls t ht]; exact (l2 y hy).1⟩
    rw [show h4.intier y = h3.intier y by rw [r4.frame], (hval y (by rw [hnE]; exact ((hpt g hg).1.2 t ht).2 y hy)).2.2,
      show h2.intier y = h1.intier y by rw [r.frame]]
    exact (l2 y hy).2
  · rw [r4.agroups, g1, g3, g4]
    intro i cs g hi hg hp
    obtain ⟨-, rfl⟩ := hgi i g hg
    exact hsubc i cs hi hp
  · rw [r4.agroups]; exact r4.gwithin
  · rw [r4.agroups, g1, g4]
    exact fun g hg t ht => (hc g hg t ht).1
  · rw [g3]
    intro c hlt
    exact ⟨x.name c hlt, sup_ext w x c hlt, sub_ext w x c hlt⟩

/-! ## Textgrids without interval tiers -/

/-- C83 fails without interval groups: `cleanup()` raises `ValueError` for every textgrid all of whose groups are points
    groups, because it takes the least of no start times. -/
theorem C83_only_points_violated (h : Heap) (a : ARef) (hp : ∀ g ∈ h.agroups a, h.gpoint g = true) :
    atgCleanup a h = .err .valueError h := by
  unfold atgCleanup
  mstep M.get_apply h
  mstep (forL_noop _ _ _ (by
    intro g hg
    mstep M.get_apply h
    rw [if_pos (hp g hg)]
    rfl))
  mstep M.get_apply h
  have hf : (h.agroups a).filter (fun g => !h.gpoint g) = [] := by
    apply List.filter_eq_nil_iff.mpr
    intro g hg
    simp [hp g hg]
  rw [hf]
  rfl

/-- C83: hence no Praat textgrid with nothing but point tiers can be imported. -/
theorem C83_import_points_violated (h : Heap) (tiers : List PTier) (arg : ClassArg) (tss : List (List PTier)) (css : List (List CRef))
    (hr : ReachC h.ct) (td : Tidy h) (ac : Allocated h) (hn : nestify h.ct tiers arg = .ok (tss, css))
    (hlen : tss.map List.length = css.map List.length) (hne : css ≠ [])
    (pc : ∀ cs ∈ css, PointClasses h.ct cs) (good : ∀ ts ∈ tss, GoodPoints ts)
    (hname : ∀ c ∈ css.flatten, ∀ d ∈ css.flatten, h.ct.name c = h.ct.name d → c = d) :
    (newAtg tiers arg h).out = .error .valueError := by
  have w := hr.wfc
  have hll : tss.length = css.length := by simpa using congrArg List.length hlen
  let k : Heap := { h with
    nA := h.nA + 1
    agroups := upd h.agroups h.nA []
    acont := upd h.acont h.nA []
    acloned := upd h.acloned h.nA [] }
  obtain ⟨h1, e1, -, -, -, -, -, hk, -⟩ := relateMixed_run (h := k) (a := h.nA) w (td.newClasses k rfl) ac (upd_same _ _ _)
    (MixedClasses.import ⟨fun cs hcs => .inr (pc cs hcs), hname⟩) hlen fun i ts cs a b =>
      ⟨fun q => by
        obtain ⟨c, l, rfl⟩ := List.exists_cons_of_ne_nil (pc cs (List.mem_of_getElem? b)).1
        exact absurd ((pc _ (List.mem_of_getElem? b)).2 c (by simp)).2 (by
          rw [show h.ct.isSub c cPoint = false from q.not_point w (by simp)]; simp), fun _ => good ts (List.mem_of_getElem? a)⟩
  rw [show k.nG = h.nG from rfl] at *
  have hgs : List.range' h.nG tss.length ≠ [] := by
    intro e
    have := congrArg List.length e
    rw [List.length_range', List.length_nil, hll] at this
    exact hne (List.length_eq_zero_iff.mp this)
  obtain ⟨h2, e2, r⟩ := setGroups_run h.nA _ hgs h1
  have hp : ∀ g ∈ h2.agroups h.nA, h2.gpoint g = true := by
    rw [r.agroups, show h2.gpoint = h1.gpoint by rw [r.frame]]
    intro g hg
    obtain ⟨i, hi⟩ := List.mem_iff_getElem?.mp hg
    obtain ⟨hlt, he⟩ := List.getElem?_eq_some_iff.mp hi
    rw [List.length_range'] at hlt
    rw [List.getElem_range', Nat.one_mul] at he
    have hcs : css[i]? = some css[i] := List.getElem?_eq_getElem (by omega)
    rw [← he]
    exact (hk i _ hcs).mpr (pc _ (List.getElem_mem _))
  have : newAtg tiers arg h = .err .valueError h2 := by
    unfold newAtg
    mstep (show newAtgObj h = .ok h.nA k from rfl)
    mstep M.get_apply k
    mstep (show liftE (nestify k.ct tiers arg) k = .ok (tss, css) k by
      rw [show k.ct = h.ct from rfl, hn]; rfl)
    mstep e1
    mstep e2
    exact M.bind_err (C83_only_points_violated h2 h.nA hp)
  rw [this]
  rfl

/-! ## A concrete case -/

/-- two interval tiers and two point tiers, one of them empty -/
def exTones : List PTier :=
  [("words", [(0, 1, ""), (1, 3, "cat"), (3, 4, "")]), ("phones", [(0, 1, ""), (1, 2, "K"), (2, 3, "T"), (3, 4, "")]),
   ("tones", [(1, 1, "H*"), (3, 3, "L%")]), ("notes", [])]

example : ∃ h', newAtg exTones (.nested [[cWord, cPhone], [cPoint, cPoint]]) heap0 = .ok 0 h' ∧
    ((h'.agroups 0).map fun g => (h'.gtiers g).map h'.ptier).flatten = exTones ∧
    (h'.agroups 0).map (fun g => (h'.gtiers g).map fun t => h'.ct.name (h'.tcls t)) =
      [["Word", "Phone"], ["SequencePoint", "SequencePoint"]] := by
  have hl : IsHierarchy heap0.ct [cWord, cPhone] := isHierarchy_of_check (by decide) (by decide) (by decide +kernel)
    (by decide +kernel) (by decide +kernel) (by decide +kernel)
  have hp : PointClasses heap0.ct [cPoint, cPoint] := ⟨by decide, by decide +kernel⟩
  have gt : GoodTiers (exTones.take 2) := goodTiers_pair (by decide) (by decide +kernel) (by decide +kernel) (by decide +kernel)
    ⟨by decide +kernel, by decide +kernel, by decide +kernel, by decide +kernel⟩
  obtain ⟨h', e, ⟨h1, h2⟩, -⟩ := C83_import_partial heap0 exTones (.nested [[cWord, cPhone], [cPoint, cPoint]])
    [exTones.take 2, exTones.drop 2] [[cWord, cPhone], [cPoint, cPoint]] .base heap0_tidy heap0_alloc rfl (by decide)
    (MixedClasses.import ⟨by
      intro cs hcs
      simp only [List.mem_cons, List.not_mem_nil, or_false] at hcs
      rcases hcs with rfl | rfl
      · exact .inl ⟨hl, by decide +kernel⟩
      · exact .inr hp, by decide +kernel⟩)
    ⟨_, by simp, hl.topPart⟩ 0 4 (by
      intro i ts cs hi hj
      match i, hi, hj with
      | 0, hi, hj =>
        cases hi
        cases hj
        exact ⟨fun _ => ⟨gt, by unfold Covering; decide +kernel⟩, fun q => absurd q (fun q => absurd (q.2 cWord (by simp)).2 (by decide +kernel))⟩
      | 1, hi, hj =>
        cases hi
        cases hj
        exact ⟨fun q => absurd (q.not_point (ReachC.base).wfc (c := cPoint) (by simp)) (by decide +kernel), fun _ => by unfold GoodPoints; decide +kernel⟩
      | i + 2, hi, hj => cases hi)
  refine ⟨h', e, ?_, ?_⟩
  · rw [show (0 : ARef) = heap0.nA from rfl, h1]; decide
  · rw [show (0 : ARef) = heap0.nA from rfl, h2]; decide +kernel

/-- words and two tiers of points, without phones -/
def exToneWords : List PTier := exTones.take 1 ++ exTones.drop 2

example : ∃ h', newAtg exToneWords (.nested [[cWord], [cPoint, cPoint]]) heap0 = .ok 0 h' ∧
    ((h'.agroups 0).map fun g => (h'.gtiers g).map h'.ptier).flatten = exToneWords ∧
    (h'.agroups 0).map (fun g => (h'.gtiers g).map fun t => h'.ct.name (h'.tcls t)) =
      [["Word"], ["SequencePoint", "SequencePoint"]] := by
  have hl : IsHierarchy heap0.ct [cWord, cPhone] := isHierarchy_of_check (by decide) (by decide) (by decide +kernel)
    (by decide +kernel) (by decide +kernel) (by decide +kernel)
  have hp : PointClasses heap0.ct [cPoint, cPoint] := ⟨by decide, by decide +kernel⟩
  have tp : TopPart heap0.ct [cWord] := ⟨by decide, [cPhone], hl⟩
  have gt : GoodTiers (exToneWords.take 1) := by
    refine ⟨by decide, by decide +kernel, by decide +kernel, fun p hp q => absurd ?_ q, ?_⟩
    · revert p; decide +kernel
    · intro i t u _ hu
      cases hu
  obtain ⟨h', e, ⟨h1, h2⟩, -⟩ := C83_import_partial heap0 exToneWords (.nested [[cWord], [cPoint, cPoint]])
    [exToneWords.take 1, exToneWords.drop 1] [[cWord], [cPoint, cPoint]] .base heap0_tidy heap0_alloc rfl (by decide)
    ⟨[[cWord, cPhone], [cPoint, cPoint]], ⟨by
      intro cs hcs
      simp only [List.mem_cons, List.not_mem_nil, or_false] at hcs
      rcases hcs with rfl | rfl
      · exact .inl ⟨hl, by decide +kernel⟩
      · exact .inr hp, by decide +kernel⟩, ⟨rfl, by
      intro i cs L h1 h2
      match i, h1, h2 with
      | 0, h1, h2 => cases h1; cases h2; exact ⟨by decide, by decide⟩
      | 1, h1, h2 => cases h1; cases h2; exact ⟨by decide, by decide⟩
      | i + 2, h1, _ => cases h1⟩, by
      intro i cs L h1 h2 q
      match i, h1, h2 with
      | 0, h1, h2 => cases h2; exact absurd (q.2 cWord (by simp)).2 (by decide +kernel)
      | 1, h1, h2 => cases h1; cases h2; rfl
      | i + 2, h1, _ => cases h1⟩
    ⟨_, by simp, tp⟩ 0 4 (by
      intro i ts cs hi hj
      match i, hi, hj with
      | 0, hi, hj =>
        cases hi
        cases hj
        exact ⟨fun _ => ⟨gt, by unfold Covering; decide +kernel⟩, fun q => absurd q (fun q => absurd (q.2 cWord (by simp)).2 (by decide +kernel))⟩
      | 1, hi, hj =>
        cases hi
        cases hj
        exact ⟨fun q => absurd (q.not_point (ReachC.base).wfc (c := cPoint) (by simp)) (by decide +kernel), fun _ => by unfold GoodPoints; decide +kernel⟩
      | i + 2, hi, hj => cases hi)
  refine ⟨h', e, ?_, ?_⟩
  · rw [show (0 : ARef) = heap0.nA from rfl, h1]; decide
  · rw [show (0 : ARef) = heap0.nA from rfl, h2]; decide +kernel

example : (newAtg (exTones.drop 2) (.nested [[cPoint], [cPoint]]) heap0).out = .error .valueError :=
  C83_import_points_violated heap0 (exTones.drop 2) (.nested [[cPoint], [cPoint]]) [[exTones[2]], [exTones[3]]] [[cPoint], [cPoint]]
    .base heap0_tidy heap0_alloc rfl (by decide) (by decide) (by
      intro cs hcs
      simp only [List.mem_cons, List.not_mem_nil, or_false, or_self] at hcs
      rw [hcs]
      exact ⟨by decide, by decide +kernel⟩) (by unfold GoodPoints; decide +kernel) (by decide +kernel)

/-- words and phones with a gap, and a tier of points -/
def exGapTones : List (List PTier) :=
  [[("words", [(1, 2, "a"), (3, 4, "cat")]), ("phones", [(1, 2, "AH"), (3, 4, "K")])], [("tones", [(1, 1, "H*"), (3, 3, "L%")])]]

example : ∃ h h', (do let gs ← relateTiers 0 exGapTones [[cWord, cPhone], [cPoint]]; setGroups 0 gs : M Unit) heap0 = .ok () h ∧
    atgCleanup 0 h = .ok () h' ∧ HasGap h 0 ∧ (h.gtiers 1).map h.ptier = [("tones", [(1, 1, "H*"), (3, 3, "L%")])] ∧
    Unmoved h h' (h.gtiers 1) := by
  have hl : IsHierarchy heap0.ct [cWord, cPhone] := isHierarchy_of_check (by decide) (by decide) (by decide +kernel)
    (by decide +kernel) (by decide +kernel) (by decide +kernel)
  have hp : PointClasses heap0.ct [cPoint] := ⟨by decide, by decide +kernel⟩
  have hnp : ¬ PointClasses heap0.ct [cWord, cPhone] := fun q => absurd (q.2 cWord (by simp)).2 (by decide +kernel)
  have gt : GoodTiers exGapTones[0] := by
    refine ⟨by decide, by decide +kernel, by decide +kernel, by decide +kernel, ?_⟩
    intro i x y hx hy
    cases i with
    | zero => cases hx; cases hy; exact ⟨by decide +kernel, by decide +kernel, by decide +kernel, by decide +kernel⟩
    | succ i => cases i <;> cases hy
  obtain ⟨h1, e1, gr, v1, -, -, -, hk, hpt, -⟩ := relateMixed_run (h := heap0) (a := 0) (tss := exGapTones)
    (css := [[cWord, cPhone], [cPoint]]) (ReachC.base).wfc heap0_tidy heap0_alloc rfl
    (MixedClasses.import ⟨by
      intro cs hcs
      simp only [List.mem_cons, List.not_mem_nil, or_false] at hcs
      rcases hcs with rfl | rfl
      · exact .inl ⟨hl, by decide +kernel⟩
      · exact .inr hp, by decide +kernel⟩) (by decide) (by
      intro i ts cs hi hj
      match i, hi, hj with
      | 0, hi, hj =>
        cases hi
        cases hj
        exact ⟨fun _ => gt, fun q => absurd q hnp⟩
      | 1, hi, hj =>
        cases hi
        cases hj
        exact ⟨fun q => absurd (q.not_point (ReachC.base).wfc (c := cPoint) (by simp)) (by decide +kernel), fun _ => by unfold GoodPoints; decide +kernel⟩
      | i + 2, hi, hj => cases hi)
  have p0 : h1.gpoint 0 = false := Bool.eq_false_iff.mpr fun q => hnp ((hk 0 _ rfl).mp q)
  have p1 : h1.gpoint 1 = true := (hk 1 _ rfl).mpr hp
  have q0 : (h1.gtiers 0).map h1.ptier = exGapTones[0] := (List.cons_eq_cons.mp v1).1
  have q1 : (h1.gtiers 1).map h1.ptier = exGapTones[1] := (List.cons_eq_cons.mp (List.cons_eq_cons.mp v1).2).1
  obtain ⟨h2, e2, r⟩ := setGroups_run 0 [0, 1] (by simp) h1
  have hgt : h2.gtiers = h1.gtiers := by rw [r.frame]
  have hgp : h2.gpoint = h1.gpoint := by rw [r.frame]
  have hp2 : h2.ptier = h1.ptier := by rw [r.frame]; rfl
  have hone : ∀ g ∈ h2.agroups 0, h2.gpoint g = false → g = 0 := by
    rw [r.agroups, hgp]
    intro g hg hq
    have : g = 0 ∨ g = 1 := by simpa using hg
    rcases this with rfl | rfl
    · rfl
    · rw [p1] at hq; cases hq
  obtain ⟨h', e', -, -, -, -, -, -, -, -, -, hum⟩ := C83_cleanup_partial h2 0 ⟨0, by rw [r.agroups]; simp, by rw [hgp]; exact p0⟩
    (by rw [r.agroups, hgp]; exact gr.regrouped r)
    (by
      intro g hg hq t ht he
      rw [hone g hg hq, hgt] at ht
      have : h2.ptier t ∈ exGapTones[0] := by rw [hp2, ← q0]; exact List.mem_map_of_mem ht
      refine absurd (gt.ne _ this) (fun n => n ?_)
      unfold Heap.ptier
      rw [he]
      rfl)
    (by
      intro g hg hq k hk hq' x y
      rw [hone g hg hq, hone k hk hq']
      refine ⟨fun a b => ?_, fun a b => ?_⟩ <;> rw [a] at b <;> cases b <;> exact CloseTo.refl _)
  refine ⟨h2, h', ?_, e', ?_, by rw [hgt, hp2]; exact q1, hum 1 (by rw [r.agroups]; simp) ?_⟩
  · mstep e1
    exact e2
  · obtain ⟨t, ht, hq⟩ := List.mem_map.mp (show exGapTones[0][0] ∈ (h1.gtiers 0).map h1.ptier by rw [q0]; decide)
    refine ⟨t, by rw [hgt]; exact ht, (2, 3), ?_, by unfold RealGap CloseTo; decide +kernel⟩
    rw [show (h2.tseq t).vals.map h2.span = rawSpans (h2.ptier t).2 by
      unfold rawSpans Heap.ptier Heap.span; rw [List.map_map]; rfl, hp2, hq]
    decide +kernel
  · have b := ((hpt 1 (by decide)).2 p1).beside gr (hpt 1 (by decide)).1
    rw [r.agroups]
    unfold Beside OnTiers at b ⊢
    rw [hgp, hgt, show h2.tseq = h1.tseq by rw [r.frame], show h2.nE = h1.nE by rw [r.frame]]
    exact b

end ATG
