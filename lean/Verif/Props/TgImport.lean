import Verif.Lemmas.Import
import Verif.Props.Nest
/-!
# C74: making a textgrid from a Praat textgrid
-/
namespace ATG

/-- C74: let `nestify` split the tiers of a Praat textgrid into the groups `tss` for the classes `css`, where each list
    of classes is a hierarchy, complete or without its lowest classes, and the tiers of each group are aligned.
    `AlignedTextGrid(textgrid, classes)` then succeeds. Before its cleanup the new textgrid has exactly the given
    tiers in each group, with their names, times and labels, for clones of the given classes with the same names, and all intervals are related
    by containment; the result is that of `cleanup()` (C73) on it. None of the classes that existed has changed.
    `_partial`: missing are point tiers (`C83_import_partial`), empty and unaligned tiers, and hierarchies without
    their highest classes (`C95_import`, `C74_middle_violated`); the same name for different classes breaks it
    (`C74_names_violated`). -/
theorem C74_import_partial (h : Heap) (tiers : List PTier) (arg : ClassArg) (tss : List (List PTier)) (css : List (List CRef))
    (hr : ReachC h.ct) (td : Tidy h) (ac : Allocated h) (hn : nestify h.ct tiers arg = .ok (tss, css)) (hne : tss ≠ [])
    (hlen : tss.map List.length = css.map List.length) (good : ∀ ts ∈ tss, GoodTiers ts) (tc : TopClasses h.ct css) :
    ∃ h0 h1 h', newAtg tiers arg h = .ok h.nA h' ∧ Holds h0 h.nA tss (css.map (List.map h.ct.name)) ∧
      GapGrid h0 (h0.agroups h.nA) ∧ (∀ g ∈ h0.agroups h.nA, ∀ t ∈ h0.gtiers g, h.ct.next ≤ h0.tcls t) ∧
      (∀ c < h.ct.next, h0.ct.name c = h.ct.name c ∧ h0.ct.sup c = h.ct.sup c ∧ h0.ct.sub c = h.ct.sub c) ∧
      atgCleanup h.nA h0 = .ok () h1 ∧ h' = { h1 with acont := h'.acont, agroups := h'.agroups, gwithin := h'.gwithin } ∧
      h'.agroups h.nA = h1.agroups h.nA ∧ h'.acont h.nA = h1.agroups h.nA ∧
      (∀ g ∈ h1.agroups h.nA, h'.gwithin g = some h.nA) ∧
      (∀ g ∈ h0.agroups h.nA, Homely h0 (h0.gtiers g) ∧ Rooted h0 (h0.gtiers g)) ∧
      TopOwn h0 (h0.agroups h.nA) ∧ (AlikeClasses css → OwnClasses h0 (h0.agroups h.nA)) := by
  have w := hr.wfc
  let k : Heap := { h with
    nA := h.nA + 1
    agroups := upd h.agroups h.nA []
    acont := upd h.acont h.nA []
    acloned := upd h.acloned h.nA [] }
  obtain ⟨h1, e1, gr, v1, v2, x, hc, hm, tw, oc⟩ := relateTiers_run (h := k) (a := h.nA) w (td.newClasses k rfl) ac (upd_same _ _ _)
    good tc hlen
  have hgs : List.range' k.nG tss.length ≠ [] := by
    intro e
    have := congrArg List.length e
    rw [List.length_range'] at this
    exact hne (List.length_eq_zero_iff.mp this)
  obtain ⟨h2, e2, r⟩ := setGroups_run h.nA _ hgs h1
  have hgt : h2.gtiers = h1.gtiers := by rw [r.frame]
  have htc : h2.tcls = h1.tcls := by rw [r.frame]
  have hct : h2.ct = h1.ct := by rw [r.frame]
  have hpt : h2.ptier = h1.ptier := by rw [r.frame]; rfl
  have gr2 : GapGrid h2 (h2.agroups h.nA) := by rw [r.agroups]; exact gr.regrouped r
  obtain ⟨lo, hi, smin, smax, emin, emax, h3, h4, -, -, e4, -⟩ := C73_cleanup_partial h2 h.nA (by rw [r.agroups]; exact hgs) gr2 (by
    rw [r.agroups]
    intro g hg t ht he
    rw [hgt] at ht
    have hm : (h1.gtiers g).map h1.ptier ∈ tss := by
      rw [← v1]
      exact List.mem_map_of_mem (f := fun g => (h1.gtiers g).map h1.ptier) hg
    refine (good _ hm).ne _ (List.mem_map_of_mem ht) ?_
    rw [← hpt]
    unfold Heap.ptier
    rw [he]
    rfl)
  obtain ⟨h5, e5, r5⟩ := setContainsA_run h.nA h4
  refine ⟨h2, h4, h5, ?_, ⟨?_, ?_⟩, gr2, ?_, ?_, e4, by rw [r5.frame], r5.agroups, r5.acont, r5.gwithin, ?_, ?_, ?_⟩
  · unfold newAtg
    mstep (show newAtgObj h = .ok h.nA k from rfl)
    mstep M.get_apply k
    mstep (show liftE (nestify k.ct tiers arg) k = .ok (tss, css) k by
      rw [show k.ct = h.ct from rfl, hn]; rfl)
    mstep e1
    mstep e2
    mstep e4
    mstep e5
    rfl
  · rw [r.agroups, hgt, hpt]; exact v1
  · rw [r.agroups, hgt, htc, hct]; exact v2
  · rw [r.agroups, hgt, htc]
    exact fun g hg t ht => (hc g hg t ht).1
  · rw [hct]
    intro c hlt
    exact ⟨x.name c hlt, sup_ext w x c hlt, sub_ext w x c hlt⟩
  · rw [r.agroups, hgt]
    intro g hg
    obtain ⟨m1, m2⟩ := hm g hg
    exact ⟨m1.unmoved (.regrouped r _) (fun _ _ => by rw [r.frame]) (fun _ _ => by rw [r.frame]; exact ⟨rfl, rfl⟩)
      (m1.fresh.congr hct fun _ _ => by rw [r.frame]; exact ⟨rfl, rfl, rfl⟩),
      m2.unmoved (.regrouped r _)⟩
  · have n1 : h2.nT = h1.nT := by rw [r.frame]
    have n2 : h2.nG = h1.nG := by rw [r.frame]
    rw [r.agroups]
    exact ⟨by rw [hct]; exact tw.wfc, by rw [hgt, n1, n2]; exact tw.old, by rw [hct, hgt, htc]; exact tw.part⟩
  · intro gc
    have oc := oc gc
    rw [r.agroups]
    have n1 : h2.nT = h1.nT := by rw [r.frame]
    have n2 : h2.nG = h1.nG := by rw [r.frame]
    exact ⟨by rw [hct]; exact oc.wfc, by rw [hgt, n1, n2]; exact oc.old, by rw [hct, hgt, htc]; exact oc.good,
      by rw [hgt, htc]; exact oc.same⟩

/-- C74: if moreover all tiers of all groups start at the same time, end at the same time and have no gaps, as in every
    Praat textgrid, then the new textgrid has exactly the given tiers, for classes with the given names, all its
    intervals are related by containment, and the intervals are at home on their tiers (`intier`), those of
    the first tier of a group being within it and in a chain. -/
theorem C74_exact_partial (h : Heap) (tiers : List PTier) (arg : ClassArg) (tss : List (List PTier)) (css : List (List CRef))
    (hr : ReachC h.ct) (td : Tidy h) (ac : Allocated h) (hn : nestify h.ct tiers arg = .ok (tss, css)) (hne : tss ≠ [])
    (hlen : tss.map List.length = css.map List.length) (good : ∀ ts ∈ tss, GoodTiers ts) (tc : TopClasses h.ct css)
    (lo hi : Time) (cov : ∀ ts ∈ tss, Covering ts lo hi) :
    ∃ h', newAtg tiers arg h = .ok h.nA h' ∧ Holds h' h.nA tss (css.map (List.map h.ct.name)) ∧
      GapGrid h' (h'.agroups h.nA) ∧ (∀ g ∈ h'.agroups h.nA, h'.gwithin g = some h.nA) ∧
      (∀ g ∈ h'.agroups h.nA, ∀ t ∈ h'.gtiers g, h.ct.next ≤ h'.tcls t) ∧
      (∀ c < h.ct.next, h'.ct.name c = h.ct.name c ∧ h'.ct.sup c = h.ct.sup c ∧ h'.ct.sub c = h.ct.sub c) ∧
      (∀ g ∈ h'.agroups h.nA, Homely h' (h'.gtiers g) ∧ Rooted h' (h'.gtiers g)) ∧
      TopOwn h' (h'.agroups h.nA) ∧ (AlikeClasses css → OwnClasses h' (h'.agroups h.nA)) := by
  obtain ⟨h0, h1, h', e, hd, gr, hcl, hold, ec, hf, q1, q2, q3, hm, tw, oc⟩ :=
    C74_import_partial h tiers arg tss css hr td ac hn hne hlen good tc
  have hmem : ∀ g ∈ h0.agroups h.nA, (h0.gtiers g).map h0.ptier ∈ tss := by
    intro g hg
    rw [← hd.tiers]
    exact List.mem_map_of_mem (f := fun g => (h0.gtiers g).map h0.ptier) hg
  have hag : h0.agroups h.nA ≠ [] := by
    intro q
    have := hd.tiers
    rw [q] at this
    exact hne this.symm
  have hemp : ∀ g ∈ h0.agroups h.nA, ∀ t ∈ h0.gtiers g, (h0.tseq t).vals ≠ [] := by
    intro g hg t ht he
    refine (good _ (hmem g hg)).ne _ (List.mem_map_of_mem ht) ?_
    unfold Heap.ptier
    rw [he]
    rfl
  have hent : ∀ g ∈ h0.agroups h.nA, ∀ t ∈ h0.gtiers g, ∀ x ∈ (h0.tseq t).vals,
      (h0.start x, h0.stop x, h0.label x) ∈ (h0.ptier t).2 := fun g _ t _ x hx =>
    List.mem_map_of_mem (f := fun r => (h0.start r, h0.stop r, h0.label r)) hx
  have hno : ∀ g ∈ h0.agroups h.nA, ¬ HasGap h0 g := by
    rintro g hg ⟨u, hu, p, hp, -⟩
    have := (cov _ (hmem g hg) _ (List.mem_map_of_mem hu)).1
    rw [show rawSpans (h0.ptier u).2 = (h0.tseq u).vals.map h0.span by
      unfold rawSpans Heap.ptier; rw [List.map_map]; rfl] at this
    rw [this] at hp
    cases hp
  have hx : ∀ g ∈ h0.agroups h.nA, groupXmin h0 g = .ok lo ∧ groupXmax h0 g = .ok hi := by
    intro g hg
    obtain ⟨lo', hi', fl⟩ := gr.flush hg (hemp g hg)
    have x1 := fl.xmin
    have x2 := fl.xmax
    have gg := gr.groups g hg
    obtain ⟨-, ⟨y, hy, ey⟩, hy2⟩ := (C44_group_xmin _ _ _).mp x1
    obtain ⟨-, ⟨z, hz, ez⟩, hz2⟩ := (C44_group_xmax _ _ _ gg.gpoint).mp x2
    obtain ⟨t, ht⟩ := List.exists_mem_of_ne_nil _ gg.ne
    have cv := cov _ (hmem g hg)
    obtain ⟨-, ⟨⟨p, hp, ep⟩, -⟩, ⟨p', hp', ep'⟩, -⟩ := cv _ (List.mem_map_of_mem ht)
    obtain ⟨x, hxm, rfl⟩ := List.mem_map.mp hp
    obtain ⟨x', hxm', rfl⟩ := List.mem_map.mp hp'
    obtain ⟨u, hu, hyu⟩ := List.mem_flatMap.mp hy
    obtain ⟨v, hv, hzv⟩ := List.mem_flatMap.mp hz
    have a1 := (cv _ (List.mem_map_of_mem hu)).2.1.2 _ (hent g hg u hu y hyu)
    have a2 := (cv _ (List.mem_map_of_mem hv)).2.2.2 _ (hent g hg v hv z hzv)
    have a3 := hy2 x (List.mem_flatMap.mpr ⟨t, ht, hxm⟩)
    have a4 := hz2 x' (List.mem_flatMap.mpr ⟨t, ht, hxm'⟩)
    dsimp only at a1 a2 ep ep'
    have b1 : lo' = lo := by grind
    have b2 : hi' = hi := by grind
    rw [x1, x2, b1, b2]
    exact ⟨rfl, rfl⟩
  have hk : h1 = h0 := by
    rw [C73_idle_partial h0 h.nA hag gr hemp hno (fun g hg => (hm g hg).2) lo hi hx] at ec
    exact (Res.ok.inj ec).2.symm
  subst hk
  have hrg : Regrouped h1 h' h.nA (h1.agroups h.nA) := ⟨by rw [hf], q1, q2, q3⟩
  have hgt : h'.gtiers = h1.gtiers := by rw [hf]
  have htc : h'.tcls = h1.tcls := by rw [hf]
  have hct : h'.ct = h1.ct := by rw [hf]
  have hpt : h'.ptier = h1.ptier := by
    unfold Heap.ptier
    rw [hf]
  refine ⟨h', e, ⟨?_, ?_⟩, ?_, ?_, ?_, by rw [hct]; exact hold, ?_, by rw [q1]; exact
    ⟨by rw [hct]; exact tw.wfc, by rw [hf]; exact tw.old, by rw [hct, hgt, htc]; exact tw.part⟩, fun gc => by rw [q1]; exact
    ⟨by rw [hct]; exact (oc gc).wfc, by rw [hf]; exact (oc gc).old, by rw [hct, hgt, htc]; exact (oc gc).good,
      by rw [hgt, htc]; exact (oc gc).same⟩⟩
  · rw [q1, hgt, hpt, ← hd.tiers]
  · rw [q1, hgt, htc, hct]; exact hd.classes
  · rw [q1]; exact gr.regrouped hrg
  · rw [q1]; exact q3
  · rw [q1, hgt, htc]; exact hcl
  · rw [q1, hgt]
    intro g hg
    have m := Unmoved.regrouped hrg (h1.gtiers g)
    exact ⟨(hm g hg).1.unmoved m (fun t _ => by rw [hf]) (fun x _ => by rw [hf]; exact ⟨rfl, rfl⟩)
      ((hm g hg).1.fresh.congr hct fun t _ => by rw [hf]; exact ⟨rfl, rfl, rfl⟩), (hm g hg).2.unmoved m⟩

theorem TopPart.one {ct : ClassTab} {l : List CRef} (hl : TopPart ct l) (w : WFC ct) : OneHierarchy ct l := by
  have key : ∀ (i : Nat) (c s : CRef), l[i]? = some c → ct.sup c = some s → ct.isSub s cTop = true → i = 0 := by
    intro i c s hi hs ht
    cases i with
    | zero => rfl
    | succ i =>
      obtain ⟨hlt, -⟩ := List.getElem?_eq_some_iff.mp hi
      have hp : l[i]? = some l[i] := List.getElem?_eq_getElem (by omega)
      have h1 := (hl.links hp hi).2
      rw [hs] at h1
      have h2 := (hl.mem (List.mem_of_getElem? hp)).2.2.1
      rw [← Option.some.inj h1, ht] at h2
      cases h2
  exact ⟨hl.1, fun c hc => hl.not_point w hc, fun c hc => hl.sup_some hc,
    fun i j c d s t hi hj h1 h2 h3 h4 => (key i c s hi h1 h3).trans (key j d t hj h2 h4).symm⟩

theorem IsHierarchy.one {ct : ClassTab} {l : List CRef} (hl : IsHierarchy ct l) (w : WFC ct) : OneHierarchy ct l :=
  hl.topPart.one w

/-- C74, one list of classes, complete or without the lowest ones: `AlignedTextGrid(textgrid, [Word, Phone])` for `n` groups of tiers that cover the same time
    without gaps has these groups: read one after the other, its tiers are those of the Praat textgrid. -/
theorem C74_flat_partial (h : Heap) (tiers : List PTier) (l : List CRef) (hr : ReachC h.ct) (td : Tidy h) (ac : Allocated h)
    (hp : l ≠ []) (low : List CRef) (hl : IsHierarchy h.ct (l ++ low)) (plain : ∀ c ∈ l ++ low, PlainName (h.ct.name c))
    (names : ∀ c ∈ l ++ low, ∀ d ∈ l ++ low, h.ct.name c = h.ct.name d → c = d) (hne : tiers ≠ []) (hd : tiers.length % l.length = 0)
    (lo hi : Time) (good : ∀ i < tiers.length / l.length, GoodTiers ((tiers.drop (i * l.length)).take l.length) ∧
      Covering ((tiers.drop (i * l.length)).take l.length) lo hi) :
    ∃ h', newAtg tiers (.flat l) h = .ok h.nA h' ∧
      ((h'.agroups h.nA).map fun g => (h'.gtiers g).map h'.ptier).flatten = tiers ∧
      (h'.agroups h.nA).map (fun g => (h'.gtiers g).map fun t => h'.ct.name (h'.tcls t)) =
        List.replicate (tiers.length / l.length) (l.map h.ct.name) ∧ GapGrid h' (h'.agroups h.nA) := by
  have w := hr.wfc
  have hk : 0 < l.length := List.length_pos_iff.mpr hp
  have hle : l.length ≤ tiers.length := by
    rcases Nat.lt_or_ge tiers.length l.length with q | q
    · rw [Nat.mod_eq_of_lt q] at hd
      exact absurd (List.length_eq_zero_iff.mp hd) hne
    · exact q
  obtain ⟨gs, hn, hgl, hg, hfl⟩ := C35_split h.ct tiers l (TopPart.one ⟨hp, low, hl⟩ w) hle
  have hm : 0 < tiers.length / l.length := Nat.div_pos hle hk
  have hgs : ∀ ts ∈ gs, GoodTiers ts ∧ Covering ts lo hi := by
    intro ts hts
    obtain ⟨i, hi⟩ := List.mem_iff_getElem?.mp hts
    obtain ⟨hlt, -⟩ := List.getElem?_eq_some_iff.mp hi
    obtain ⟨h1, h2⟩ := hg i ts hi
    have : ts = (tiers.drop (i * l.length)).take l.length := by
      apply List.ext_getElem?
      intro j
      by_cases hj : j < l.length
      · rw [h2 j hj, List.getElem?_take_of_lt hj, List.getElem?_drop]
      · rw [List.getElem?_eq_none (by omega), List.getElem?_eq_none (by rw [List.length_take]; omega)]
    rw [this]
    exact good i (by omega)
  obtain ⟨h', e, hh, gr, -⟩ := C74_exact_partial h tiers (.flat l) gs (List.replicate (tiers.length / l.length) l) hr td ac hn
    (by intro q; rw [q] at hgl; simp only [List.length_nil] at hgl; omega)
    (by
      apply List.ext_getElem?
      intro i
      rw [List.getElem?_map, List.map_replicate, List.getElem?_replicate]
      by_cases hi : i < gs.length
      · rw [List.getElem?_eq_getElem hi, if_pos (by omega)]
        exact congrArg some (hg i _ (List.getElem?_eq_getElem hi)).1
      · rw [List.getElem?_eq_none (by omega), if_neg (by omega)]
        rfl)
    (fun ts hts => (hgs ts hts).1)
    (by
      have key : ∀ c ∈ (List.replicate (tiers.length / l.length) (l ++ low)).flatten, c ∈ l ++ low := by
        intro c hc
        obtain ⟨cs, h1, h2⟩ := List.mem_flatten.mp hc
        rw [List.eq_of_mem_replicate h1] at h2
        exact h2
      refine ⟨List.replicate (tiers.length / l.length) (l ++ low), ⟨fun cs hcs => by rw [List.eq_of_mem_replicate hcs]; exact hl,
        fun c hc => plain c (key c hc), fun c hc d hd => names c (key c hc) d (key d hd)⟩, by simp, ?_⟩
      intro i cs L h1 h2
      rw [List.eq_of_mem_replicate (List.mem_of_getElem? h1), List.eq_of_mem_replicate (List.mem_of_getElem? h2)]
      exact ⟨hp, List.prefix_append _ _⟩)
    lo hi (fun ts hts => (hgs ts hts).2)
  refine ⟨h', e, ?_, ?_, gr⟩
  · rw [hh.tiers, hfl, Nat.div_mul_cancel (Nat.dvd_of_mod_eq_zero hd), List.take_length]
  · rw [hh.classes, List.map_replicate]

/-! ## A case that meets the hypotheses -/

/-- words and phones of two speakers, covering the same time -/
def exPraat : List PTier :=
  [("KY25A - words", [(0, 1, ""), (1, 3, "cat"), (3, 4, "")]),
   ("KY25A - phones", [(0, 1, ""), (1, 2, "K"), (2, 3, "T"), (3, 4, "")]),
   ("IVR - words", [(0, 2, "hm"), (2, 4, "")]),
   ("IVR - phones", [(0, 1, "HH"), (1, 2, "M"), (2, 4, "")])]

theorem goodTiers_pair {t u : PTier} (hne : ∀ p ∈ [t, u], p.2 ≠ []) (hl : ∀ p ∈ [t, u], ∀ q ∈ p.2, q.2.2 ≠ "#")
    (hlaid : ∀ p ∈ [t, u], Laid (rawSpans p.2)) (hg : ∀ p ∈ [t, u], gapsOf (rawSpans p.2) = [])
    (ha : AlignedS (rawSpans t.2) (rawSpans u.2)) : GoodTiers [t, u] := by
  refine ⟨hne, hl, hlaid, fun p hp hn => absurd (hg p hp) hn, ?_⟩
  intro i x y hx hy
  cases i with
  | zero => simp at hx hy; subst hx; subst hy; exact ha
  | succ i => simp at hy

theorem heap0_subs (v x : Ref) : x ∉ (heap0.subs v).vals := by
  simp [heap0, SL.empty]

theorem heap0_alloc : Allocated heap0 := fun v x hx => absurd hx (heap0_subs v x)

theorem heap0_tidy : Tidy heap0 := by
  constructor
  · intro v x
    exact ⟨fun hx => absurd hx (heap0_subs v x), fun hx => by simp [heap0] at hx⟩
  · intro v
    simp [heap0, SL.empty]
  all_goals intro v x hx; exact absurd hx (heap0_subs v x)

example : ∃ h', newAtg exPraat (.flat [cWord, cPhone]) heap0 = .ok 0 h' ∧
    ((h'.agroups 0).map fun g => (h'.gtiers g).map h'.ptier).flatten = exPraat ∧
    (h'.agroups 0).map (fun g => (h'.gtiers g).map fun t => h'.ct.name (h'.tcls t)) = [["Word", "Phone"], ["Word", "Phone"]] ∧
    GapGrid h' (h'.agroups 0) := by
  have hl : IsHierarchy heap0.ct [cWord, cPhone] := isHierarchy_of_check (by decide) (by decide) (by decide +kernel)
    (by decide +kernel) (by decide +kernel) (by decide +kernel)
  obtain ⟨h', e, h1, h2, h3⟩ := C74_flat_partial heap0 exPraat [cWord, cPhone] .base
    heap0_tidy heap0_alloc (by decide) [] hl (by decide +kernel) (by decide +kernel) (by decide) (by decide) 0 4 (by
      intro i hi
      have : i = 0 ∨ i = 1 := by simp [exPraat] at hi; omega
      rcases this with rfl | rfl
      · exact ⟨goodTiers_pair (by decide) (by decide +kernel) (by decide +kernel) (by decide +kernel)
        ⟨by decide +kernel, by decide +kernel, by decide +kernel, by decide +kernel⟩, by unfold Covering; decide +kernel⟩
      · exact ⟨goodTiers_pair (by decide) (by decide +kernel) (by decide +kernel) (by decide +kernel)
        ⟨by decide +kernel, by decide +kernel, by decide +kernel, by decide +kernel⟩, by unfold Covering; decide +kernel⟩)
  refine ⟨h', e, h1, ?_, h3⟩
  rw [show (0 : ARef) = heap0.nA from rfl, h2]
  decide +kernel

/-- the words of two speakers, without the phones -/
def exNoPhones : List PTier :=
  [("KY25A - words", [(0, 1, ""), (1, 3, "cat"), (3, 4, "")]), ("IVR - words", [(0, 2, "hm"), (2, 4, "")])]

example : ∃ h', newAtg exNoPhones (.flat [cWord]) heap0 = .ok 0 h' ∧
    ((h'.agroups 0).map fun g => (h'.gtiers g).map h'.ptier).flatten = exNoPhones ∧
    (h'.agroups 0).map (fun g => (h'.gtiers g).map fun t => h'.ct.name (h'.tcls t)) = [["Word"], ["Word"]] ∧
    GapGrid h' (h'.agroups 0) := by
  have hl : IsHierarchy heap0.ct ([cWord] ++ [cPhone]) := isHierarchy_of_check (by decide) (by decide) (by decide +kernel)
    (by decide +kernel) (by decide +kernel) (by decide +kernel)
  obtain ⟨h', e, h1, h2, h3⟩ := C74_flat_partial heap0 exNoPhones [cWord] .base
    heap0_tidy heap0_alloc (by decide) [cPhone] hl (by decide +kernel) (by decide +kernel) (by decide) (by decide) 0 4 (by
      intro i hi
      have : i = 0 ∨ i = 1 := by simp [exNoPhones] at hi; omega
      rcases this with rfl | rfl
      all_goals
        refine ⟨⟨by decide +kernel, by decide +kernel, by decide +kernel, fun p hp q => absurd ?_ q, ?_⟩, by unfold Covering; decide +kernel⟩
        · revert p; decide +kernel
        · intro i t u _ hu
          exact absurd (List.getElem?_eq_some_iff.mp hu).1 (by
            show ¬ i + 1 < 1
            omega))
  refine ⟨h', e, h1, ?_, h3⟩
  rw [show (0 : ARef) = heap0.nA from rfl, h2]
  decide +kernel

/-! ## Where it fails -/

/-- two hierarchies, `A` over `B` and `C` over another class called `B` -/
def exSameName : Heap :=
  { heap0 with ct := (customClasses (customClasses baseClasses ["A", "B"] []).1 ["C", "B"] []).1 }

/-- C74 fails for two classes with the same name in different hierarchies: the second `B` is replaced by the clone of
    the first, which does not belong below `C`, and the last tier of the Praat textgrid is lost without an error. -/
theorem C74_names_violated : IsHierarchy exSameName.ct [11, 12] ∧ IsHierarchy exSameName.ct [15, 16] ∧
    (∀ c ∈ [11, 12, 15, 16], PlainName (exSameName.ct.name c)) ∧
    (newAtg exPraat (.nested [[11, 12], [15, 16]]) exSameName).out = .ok 0 ∧
    (let h := (newAtg exPraat (.nested [[11, 12], [15, 16]]) exSameName).heap
     (h.agroups 0).map (fun g => (h.gtiers g).map h.tname) = [["KY25A - words", "KY25A - phones"], ["IVR - words"]]) := by
  refine ⟨isHierarchy_of_check (by decide) (by decide) (by decide +kernel)
    (by decide +kernel) (by decide +kernel) (by decide +kernel), isHierarchy_of_check (by decide) (by decide) (by decide +kernel)
    (by decide +kernel) (by decide +kernel) (by decide +kernel), by decide +kernel, by decide +kernel, by decide +kernel⟩

/-- classes `A`, `B` and `C` in this order -/
def exMiddle : Heap := { heap0 with ct := (customClasses baseClasses ["A", "B", "C"] []).1 }

/-- C74 fails for a group of middle classes only: beside a complete group, a tier for the highest class alone or for
    the lowest class alone can be imported, but a tier for the class between them raises a `TypeError` from
    `cleanup()`: such a tier is not told its group, and `_project_up` asks for its place in it. -/
theorem C74_middle_violated : IsHierarchy exMiddle.ct [11, 12, 13] ∧ (∀ c ∈ [11, 12, 13], PlainName (exMiddle.ct.name c)) ∧
    let tiers : List PTier := [("a", [(0, 2, "x")]), ("b", [(0, 2, "y")]), ("c", [(0, 2, "z")]), ("m", [(0, 2, "u")])]
    (newAtg tiers (.nested [[11, 12, 13], [11]]) exMiddle).out = .ok 0 ∧
    (newAtg tiers (.nested [[11, 12, 13], [12]]) exMiddle).out = .error .typeError ∧
    (newAtg tiers (.nested [[11, 12, 13], [13]]) exMiddle).out = .ok 0 :=
  ⟨isHierarchy_of_check (by decide) (by decide) (by decide +kernel)
    (by decide +kernel) (by decide +kernel) (by decide +kernel), by decide +kernel, by decide +kernel⟩

end ATG
