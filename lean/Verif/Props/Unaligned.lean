import Verif.Lemmas.ClipReach
/-!
# C89: making a textgrid from tiers whose boundaries do not match
-/
namespace ATG

theorem ptier_spans (h : Heap) (t : TRef) : rawSpans (h.ptier t).2 = (h.tseq t).vals.map h.span := by
  unfold rawSpans Heap.ptier; rw [List.map_map]; rfl

/-- C74: let all tiers of all groups start at the same time and end at the same time. The new textgrid then has the
    given tiers with their gaps filled by blank intervals, for classes with the given names, and all its intervals are
    related by containment. -/
theorem C74_gaps_partial (h : Heap) (tiers : List PTier) (arg : ClassArg) (tss : List (List PTier)) (css : List (List CRef))
    (hr : ReachC h.ct) (td : Tidy h) (ac : Allocated h) (hn : nestify h.ct tiers arg = .ok (tss, css)) (hne : tss ≠ [])
    (hlen : tss.map List.length = css.map List.length) (good : ∀ ts ∈ tss, GoodTiers ts) (tc : TopClasses h.ct css)
    (lo hi : Time) (cov : ∀ ts ∈ tss, Reaches ts lo hi) :
    ∃ h' tss', newAtg tiers arg h = .ok h.nA h' ∧ Holds h' h.nA tss' (css.map (List.map h.ct.name)) ∧
      tss'.length = tss.length ∧ (∀ (i : Nat) ts ts', tss[i]? = some ts → tss'[i]? = some ts' → Completed ts ts') ∧
      GapGrid h' (h'.agroups h.nA) ∧ (∀ g ∈ h'.agroups h.nA, h'.gwithin g = some h.nA) ∧
      (∀ g ∈ h'.agroups h.nA, ∀ t ∈ h'.gtiers g, h.ct.next ≤ h'.tcls t) ∧
      (∀ c < h.ct.next, h'.ct.name c = h.ct.name c ∧ h'.ct.sup c = h.ct.sup c ∧ h'.ct.sub c = h.ct.sub c) ∧
      (AlikeClasses css → OwnClasses h' (h'.agroups h.nA)) := by
  obtain ⟨h0, h1, h', e, hd, gr, hcl, hold, ec, hf, q1, q2, q3, -, -, oc⟩ :=
    C74_import_partial h tiers arg tss css hr td ac hn hne hlen good tc
  have hmem : ∀ g ∈ h0.agroups h.nA, (h0.gtiers g).map h0.ptier ∈ tss := by
    intro g hg
    rw [← hd.tiers]
    exact List.mem_map_of_mem (f := fun g => (h0.gtiers g).map h0.ptier) hg
  have hag : h0.agroups h.nA ≠ [] := by
    intro q
    have := hd.tiers
    rw [q] at this
    exact hne this.symm
  have hemp : ∀ g ∈ h0.agroups h.nA, ∀ t ∈ h0.gtiers g, (h0.tseq t).vals ≠ [] := by
    intro g hg t ht he
    refine (good _ (hmem g hg)).ne _ (List.mem_map_of_mem ht) ?_
    unfold Heap.ptier
    rw [he]
    rfl
  have hent : ∀ g ∈ h0.agroups h.nA, ∀ t ∈ h0.gtiers g, ∀ x ∈ (h0.tseq t).vals,
      (h0.start x, h0.stop x, h0.label x) ∈ (h0.ptier t).2 := fun g _ t _ x hx =>
    List.mem_map_of_mem (f := fun r => (h0.start r, h0.stop r, h0.label r)) hx
  obtain ⟨lo', hi', smin, smax, emin, emax, k1, k2, hx, ex, ek, gk, fk, ⟨f1, f2, f3, f4, f5, f6, f7⟩, hval, hclose, -⟩ :=
    C73_cleanup_partial h0 h.nA hag gr hemp
  have hk : k2 = h1 := by
    rw [ec] at ek
    exact (Res.ok.inj ek).2.symm
  subst hk
  have hlo : ∀ g ∈ h0.agroups h.nA, lo' g = lo ∧ hi' g = hi := by
    intro g hg
    obtain ⟨x1, x2⟩ := hx g hg
    have gg := gr.groups g hg
    obtain ⟨-, ⟨y, hy, ey⟩, hy2⟩ := (C44_group_xmin _ _ _).mp x1
    obtain ⟨-, ⟨z, hz, ez⟩, hz2⟩ := (C44_group_xmax _ _ _ gg.gpoint).mp x2
    obtain ⟨t, ht⟩ := List.exists_mem_of_ne_nil _ gg.ne
    have cv := cov _ (hmem g hg)
    obtain ⟨⟨⟨p, hp, ep⟩, -⟩, ⟨p', hp', ep'⟩, -⟩ := cv _ (List.mem_map_of_mem ht)
    obtain ⟨x, hxm, rfl⟩ := List.mem_map.mp hp
    obtain ⟨x', hxm', rfl⟩ := List.mem_map.mp hp'
    obtain ⟨u, hu, hyu⟩ := List.mem_flatMap.mp hy
    obtain ⟨v, hv, hzv⟩ := List.mem_flatMap.mp hz
    have a1 := (cv _ (List.mem_map_of_mem hu)).1.2 _ (hent g hg u hu y hyu)
    have a2 := (cv _ (List.mem_map_of_mem hv)).2.2 _ (hent g hg v hv z hzv)
    have a3 := hy2 x (List.mem_flatMap.mpr ⟨t, ht, hxm⟩)
    have a4 := hz2 x' (List.mem_flatMap.mpr ⟨t, ht, hxm'⟩)
    dsimp only at a1 a2 ep ep'
    constructor <;> grind
  have s1 : smin = smax := by
    obtain ⟨a, ha, e1⟩ := ex.smin.1
    obtain ⟨b, hb, e2⟩ := ex.smax.1
    rw [← e1, ← e2, (hlo a ha).1, (hlo b hb).1]
  have s2 : emin = emax := by
    obtain ⟨a, ha, e1⟩ := ex.emin.1
    obtain ⟨b, hb, e2⟩ := ex.emax.1
    rw [← e1, ← e2, (hlo a ha).2, (hlo b hb).2]
  have hk := hclose ⟨by rw [s1]; exact CloseTo.refl _, by rw [s2]; exact CloseTo.refl _⟩
  subst hk
  have hrg : Regrouped k2 h' h.nA (k2.agroups h.nA) := ⟨by rw [hf], q1, q2, q3⟩
  have ha' : h'.agroups h.nA = h0.agroups h.nA := q1.trans (by rw [f2])
  have hgt : h'.gtiers = h0.gtiers := (by rw [hf] : h'.gtiers = k2.gtiers).trans f3
  have htc : h'.tcls = h0.tcls := (by rw [hf] : h'.tcls = k2.tcls).trans f5
  have hct : h'.ct = h0.ct := (by rw [hf] : h'.ct = k2.ct).trans f1
  have hnm : h'.tname = h0.tname := (by rw [hf] : h'.tname = k2.tname).trans f4
  have hsq : h'.tseq = k2.tseq := by rw [hf]
  have hst : h'.start = k2.start := by rw [hf]
  have hsp : h'.stop = k2.stop := by rw [hf]
  have hlb : h'.label = k2.label := by rw [hf]
  have hspan : h'.span = k2.span := by funext x; unfold Heap.span; rw [hst, hsp]
  have hrow : ∀ x, x < h0.nE → h'.entry x = h0.entry x := by
    intro x hx
    obtain ⟨v1, v2⟩ := hval x hx
    have w1 : k2.start x = h0.start x := congrArg Prod.fst v1
    have w2 : k2.stop x = h0.stop x := congrArg Prod.snd v1
    unfold Heap.entry
    rw [hst, hsp, hlb, w1, w2, v2]
  have hcomp : ∀ g ∈ h0.agroups h.nA, Completed ((h0.gtiers g).map h0.ptier) ((h0.gtiers g).map h'.ptier) := by
    intro g hg
    refine ⟨?_, ?_, ?_⟩
    · rw [List.map_map, List.map_map]
      apply List.map_congr_left
      intro t _
      show h'.tname t = h0.tname t
      rw [hnm]
    · intro hno
      apply List.map_congr_left
      intro t ht
      have hno' : ¬ HasGap h0 g := by
        rintro ⟨u, hu, p, hp, hp'⟩
        exact hno _ (List.mem_map_of_mem hu) p (by rw [ptier_spans]; exact hp) hp'
      have hs := (fk g hg).1 hno' t ht
      have e1 : h'.tseq t = h0.tseq t := by rw [hsq]; exact hs
      unfold Heap.ptier
      rw [hnm, e1]
      congr 1
      exact List.map_congr_left fun x hx => hrow x (((gr.groups g hg).tiers t ht).old x hx)
    · rintro ⟨u, hu, p, hp, hp'⟩ i t t' hi hi'
      obtain ⟨u', hu', rfl⟩ := List.mem_map.mp hu
      rw [ptier_spans] at hp
      obtain ⟨new, hnew⟩ := (fk g hg).2 ⟨u', hu', p, hp, hp'⟩
      rw [List.getElem?_map] at hi hi'
      cases hv : (h0.gtiers g)[i]? with
      | none => rw [hv] at hi; cases hi
      | some v =>
        rw [hv] at hi hi'
        cases hi
        cases hi'
        have hvm := List.mem_of_getElem? hv
        have ft := hnew v hvm
        have hr0 : ((h0.tseq v).vals.map h'.entry) = (h0.ptier v).2 :=
          List.map_congr_left fun x hx => hrow x (((gr.groups g hg).tiers v hvm).old x hx)
        have hr1 : ((h'.tseq v).vals.map h'.entry) = (h'.ptier v).2 := rfl
        refine ⟨?_, ?_, ?_, ?_⟩
        · rw [← hr0, ← hr1, hsq]
          exact ft.kept.map _
        · rw [← hr0, ← hr1, hsq]
          refine (ft.perm.map h'.entry).trans ?_
          rw [List.map_append]
          refine List.Perm.append_left _ (List.Perm.of_eq ?_)
          rw [show rawSpans ((h0.tseq v).vals.map h'.entry) = (h0.tseq v).vals.map h0.span by
            rw [hr0, ptier_spans], ← ft.spans, List.map_map]
          apply List.map_congr_left
          intro x hx
          have := (ft.fresh x hx).2.2.1
          show (h'.start x, h'.stop x, h'.label x) = (k2.start x, k2.stop x, "")
          rw [hst, hsp, hlb, this]
        · rw [ptier_spans, hsq, hspan]; exact ft.touching
        · rw [ptier_spans, hsq, hspan]; exact ft.laid
  have n1 : h'.nT = h0.nT := (by rw [hf] : h'.nT = k2.nT).trans f6
  have n2 : h'.nG = h0.nG := (by rw [hf] : h'.nG = k2.nG).trans f7
  refine ⟨h', _, e, ⟨rfl, ?_⟩, ?_, ?_, ?_, ?_, ?_, by rw [hct]; exact hold, fun gc => by rw [ha']; exact
    ⟨by rw [hct]; exact (oc gc).wfc, by rw [hgt, n1, n2]; exact (oc gc).old, by rw [hct, hgt, htc]; exact (oc gc).good,
      by rw [hgt, htc]; exact (oc gc).same⟩⟩
  · rw [ha', hgt, htc, hct]; exact hd.classes
  · rw [List.length_map, ha', ← hd.tiers, List.length_map]
  · intro i ts ts' h1 h2
    rw [← hd.tiers, List.getElem?_map] at h1
    rw [ha', hgt, List.getElem?_map] at h2
    cases hv : (h0.agroups h.nA)[i]? with
    | none => rw [hv] at h1; cases h1
    | some g =>
      rw [hv] at h1 h2
      cases h1
      cases h2
      exact hcomp g (List.mem_of_getElem? hv)
  · rw [ha']; exact gk.regrouped hrg
  · rw [ha']
    intro g hg
    exact q3 g (by rw [f2]; exact hg)
  · rw [ha', hgt, htc]; exact hcl

/-- C89: what two tiers with different boundaries have in common is determined by the tiers. -/
theorem C89_clipped (ts : List PTier) (lo hi : Time) (la : LooselyAligned ts lo hi) :
    ∃ ts', Clipped ts ts' ∧ (∀ ts'', Clipped ts ts'' → ts'' = ts') ∧ GoodTiers ts' ∧ Reaches ts' lo hi := by
  obtain ⟨ts', c⟩ := Clipped.exists la
  refine ⟨ts', c, ?_, c.good la, c.reaches la⟩
  intro ts'' c'
  obtain ⟨n, m, upper, lower, parts, rfl, dv, rfl⟩ := c
  obtain ⟨n', m', upper', lower', parts', e, dv', rfl⟩ := c'
  simp only [List.cons.injEq, Prod.mk.injEq, and_true] at e
  obtain ⟨⟨rfl, rfl⟩, rfl, rfl⟩ := e
  rw [dv'.unique dv]

/-- C89: let `nestify` split the tiers of a Praat textgrid into the groups `tss`. The groups are aligned, or they consist of
    two tiers that cover the same time without gaps but whose boundaries need not match; each entry of the upper tier
    owns an entry of the lower one. Let `tss'` have, in place of each such group, what its tiers have in common:
    each lower entry belongs to the upper one in which most of it lies, is cut to the part within it, and each
    upper entry is cut to the time from the start of its first to the end of its last lower entry. Then
    `AlignedTextGrid(textgrid, classes)` does exactly what it does for `tss'`.
    `_partial`: missing are groups of more tiers, tiers with gaps, and upper entries without a lower one; for
    tiers that start at `0` see `C89_zero_violated`. -/
theorem C89_import_partial (h : Heap) (tiers : List PTier) (arg : ClassArg) (tss tss' : List (List PTier)) (css : List (List CRef))
    (hr : ReachC h.ct) (td : Tidy h) (ac : Allocated h) (hn : nestify h.ct tiers arg = .ok (tss, css)) (hne : tss ≠ [])
    (hlen : tss.map List.length = css.map List.length) (tc : TopClasses h.ct css) (hl : tss'.length = tss.length)
    (rec : ∀ (i : Nat) ts ts', tss[i]? = some ts → tss'[i]? = some ts' → Reconciled ts ts') :
    newAtg tiers arg h = newAtg tss'.flatten (.nested css) h ∧ nestify h.ct tss'.flatten (.nested css) = .ok (tss', css) ∧
      tss'.map List.length = css.map List.length ∧ ∀ ts' ∈ tss', GoodTiers ts' := by
  have key : ∀ ts ts', Reconciled ts ts' → LeftOf ts ts' ∧ GoodTiers ts' := by
    rintro ts ts' (⟨g, rfl⟩ | ⟨⟨lo, hi, la⟩, c⟩)
    · exact ⟨Or.inl rfl, g⟩
    · exact ⟨c.leftOf la, c.good la⟩
  have good : ∀ ts' ∈ tss', GoodTiers ts' := by
    intro ts' ht
    obtain ⟨i, hi⟩ := List.mem_iff_getElem?.mp ht
    have hi' : i < tss.length := by rw [← hl]; exact (List.getElem?_eq_some_iff.mp hi).1
    exact (key _ _ (rec i _ ts' (List.getElem?_eq_getElem hi') hi)).2
  obtain ⟨a, b, c⟩ := newAtg_clip hr.wfc td ac hn hne good tc hlen hl.symm fun i ts ts' h1 h2 => (key _ _ (rec i ts ts' h1 h2)).1
  exact ⟨a, b, c, good⟩

theorem Reconciled.reaches {ts ts' : List PTier} {lo hi : Time} (r : Reconciled ts ts') (cv : Reaches ts lo hi) : Reaches ts' lo hi := by
  rcases r with ⟨-, rfl⟩ | ⟨⟨lo', hi2, la⟩, c⟩
  · exact cv
  · have hre := c.reaches la
    match ts, la.two with
    | [t, u], _ =>
      obtain ⟨⟨⟨p, hp, ep⟩, hp2⟩, ⟨q, hq, eq⟩, hq2⟩ := cv t (by simp)
      have tt := la.tiled t (by simp)
      have hne' : t.2 ≠ [] := fun q => by rw [q] at hp; cases hp
      have b1 := (tt.bounds.2 _ (mem_rawSpans hp)).1
      have b2 := (tt.bounds.2 _ (mem_rawSpans hq)).2.2
      have b3 : (t.2.head hne').1 = lo' := tt.head (p := ((t.2.head hne').1, (t.2.head hne').2.1)) (by
        rw [rawSpans_head, List.head?_eq_some_head hne']; rfl)
      have b4 : (t.2.getLast hne').2.1 = hi2 := tt.last (p := ((t.2.getLast hne').1, (t.2.getLast hne').2.1)) (by
        rw [rawSpans_last, List.getLast?_eq_some_getLast hne']; rfl)
      have b5 := hp2 _ (List.head_mem hne')
      have b6 := hq2 _ (List.getLast_mem hne')
      have e1 : lo' = lo := by simp only at b1; grind
      have e2 : hi2 = hi := by simp only at b2; grind
      rw [← e1, ← e2]
      exact hre

/-- C89: if moreover all tiers start at the same time and end at the same time, the new textgrid has in each group what the
    tiers of the group have in common, with blank intervals in the gaps this leaves, and all intervals are related by
    containment. -/
theorem C89_result_partial (h : Heap) (tiers : List PTier) (arg : ClassArg) (tss tss' : List (List PTier)) (css : List (List CRef))
    (hr : ReachC h.ct) (td : Tidy h) (ac : Allocated h) (hn : nestify h.ct tiers arg = .ok (tss, css)) (hne : tss ≠ [])
    (hlen : tss.map List.length = css.map List.length) (tc : TopClasses h.ct css) (hl : tss'.length = tss.length)
    (rec : ∀ (i : Nat) ts ts', tss[i]? = some ts → tss'[i]? = some ts' → Reconciled ts ts')
    (lo hi : Time) (cov : ∀ ts ∈ tss, Reaches ts lo hi) :
    ∃ h' tss'', newAtg tiers arg h = .ok h.nA h' ∧ Holds h' h.nA tss'' (css.map (List.map h.ct.name)) ∧
      tss''.length = tss'.length ∧ (∀ (i : Nat) ts ts', tss'[i]? = some ts → tss''[i]? = some ts' → Completed ts ts') ∧
      GapGrid h' (h'.agroups h.nA) ∧ (∀ g ∈ h'.agroups h.nA, h'.gwithin g = some h.nA) ∧
      (∀ g ∈ h'.agroups h.nA, ∀ t ∈ h'.gtiers g, h.ct.next ≤ h'.tcls t) ∧
      (∀ c < h.ct.next, h'.ct.name c = h.ct.name c ∧ h'.ct.sup c = h.ct.sup c ∧ h'.ct.sub c = h.ct.sub c) ∧
      (AlikeClasses css → OwnClasses h' (h'.agroups h.nA)) := by
  obtain ⟨e, hn', hlen', good⟩ := C89_import_partial h tiers arg tss tss' css hr td ac hn hne hlen tc hl rec
  rw [e]
  refine C74_gaps_partial h _ _ tss' css hr td ac hn' (by intro q; rw [q] at hl; exact hne (List.length_eq_zero_iff.mp hl.symm))
    hlen' good tc lo hi ?_
  intro ts' ht
  obtain ⟨i, hi0⟩ := List.mem_iff_getElem?.mp ht
  have hi' : i < tss.length := by rw [← hl]; exact (List.getElem?_eq_some_iff.mp hi0).1
  have hti := List.getElem?_eq_getElem hi'
  exact (rec i _ ts' hti hi0).reaches (cov _ (List.mem_of_getElem? hti))

/-- words and phones of which only the first and the last boundary match -/
def exUnaligned (lo : Time) : List PTier :=
  [("w", [(lo, 2, "cat"), (2, 4, "sat"), (4, 6, "")]),
   ("p", [(lo, 1, "k"), (1, 21/10, "t"), (21/10, 3, "s"), (3, 41/10, "t2"), (41/10, 6, "")])]

/-- the same reduced to what they have in common -/
def exClipped : List PTier :=
  [("w", [(1/2, 2, "cat"), (21/10, 4, "sat"), (41/10, 6, "")]),
   ("p", [(1/2, 1, "k"), (1, 2, "t"), (21/10, 3, "s"), (3, 4, "t2"), (41/10, 6, "")])]

theorem exUnaligned_loose : LooselyAligned (exUnaligned (1/2)) (1/2) 6 := by
  refine ⟨rfl, by decide +kernel, ?_, ?_, by decide +kernel⟩
  · intro t ht
    simp only [exUnaligned, List.mem_cons, List.not_mem_nil, or_false] at ht
    rcases ht with rfl | rfl <;> simp only [rawSpans, List.map, TilesS] <;> grind
  · rintro up low e
    simp only [exUnaligned, List.cons.injEq, and_true] at e
    obtain ⟨rfl, rfl⟩ := e
    decide +kernel

theorem exUnaligned_clipped : Clipped (exUnaligned (1/2)) exClipped := by
  refine ⟨"w", "p", _, _, [[(1/2, 1, "k"), (1, 21/10, "t")], [(21/10, 3, "s"), (3, 41/10, "t2")], [(41/10, 6, "")]], rfl, ?_, by decide +kernel⟩
  refine ⟨rfl, by decide +kernel, by decide +kernel, ?_⟩
  intro k w part hk hp
  match k with
  | 0 =>
    cases hk
    cases hp
    intro p hp j v hv
    match j with
    | 0 => cases hv; exact ⟨Rat.le_refl, by omega⟩
    | 1 => cases hv; exact ⟨by revert p; decide +kernel, by omega⟩
    | 2 => cases hv; exact ⟨by revert p; decide +kernel, by omega⟩
  | 1 =>
    cases hk
    cases hp
    intro p hp j v hv
    match j with
    | 0 => cases hv; revert p; decide +kernel
    | 1 => cases hv; exact ⟨Rat.le_refl, by omega⟩
    | 2 => cases hv; exact ⟨by revert p; decide +kernel, by omega⟩
  | 2 =>
    cases hk
    cases hp
    intro p hp j v hv
    match j with
    | 0 => cases hv; revert p; decide +kernel
    | 1 => cases hv; revert p; decide +kernel
    | 2 => cases hv; exact ⟨Rat.le_refl, by omega⟩

example : ∃ h' tss'', newAtg (exUnaligned (1/2)) (.flat [cWord, cPhone]) heap0 = .ok 0 h' ∧
    Holds h' 0 tss'' [["Word", "Phone"]] ∧ tss''.length = 1 ∧
    (∀ ts', tss''[0]? = some ts' → Completed exClipped ts') ∧ GapGrid h' (h'.agroups 0) := by
  have hl : IsHierarchy heap0.ct [cWord, cPhone] := isHierarchy_of_check (by decide) (by decide) (by decide +kernel)
    (by decide +kernel) (by decide +kernel) (by decide +kernel)
  have gc : GoodClasses heap0.ct [[cWord, cPhone]] := 
    ⟨fun cs hc => by rw [List.mem_singleton.mp hc]; exact hl, by decide +kernel, by decide +kernel⟩
  obtain ⟨h', tss'', e, hd, l, c, g, -⟩ := C89_result_partial heap0 (exUnaligned (1/2)) (.flat [cWord, cPhone])
    [exUnaligned (1/2)] [exClipped] [[cWord, cPhone]] .base heap0_tidy heap0_alloc rfl (by simp) rfl
    gc.topClasses rfl (by
      intro i ts ts' h1 h2
      match i with
      | 0 => cases h1; cases h2; exact Or.inr ⟨⟨_, _, exUnaligned_loose⟩, exUnaligned_clipped⟩) (1/2) 6 (by
      unfold Reaches
      decide +kernel)
  exact ⟨h', tss'', e, hd, l, fun ts' h => c 0 _ ts' rfl h, g⟩

/-- C89 (a finding): the same tiers starting at `0` are imported too, but the blank intervals are at the end of
    both tiers, out of order: `SequenceList.append` looks for the place of a new entry only if `all(self.starts)`, which is false
    if one of the start times is `0` (sequence_list.py 204-209). -/
theorem C89_zero_violated :
    (match newAtg (exUnaligned 0) (.flat [cWord, cPhone]) heap0 with
      | .ok a h' => (h'.agroups a).map fun g => (h'.gtiers g).map h'.ptier
      | .err _ _ => []) =
    [[("w", [(0, 2, "cat"), (21/10, 4, "sat"), (41/10, 6, ""), (2, 21/10, ""), (4, 41/10, "")]),
      ("p", [(0, 1, "k"), (1, 2, "t"), (21/10, 3, "s"), (3, 4, "t2"), (41/10, 6, ""), (2, 21/10, ""), (4, 41/10, "")])]] := by
  decide +kernel

end ATG
