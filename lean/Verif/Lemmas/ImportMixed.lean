import Verif.Lemmas.BuildMixed
import Verif.Lemmas.ReclonePoints
/-!
# Making and cleaning up a textgrid with groups of points
-/
namespace ATG

theorem relateMixed_run {h : Heap} {a : ARef} {tss : List (List PTier)} {css : List (List CRef)} (w : WFC h.ct) (td : Tidy h)
    (ac : Allocated h) (hcl : h.acloned a = []) (mc : ImportClasses h.ct css) (hlen : tss.map List.length = css.map List.length)
    (good : ∀ (i : Nat) ts cs, tss[i]? = some ts → css[i]? = some cs →
      (TopPart h.ct cs → GoodTiers ts) ∧ (PointClasses h.ct cs → GoodPoints ts)) :
    ∃ h', relateTiers a tss css h = .ok (List.range' h.nG tss.length) h' ∧
      GapGrid h' ((List.range' h.nG tss.length).filter fun g => !h'.gpoint g) ∧
      (List.range' h.nG tss.length).map (fun g => (h'.gtiers g).map h'.ptier) = tss ∧
      (List.range' h.nG tss.length).map (fun g => (h'.gtiers g).map fun t => h'.ct.name (h'.tcls t)) = css.map (List.map h.ct.name) ∧
      Ext h.ct h'.ct ∧
      (∀ g ∈ List.range' h.nG tss.length, ∀ t ∈ h'.gtiers g, h.ct.next ≤ h'.tcls t ∧ h'.tcls t ∈ h'.acloned a) ∧
      (∀ (i : Nat) cs, css[i]? = some cs → (h'.gpoint (h.nG + i) = true ↔ PointClasses h.ct cs)) ∧
      (∀ g ∈ List.range' h.nG tss.length, Settled h' g ∧ (h'.gpoint g = true → PointsIn h' g)) ∧
      ∀ (i : Nat) cs, css[i]? = some cs → PointClasses h.ct cs → ∀ (j : Nat) t c, (h'.gtiers (h.nG + i))[j]? = some t →
        cs[j]? = some c → h'.ct.isSub (h'.tcls t) c = true := by
  have hll : tss.length = css.length := by simpa using congrArg List.length hlen
  obtain ⟨ct', new, css', e1, w', x', e2, hlen', hh⟩ := recloneImport_run w mc
  let k : Heap := { h with ct := ct', acloned := upd h.acloned a (h.acloned a ++ new) }
  have hk : k.acloned a = new := by
    show upd h.acloned a (h.acloned a ++ new) a = new
    rw [upd_same, hcl, List.nil_append]
  have er : recloneA a css.flatten h = .ok () k := by
    unfold recloneA
    mstep M.get_apply h
    rw [hcl]
    mstep (show liftC (fun ct => reclone [] ct css.flatten) h = .ok new { h with ct := ct' } by
      unfold liftC
      dsimp only
      rw [e1])
    rfl
  have hzl : (tss.zip css').length = tss.length := by rw [List.length_zip]; omega
  have rm : Room k [] := by
    refine ⟨⟨List.nodup_nil, List.nodup_nil, ?_, ?_, ?_, ?_, td.newClasses k rfl, ac⟩, ?_, ?_, ?_, ?_⟩ <;>
      · intro g hg; cases hg
  have at_ : ∀ (i : Nat) cs', css'[i]? = some cs' → ∃ cs, css[i]? = some cs ∧ ClonedPart h.ct ct' new cs cs' := by
    intro i cs' hi
    obtain ⟨hlt, -⟩ := List.getElem?_eq_some_iff.mp hi
    exact ⟨css[i], List.getElem?_eq_getElem (by omega), hh i _ _ (List.getElem?_eq_getElem (by omega)) hi⟩
  obtain ⟨h2, e3, rm2, hct, -, -, -, b4, hv, hpts, -⟩ := buildMixed_run (tss.zip css') rm w' (by
    intro q hq
    obtain ⟨i, hi⟩ := List.mem_iff_getElem?.mp hq
    obtain ⟨i1, i2⟩ := List.getElem?_zip_eq_some.mp hi
    obtain ⟨cs, c1, cl⟩ := at_ i _ i2
    have q1 := congrArg (·[i]?) hlen
    simp only [List.getElem?_map, i1, c1, Option.map_some] at q1
    have q1 : q.1.length = cs.length := Option.some.inj q1
    have q2 : q.2.length = cs.length := by simpa using congrArg List.length cl.names
    obtain ⟨g1, g2⟩ := good i _ _ i1 c1
    refine ⟨q1.trans q2.symm, ?_⟩
    rcases mc.kind cs (List.mem_of_getElem? c1) with ⟨hi, -⟩ | hp
    · exact Or.inl ⟨g1 hi, cl.hier hi⟩
    · exact Or.inr ⟨g2 hp, cl.points hp⟩)
  have hkG : k.nG = h.nG := rfl
  rw [hzl, hkG] at e3 hv hpts
  rw [hzl, hkG, List.nil_append] at rm2
  have hv1 : (List.range' h.nG tss.length).map (fun g => (h2.gtiers g).map h2.ptier) = tss := by
    have := congrArg (List.map Prod.fst) hv
    rw [List.map_map, List.map_fst_zip (by omega)] at this
    exact this
  have hv2 : (List.range' h.nG tss.length).map (fun g => (h2.gtiers g).map h2.tcls) = css' := by
    have := congrArg (List.map Prod.snd) hv
    rw [List.map_map, List.map_snd_zip (by omega)] at this
    exact this
  refine ⟨h2, ?_, rm2.grid, hv1, ?_, by rw [hct]; exact x', ?_, ?_, fun g hg => ⟨(hpts g hg).1, (hpts g hg).2.2⟩, ?_⟩
  · unfold relateTiers
    mstep er
    mstep M.get_apply k
    mstep (show liftE (css.mapM fun l => swapClasses k.ct l (k.acloned a)) k = .ok css' k by
      rw [hk, show k.ct = ct' from rfl, e2]; rfl)
    exact e3
  · have hnm : css'.map (List.map ct'.name) = css.map (List.map h.ct.name) := by
      apply List.ext_getElem?
      intro i
      rw [List.getElem?_map, List.getElem?_map]
      cases hi : css'[i]? with
      | none =>
        rw [List.getElem?_eq_none_iff] at hi
        rw [List.getElem?_eq_none (by omega)]
        rfl
      | some cs' =>
        obtain ⟨cs, c1, cl⟩ := at_ i _ hi
        rw [c1, Option.map_some, Option.map_some, cl.names]
    rw [← hnm, hct, ← hv2, List.map_map]
    apply List.map_congr_left
    intro g _
    rw [Function.comp, List.map_map]
    rfl
  · intro g hg t ht
    have hm : (h2.gtiers g).map h2.tcls ∈ css' := by
      rw [← hv2]
      exact List.mem_map_of_mem (f := fun g => (h2.gtiers g).map h2.tcls) hg
    have hc := List.mem_map_of_mem (f := h2.tcls) ht
    obtain ⟨i, hi⟩ := List.mem_iff_getElem?.mp hm
    obtain ⟨cs, -, cl⟩ := at_ i _ hi
    rw [b4, hk]
    exact cl.new _ hc
  · intro i cs hi
    obtain ⟨hlt, -⟩ := List.getElem?_eq_some_iff.mp hi
    have hr : (List.range' h.nG tss.length)[i]? = some (h.nG + i) := by
      rw [List.getElem?_range' (by omega), Nat.one_mul]
    have hcs' := congrArg (·[i]?) hv2
    simp only [List.getElem?_map, hr, Option.map_some] at hcs'
    obtain ⟨cs2, c1, cl⟩ := at_ i _ hcs'.symm
    rw [hi] at c1
    have := Option.some.inj c1
    subst this
    rw [(hpts _ (List.mem_of_getElem? hr)).2.1]
    constructor
    · intro hp
      rcases mc.kind cs (List.mem_of_getElem? hi) with ⟨hq, -⟩ | hq
      · obtain ⟨q1, q2⟩ := hp
        obtain ⟨c, hc⟩ := List.exists_mem_of_ne_nil _ q1
        have := (q2 c hc).2
        rw [(cl.hier hq).not_point w' hc] at this
        cases this
      · exact hq
    · exact cl.points
  · intro i cs hi hp j t c ht hc
    obtain ⟨hlt, -⟩ := List.getElem?_eq_some_iff.mp hi
    have hr : (List.range' h.nG tss.length)[i]? = some (h.nG + i) := by
      rw [List.getElem?_range' (by omega), Nat.one_mul]
    have hcs' := congrArg (·[i]?) hv2
    simp only [List.getElem?_map, hr, Option.map_some] at hcs'
    obtain ⟨cs2, c1, cl⟩ := at_ i _ hcs'.symm
    rw [hi] at c1
    have := Option.some.inj c1
    subst this
    rw [hct]
    exact cl.sub hp j _ c (by rw [List.getElem?_map, ht]; rfl) hc

/-- the loop over the groups skips the points groups -/
theorem forL_points : ∀ (l : List GRef) {h : Heap} {gs : List GRef}, GapGrid h gs →
    (∀ g ∈ l, h.gpoint g = false → g ∈ gs) →
    M.forL l (fun g => do
        let h ← M.get
        if h.gpoint g then pure () else groupCleanup g) h =
      M.forL (l.filter fun g => !h.gpoint g) (fun g => do
        let h ← M.get
        if h.gpoint g then pure () else groupCleanup g) h
  | [], h, gs, _, _ => rfl
  | g :: l, h, gs, a, hl => by
    cases hg : h.gpoint g with
    | true =>
      rw [List.filter_cons, hg]
      simp only [Bool.not_true, Bool.false_eq_true, if_false]
      rw [← forL_points l a fun k hk => hl k (by simp [hk]), M.forL_cons]
      have : (do
        let h ← M.get
        if h.gpoint g then pure () else groupCleanup g : M Unit) h = .ok () h := by
        mstep M.get_apply h
        rw [if_pos hg]
        rfl
      rw [this]
    | false =>
      rw [List.filter_cons, hg]
      simp only [Bool.not_false, if_true]
      obtain ⟨h1, e1, a1, f1, -⟩ := a.step (hl g (by simp) hg)
      have hgp : h1.gpoint = h.gpoint := by rw [f1.frame]
      have this : (do
        let h ← M.get
        if h.gpoint g then pure () else groupCleanup g : M Unit) h = .ok () h1 := by
        mstep M.get_apply h
        rw [if_neg (by rw [hg]; simp)]
        exact e1
      rw [M.forL_cons, M.forL_cons, this]
      have := forL_points l a1 (by rw [hgp]; exact fun k hk => hl k (by simp [hk]))
      rw [hgp] at this
      exact this

theorem minL_map {f : GRef → Time} {l : List GRef} {m : Time} (h : Least f l m) : minL (l.map f) = some m := by
  rw [minL_iff]
  refine ⟨?_, ?_⟩
  · obtain ⟨g, hg, e⟩ := h.1; exact List.mem_map.mpr ⟨g, hg, e⟩
  · intro y hy; obtain ⟨g, hg, rfl⟩ := List.mem_map.mp hy; exact h.2 g hg

theorem maxL_map {f : GRef → Time} {l : List GRef} {m : Time} (h : Greatest f l m) : maxL (l.map f) = some m := by
  rw [maxL_iff]
  refine ⟨?_, ?_⟩
  · obtain ⟨g, hg, e⟩ := h.1; exact List.mem_map.mpr ⟨g, hg, e⟩
  · intro y hy; obtain ⟨g, hg, rfl⟩ := List.mem_map.mp hy; exact h.2 g hg

/-- the cleanup of a textgrid with points groups whose interval groups agree in their extents -/
theorem atgCleanup_points (h : Heap) (a : ARef) (lo hi : GRef → Time) (smin smax emin emax : Time)
    (gr : GapGrid h ((h.agroups a).filter fun g => !h.gpoint g))
    (fl : ∀ g ∈ (h.agroups a).filter (fun g => !h.gpoint g), Flush h g (lo g) (hi g))
    (x1 : Least lo ((h.agroups a).filter fun g => !h.gpoint g) smin)
    (x2 : Greatest lo ((h.agroups a).filter fun g => !h.gpoint g) smax)
    (x3 : Least hi ((h.agroups a).filter fun g => !h.gpoint g) emin)
    (x4 : Greatest hi ((h.agroups a).filter fun g => !h.gpoint g) emax)
    (hs : CloseTo smin smax) (he : CloseTo emin emax) :
    ∃ h1, atgCleanup a h = .ok () h1 ∧ GapGrid h1 ((h.agroups a).filter fun g => !h.gpoint g) ∧ GridFrame h h1 ∧
      (∀ g ∈ (h.agroups a).filter (fun g => !h.gpoint g), GroupFilled h h1 g) ∧
      ∀ us, Beside h ((h.agroups a).filter fun g => !h.gpoint g) us → Unmoved h h1 us := by
  obtain ⟨h1, e1, gr1, f1, q1, -, b1⟩ := gr.sweep _ gr.nodup fun g hg => hg
  rw [← forL_points (h.agroups a) gr fun g hg hq => List.mem_filter.mpr ⟨hg, by rw [hq]; rfl⟩] at e1
  have hag : h1.agroups = h.agroups := by rw [f1.frame]
  have hgp : h1.gpoint = h.gpoint := by rw [f1.frame]
  have fl1 := fun g hg => gr.flush_kept gr1 f1 q1 g hg _ _ (fl g hg)
  have hs' := mapM_ok_map (groupXmin h1) lo _ (fun g hg => (fl1 g hg).xmin)
  have he' := mapM_ok_map (groupXmax h1) hi _ (fun g hg => (fl1 g hg).xmax)
  refine ⟨h1, ?_, gr1, f1, q1, b1⟩
  unfold atgCleanup
  mstep M.get_apply h
  mstep e1
  mstep M.get_apply h1
  simp only [hag, hgp, hs', he']
  mstep (show liftE (Except.ok _) h1 = .ok _ h1 from rfl)
  mstep (show liftE (Except.ok _) h1 = .ok _ h1 from rfl)
  simp only [minL_map x1, maxL_map x2, minL_map x3, maxL_map x4]
  rw [if_pos (by rw [(allclose_iff _ _).mpr hs, (allclose_iff _ _).mpr he]; rfl)]
  rfl

end ATG
