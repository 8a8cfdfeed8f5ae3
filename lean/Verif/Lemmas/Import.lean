import Verif.Lemmas.BuildGroup
import Verif.Lemmas.RecloneTop
import Verif.Props.TgGroups
/-!
# Making a textgrid: setting its groups
-/
namespace ATG

/-- what setting the groups of a textgrid changes -/
structure Regrouped (h h' : Heap) (a : ARef) (gs : List GRef) : Prop where
  frame : h' = { h with agroups := h'.agroups, acont := h'.acont, gwithin := h'.gwithin }
  agroups : h'.agroups a = gs
  acont : h'.acont a = gs
  gwithin : ∀ g ∈ gs, h'.gwithin g = some a

theorem setWithins_run (a : ARef) : ∀ (gs : List GRef) (h : Heap), ∃ h',
    M.forL gs (fun g => M.modify fun h => { h with gwithin := upd h.gwithin g (some a) }) h = .ok () h' ∧
      h' = { h with gwithin := h'.gwithin } ∧ (∀ g ∈ gs, h'.gwithin g = some a) ∧ ∀ g, g ∉ gs → h'.gwithin g = h.gwithin g
  | [], h => ⟨h, rfl, rfl, by simp, fun _ _ => rfl⟩
  | g :: gs, h => by
    obtain ⟨h', e, f, q1, q2⟩ := setWithins_run a gs { h with gwithin := upd h.gwithin g (some a) }
    refine ⟨h', ?_, ?_, ?_, ?_⟩
    · rw [M.forL_cons, M.modify_apply]
      exact e
    · rw [f]
    · intro k hk
      by_cases hm : k ∈ gs
      · exact q1 k hm
      · rcases List.mem_cons.mp hk with rfl | hk
        · rw [q2 k hm]; exact upd_same _ _ _
        · exact absurd hk hm
    · intro k hk
      rw [q2 k fun q => hk (by simp [q])]
      exact upd_ne _ _ _ _ fun e => hk (by simp [e])

theorem setContainsA_only (a : ARef) (h : Heap) : ∃ h', setContainsA a h = .ok () h' ∧
    h' = { h with acont := h'.acont, gwithin := h'.gwithin } := by
  obtain ⟨h', e, f, -⟩ := setWithins_run a (h.agroups a) { h with acont := upd h.acont a (h.agroups a) }
  refine ⟨h', ?_, by rw [f]⟩
  unfold setContainsA
  mstep M.get_apply h
  mstep M.modify_apply _ h
  exact e

theorem setContainsA_run (a : ARef) (h : Heap) : ∃ h', setContainsA a h = .ok () h' ∧ Regrouped h h' a (h.agroups a) := by
  obtain ⟨h', e, f, q, -⟩ := setWithins_run a (h.agroups a) { h with acont := upd h.acont a (h.agroups a) }
  refine ⟨h', ?_, ?_, ?_, ?_, q⟩
  · unfold setContainsA
    mstep M.get_apply h
    mstep M.modify_apply _ h
    exact e
  · rw [f]
  · rw [f]
  · rw [f]; exact upd_same _ _ _

theorem setGroups_run (a : ARef) (gs : List GRef) (hne : gs ≠ []) (h : Heap) :
    ∃ h', setGroups a gs h = .ok () h' ∧ Regrouped h h' a gs := by
  obtain ⟨h', e, r⟩ := setContainsA_run a { h with agroups := upd h.agroups a gs }
  have ha : upd h.agroups a gs a = gs := upd_same _ _ _
  refine ⟨h', ?_, ?_, ?_, ?_, ?_⟩
  · cases gs with
    | nil => exact absurd rfl hne
    | cons g gs =>
      unfold setGroups
      mstep M.modify_apply _ h
      exact e
  · rw [r.frame]
  · exact r.agroups.trans ha
  · exact r.acont.trans ha
  · intro g hg
    exact r.gwithin g (by show g ∈ upd h.agroups a gs a; rw [ha]; exact hg)

theorem Unmoved.regrouped {h h' : Heap} {a : ARef} {gs : List GRef} (r : Regrouped h h' a gs) (ts : List TRef) : Unmoved h h' ts := by
  rw [r.frame]
  exact ⟨fun _ _ => rfl, fun _ _ => rfl, fun _ _ => rfl, fun _ _ _ _ => ⟨rfl, rfl, rfl, rfl⟩,
    fun _ _ _ _ => ⟨rfl, rfl, rfl, rfl, rfl, rfl⟩⟩

theorem GapGrid.regrouped {h h' : Heap} {a : ARef} {gs ks : List GRef} (gr : GapGrid h ks) (r : Regrouped h h' a gs) :
    GapGrid h' ks := by
  have hgt : h'.gtiers = h.gtiers := by rw [r.frame]
  have hseq : h'.tseq = h.tseq := by rw [r.frame]
  refine ⟨gr.nodup, by rw [hgt]; exact gr.tiers, ?_, ?_, ?_, ?_, ?_, ?_⟩
  · unfold Separate
    rw [hgt, hseq]; exact gr.separate
  · intro g hg
    rw [hgt]
    exact (gr.groups g hg).kept (.regrouped r _) (by rw [r.frame]) (by rw [r.frame]; exact Nat.le_refl _)
      (fun t _ => by rw [r.frame]; exact ⟨rfl, rfl, rfl⟩) (by rw [r.frame]) (by rw [r.frame]) (by rw [r.frame])
  · rw [hgt, show h'.ct = h.ct by rw [r.frame], show h'.tcls = h.tcls by rw [r.frame]]; exact gr.interval
  · unfold SupClosed OnTiers
    rw [hgt, hseq, show h'.sup = h.sup by rw [r.frame]]; exact gr.closed
  · exact gr.tidy.congr (by rw [r.frame]) (by rw [r.frame]) (by rw [r.frame]) (by rw [r.frame]) (by rw [r.frame])
      (by rw [r.frame]) (by rw [r.frame])
  · unfold Allocated
    rw [show h'.subs = h.subs by rw [r.frame], show h'.nE = h.nE by rw [r.frame]]; exact gr.alloc

theorem Tidy.newClasses {h : Heap} (td : Tidy h) (k : Heap) (e : k = { h with
    ct := k.ct, nA := k.nA, agroups := k.agroups, acont := k.acont, acloned := k.acloned }) : Tidy k := by
  have h1 : k.subs = h.subs := by rw [e]
  have h2 : k.sup = h.sup := by rw [e]
  have h3 : k.cls = h.cls := by rw [e]
  have h4 : k.label = h.label := by rw [e]
  refine ⟨by rw [h1, h2]; exact td.agree, by rw [h1]; exact td.nodup, ?_, by rw [h1, h3]; exact td.cls, by rw [h1, h4]; exact td.label⟩
  rw [h1]
  intro v x hx y hy sv
  refine td.distinct v x hx y hy ⟨?_, ?_⟩
  · unfold Heap.isPoint
    rw [td.cls v x hx y hy]
  · have := sv.2
    rw [e] at this
    exact this

/-- The groups of `gs` exist, with their tiers; the tiers have classes of complete hierarchies, whose links are set on
    the classes themselves. -/
structure OwnClasses (h : Heap) (gs : List GRef) : Prop where
  wfc : WFC h.ct
  old : ∀ g ∈ gs, g < h.nG ∧ ∀ t ∈ h.gtiers g, t < h.nT
  good : ∃ full, GoodClasses h.ct full ∧ TopParts (gs.map fun g => (h.gtiers g).map h.tcls) full ∧ ∀ L ∈ full, OwnRow h.ct L
  same : AlikeClasses (gs.map fun g => (h.gtiers g).map h.tcls)

/-- The groups of `gs` exist, with their tiers; the tiers have classes of hierarchies, complete or without their lowest classes. -/
structure TopOwn (h : Heap) (gs : List GRef) : Prop where
  wfc : WFC h.ct
  old : ∀ g ∈ gs, g < h.nG ∧ ∀ t ∈ h.gtiers g, t < h.nT
  part : ∀ g ∈ gs, TopPart h.ct ((h.gtiers g).map h.tcls)

theorem GoodClasses.topClasses {ct : ClassTab} {css : List (List CRef)} (gc : GoodClasses ct css) : TopClasses ct css :=
  ⟨css, gc, .refl gc.hier⟩

theorem GoodClasses.even {ct : ClassTab} {css : List (List CRef)} (gc : GoodClasses ct css) : EvenClasses ct css :=
  ⟨gc.topClasses, fun cs hcs cs' hcs' _ h1 h2 => (gc.hier cs hcs).unique (gc.hier cs' hcs') h1 h2⟩

theorem relateTiers_run {h : Heap} {a : ARef} {tss : List (List PTier)} {css : List (List CRef)} (w : WFC h.ct) (td : Tidy h)
    (ac : Allocated h) (hcl : h.acloned a = []) (good : ∀ ts ∈ tss, GoodTiers ts) (tc : TopClasses h.ct css)
    (hlen : tss.map List.length = css.map List.length) :
    ∃ h', relateTiers a tss css h = .ok (List.range' h.nG tss.length) h' ∧ GapGrid h' (List.range' h.nG tss.length) ∧
      (List.range' h.nG tss.length).map (fun g => (h'.gtiers g).map h'.ptier) = tss ∧
      (List.range' h.nG tss.length).map (fun g => (h'.gtiers g).map fun t => h'.ct.name (h'.tcls t)) = css.map (List.map h.ct.name) ∧
      Ext h.ct h'.ct ∧ (∀ g ∈ List.range' h.nG tss.length, ∀ t ∈ h'.gtiers g, h.ct.next ≤ h'.tcls t ∧ h'.tcls t ∈ h'.acloned a) ∧
      (∀ g ∈ List.range' h.nG tss.length, Homely h' (h'.gtiers g) ∧ Rooted h' (h'.gtiers g)) ∧
      TopOwn h' (List.range' h.nG tss.length) ∧ (AlikeClasses css → OwnClasses h' (List.range' h.nG tss.length)) := by
  obtain ⟨full, gc, tp⟩ := tc
  have hll : tss.length = css.length := by simpa using congrArg List.length hlen
  obtain ⟨ct', new, full', e1, w', x', ef, hhf, -, hinf⟩ := reclone_run w full gc.hier (fun c hc => by
      obtain ⟨cs, h1, h2⟩ := List.mem_flatten.mp hc
      exact (gc.hier cs h1).not_point w h2) gc.plain gc.names
  rw [← reclone_tops w tp fun i cs L _ h2 => Or.inl (gc.hier L (List.mem_of_getElem? h2))] at e1
  obtain ⟨css', e2, tp'⟩ := swapAll_prefix tp ef
  have hname : ∀ (ks ks' : List (List CRef)), ks.mapM (fun l => swapClasses ct' l new) = .ok ks' →
      (∀ cs ∈ ks, ∀ c ∈ cs, c < h.ct.next) → ks'.map (List.map ct'.name) = ks.map (List.map h.ct.name) := by
    intro ks ks' e hlt
    have q := (mapM_ok_iff _ _ _).mp e
    apply List.ext_getElem?
    intro i
    have qi := congrArg (·[i]?) q
    simp only [List.getElem?_map] at qi ⊢
    cases h1 : ks[i]? with
    | none =>
      rw [h1] at qi
      rw [Option.map_eq_none_iff.mp qi.symm]; rfl
    | some cs =>
      rw [h1] at qi
      obtain ⟨cs', h2, h3⟩ := Option.map_eq_some_iff.mp qi.symm
      rw [h2]
      simp only [Option.map_some]
      rw [swapClasses_names h3.symm]
      congr 1
      exact List.map_congr_left fun c hc => x'.name c (hlt cs (List.mem_of_getElem? h1) c hc)
  have hnm : css'.map (List.map ct'.name) = css.map (List.map h.ct.name) := by
    refine hname _ _ e2 fun cs hcs c hc => ?_
    obtain ⟨L, m, -, hp⟩ := tp.mem hcs
    exact ((gc.hier L m).mem c (hp.subset hc)).1
  have hh : ∀ cs ∈ css', TopPart ct' cs ∧ ∀ c ∈ cs, h.ct.next ≤ c := by
    intro cs hc
    obtain ⟨L, m, hne, hp⟩ := tp'.mem hc
    exact ⟨.of_prefix hne hp (hhf L m).1, fun c hc => (hhf L m).2.1 c (hp.subset hc)⟩
  have hin : ∀ cs ∈ css', ∀ c ∈ cs, c ∈ new := by
    intro cs hc c hcc
    obtain ⟨L, m, -, hp⟩ := tp'.mem hc
    exact hinf L m c (hp.subset hcc)
  let k : Heap := { h with ct := ct', acloned := upd h.acloned a (h.acloned a ++ new) }
  have hk : k.acloned a = new := by
    show upd h.acloned a (h.acloned a ++ new) a = new
    rw [upd_same, hcl, List.nil_append]
  have er : recloneA a css.flatten h = .ok () k := by
    unfold recloneA
    mstep M.get_apply h
    rw [hcl]
    mstep (show liftC (fun ct => reclone [] ct css.flatten) h = .ok new { h with ct := ct' } by
      unfold liftC
      dsimp only
      rw [e1])
    rfl
  have hlen' : css'.length = css.length := by simpa using congrArg List.length hnm
  have hzl : (tss.zip css').length = tss.length := by rw [List.length_zip]; omega
  have rm : Room k [] := by
    refine ⟨⟨List.nodup_nil, List.nodup_nil, ?_, ?_, ?_, ?_, td.newClasses k rfl, ac⟩, ?_, ?_, ?_, ?_⟩ <;>
      · intro g hg; cases hg
  obtain ⟨h2, e3, rm2, hct, -, -, -, b4, hv, -⟩ := buildGroups_run (tss.zip css') rm w' (by
    intro q hq
    obtain ⟨i, hi⟩ := List.mem_iff_getElem?.mp hq
    obtain ⟨i1, i2⟩ := List.getElem?_zip_eq_some.mp hi
    refine ⟨?_, good _ (List.mem_of_getElem? i1), (hh _ (List.mem_of_getElem? i2)).1⟩
    have q1 := congrArg (·[i]?) hlen
    have q2 := congrArg (fun l => (l.map List.length)[i]?) hnm
    simp only [List.getElem?_map, i1, Option.map_some] at q1
    simp only [List.map_map, List.getElem?_map, i2, Option.map_some] at q2
    cases hc : css[i]? with
    | none => rw [hc] at q1; cases q1
    | some cs =>
      rw [hc] at q1 q2
      have q1 := Option.some.inj q1
      have q2 := Option.some.inj q2
      simp only [Function.comp, List.length_map] at q2
      exact q1.trans q2.symm)
  have hkG : k.nG = h.nG := rfl
  rw [hzl, hkG] at e3 hv
  rw [hzl, hkG, List.nil_append] at rm2
  have hv1 : (List.range' h.nG tss.length).map (fun g => (h2.gtiers g).map h2.ptier) = tss := by
    have := congrArg (List.map Prod.fst) hv
    rw [List.map_map, List.map_fst_zip (by omega)] at this
    exact this
  have hv2 : (List.range' h.nG tss.length).map (fun g => (h2.gtiers g).map h2.tcls) = css' := by
    have := congrArg (List.map Prod.snd) hv
    rw [List.map_map, List.map_snd_zip (by omega)] at this
    exact this
  have hm' : ∀ g ∈ List.range' h.nG tss.length, (h2.gtiers g).map h2.tcls ∈ css' := by
    intro g hg
    rw [← hv2]
    exact List.mem_map_of_mem (f := fun g => (h2.gtiers g).map h2.tcls) hg
  refine ⟨h2, ?_, rm2.grid, hv1, ?_, by rw [hct]; exact x', ?_, fun g hg => ⟨rm2.homely g hg, rm2.rooted g hg⟩,
    ⟨by rw [hct]; exact w', fun g hg => ⟨rm2.groups g hg, rm2.tiers g hg⟩, fun g hg => by rw [hct]; exact (hh _ (hm' g hg)).1⟩, ?_⟩
  · unfold relateTiers
    mstep er
    mstep M.get_apply k
    mstep (show liftE (css.mapM fun l => swapClasses k.ct l (k.acloned a)) k = .ok css' k by
      rw [hk, show k.ct = ct' from rfl, e2]; rfl)
    exact e3
  · rw [← hnm, hct, ← hv2, List.map_map]
    apply List.map_congr_left
    intro g _
    rw [Function.comp, List.map_map]
    rfl
  · intro g hg t ht
    have hm := hm' g hg
    have hc := List.mem_map_of_mem (f := h2.tcls) ht
    refine ⟨(hh _ hm).2 _ hc, ?_⟩
    rw [b4, hk]
    exact hin _ hm _ hc
  · intro same
    have hfn : full'.map (List.map ct'.name) = full.map (List.map h.ct.name) :=
      hname _ _ ef fun cs hcs c hc => ((gc.hier cs hcs).mem c hc).1
    have hfirst : ∀ c ∈ full'.flatten, new.find? (fun d => ct'.name d == ct'.name c) = some c := by
      intro c hc
      obtain ⟨cs', m, hc⟩ := List.mem_flatten.mp hc
      obtain ⟨i, hi⟩ := List.mem_iff_getElem?.mp m
      have q := congrArg (·[i]?) ((mapM_ok_iff _ _ _).mp ef)
      simp only [List.getElem?_map, hi, Option.map_some] at q
      obtain ⟨cs, -, ho⟩ := Option.map_eq_some_iff.mp q
      exact swapClasses_first ho c hc
    have gc' : GoodClasses ct' full' := by
      refine ⟨fun cs hcs => (hhf cs hcs).1, ?_, ?_⟩
      · intro c hc
        obtain ⟨cs', m, hc⟩ := List.mem_flatten.mp hc
        have : ct'.name c ∈ (full'.map (List.map ct'.name)).flatten :=
          List.mem_flatten.mpr ⟨_, List.mem_map.mpr ⟨cs', m, rfl⟩, List.mem_map.mpr ⟨c, hc, rfl⟩⟩
        rw [hfn] at this
        obtain ⟨l, hl, hcl⟩ := List.mem_flatten.mp this
        obtain ⟨cs, hcs, rfl⟩ := List.mem_map.mp hl
        obtain ⟨b, hb, e⟩ := List.mem_map.mp hcl
        rw [← e]
        exact gc.plain b (List.mem_flatten.mpr ⟨cs, hcs, hb⟩)
      · intro c hc d hd e
        have q1 := hfirst c hc
        rw [e, hfirst d hd] at q1
        exact (Option.some.inj q1).symm
    have hback : ∀ cs' ∈ css', ∃ cs ∈ css, cs'.map ct'.name = cs.map h.ct.name := by
      intro cs' hcs'
      have : cs'.map ct'.name ∈ css'.map (List.map ct'.name) := List.mem_map_of_mem hcs'
      rw [hnm] at this
      obtain ⟨cs, h1, h2⟩ := List.mem_map.mp this
      exact ⟨cs, h1, h2.symm⟩
    have hin' : ∀ cs' ∈ css', ∀ c ∈ cs', c ∈ full'.flatten := by
      intro cs' hcs' c hc
      obtain ⟨L, m, -, hp⟩ := tp'.mem hcs'
      exact List.mem_flatten.mpr ⟨L, m, hp.subset hc⟩
    refine ⟨by rw [hct]; exact w', fun g hg => ⟨rm2.groups g hg, rm2.tiers g hg⟩,
      ⟨full', by rw [hct]; exact gc', by rw [hv2]; exact tp', fun L hL => by rw [hct]; exact (hhf L hL).2.2⟩, ?_⟩
    rw [hv2]
    intro cs' hcs' ds' hds' c hc hd
    obtain ⟨cs, hcs, e1⟩ := hback cs' hcs'
    obtain ⟨ds, hds, e2⟩ := hback ds' hds'
    have m1 : ct'.name c ∈ cs.map h.ct.name := e1 ▸ List.mem_map_of_mem hc
    have m2 : ct'.name c ∈ ds.map h.ct.name := e2 ▸ List.mem_map_of_mem hd
    obtain ⟨b, hb, eb⟩ := List.mem_map.mp m1
    obtain ⟨b', hb', eb'⟩ := List.mem_map.mp m2
    have hf : ∀ cs ∈ css, ∀ c ∈ cs, c ∈ full.flatten := by
      intro cs hcs c hc
      obtain ⟨L, m, -, hp⟩ := tp.mem hcs
      exact List.mem_flatten.mpr ⟨L, m, hp.subset hc⟩
    have := gc.names b (hf _ hcs b hb) b' (hf _ hds b' hb') (eb.trans eb'.symm)
    subst this
    have := same cs hcs ds hds b hb hb'
    subst this
    have e3 := e1.trans e2.symm
    apply List.ext_getElem?
    intro i
    have q := congrArg (·[i]?) e3
    simp only [List.getElem?_map] at q
    cases h1 : cs'[i]? with
    | none => rw [h1] at q; exact (Option.map_eq_none_iff.mp q.symm).symm
    | some x =>
      rw [h1] at q
      obtain ⟨y, h2, h3⟩ := Option.map_eq_some_iff.mp q.symm
      rw [h2, gc'.names x (hin' _ hcs' x (List.mem_of_getElem? h1)) y (hin' _ hds' y (List.mem_of_getElem? h2)) h3.symm]

end ATG
