import Verif.Lemmas.Recast
import Verif.Lemmas.RecloneMore
import Verif.Spec.Append
/-!
# Appending a group to a textgrid
-/
namespace ATG

theorem Seated.at {h : Heap} {ts : List TRef} {i : Nat} {t : TRef} (hi : ts[i]? = some t) :
    (ts.map h.tcls)[i]? = some (h.tcls t) := by
  rw [List.getElem?_map, hi]; rfl

theorem Seated.chain {h : Heap} {ts : List TRef} (p : Seated h ts) : ClassChain h ts ∧
    (∀ t, ts[0]? = some t → ∃ c, h.ct.sup (h.tcls t) = some c ∧ h.ct.isSub c cTop = true) ∧
    (∀ t, ts.getLast? = some t → ∃ c, h.tsub t = some c ∧ h.ct.isSub c cBottom = true) := by
  have hm : ∀ (i : Nat) t, ts[i]? = some t → t ∈ ts := fun i t hi => List.mem_of_getElem? hi
  have ht : ∀ t, ts[0]? = some t → ∃ c, h.ct.sup (h.tcls t) = some c ∧ h.ct.isSub c cTop = true := by
    intro t hi
    exact p.hier.top _ (by rw [List.head?_eq_getElem?]; exact Seated.at hi)
  have hb : ∀ t, ts.getLast? = some t → ∃ c, h.tsub t = some c ∧ h.ct.isSub c cBottom = true := by
    intro t hi
    rw [p.tsub t (List.mem_of_getLast? hi)]
    exact p.hier.bottom _ (by rw [List.getLast?_map, hi]; rfl)
  refine ⟨⟨p.hier.nodup, ?_, ?_, ?_, ?_⟩, ht, hb⟩
  · intro i t t' q1 q2
    rw [p.tsub t (hm i t q1), p.tsup t' (hm _ t' q2)]
    exact p.hier.links i _ _ (Seated.at q1) (Seated.at q2)
  · intro i t t' q1 q2
    exact ⟨(p.hier.mem _ (List.mem_map_of_mem (hm i t q1))).2.2.1, (p.hier.mem _ (List.mem_map_of_mem (hm _ t' q2))).2.2.2⟩
  · intro t hi
    obtain ⟨c, k1, k2⟩ := ht t hi
    exact ⟨c, by rw [p.tsup t (hm 0 t hi)]; exact k1, Or.inl k2⟩
  · intro t hi
    obtain ⟨c, k1, k2⟩ := hb t (by rw [List.getLast?_eq_getElem?]; exact hi)
    exact ⟨c, k1, Or.inl k2⟩

theorem Seated.ext {h h' : Heap} {ts : List TRef} (p : Seated h ts) (w : WFC h.ct) (x : Ext h.ct h'.ct)
    (e : ∀ t ∈ ts, h'.tcls t = h.tcls t ∧ h'.tsup t = h.tsup t ∧ h'.tsub t = h.tsub t) : Seated h' ts := by
  have hm : ts.map h'.tcls = ts.map h.tcls := List.map_congr_left fun t ht => (e t ht).1
  have hlt : ∀ t ∈ ts, h.tcls t < h.ct.next := fun t ht => (p.hier.mem _ (List.mem_map_of_mem ht)).1
  refine ⟨by rw [hm]; exact p.hier.ext w x, ?_, ?_⟩
  · intro t ht
    rw [(e t ht).2.1, (e t ht).1, sup_ext w x _ (hlt t ht)]
    exact p.tsup t ht
  · intro t ht
    rw [(e t ht).2.2, (e t ht).1, sub_ext w x _ (hlt t ht)]
    exact p.tsub t ht

theorem setGroups_groups {a : ARef} {gs : List GRef} {h h' : Heap} (hne : gs ≠ []) (e : setGroups a gs h = .ok () h') :
    h'.agroups = upd h.agroups a gs := by
  obtain ⟨k, e1, f, -, -⟩ := setWithins_run a (upd h.agroups a gs a) { h with
    agroups := upd h.agroups a gs, acont := upd h.acont a (upd h.agroups a gs a) }
  have : setGroups a gs h = .ok () k := by
    cases gs with
    | nil => exact absurd rfl hne
    | cons g gs =>
      unfold setGroups
      mstep M.modify_apply _ h
      unfold setContainsA
      mstep M.get_apply _
      mstep M.modify_apply _ _
      exact e1
  rw [this] at e
  injection e with _ e
  rw [← e, f]

theorem atgAppend_steps (a : ARef) (g : GRef) (h h1 h2 h3 h4 : Heap) (K : List CRef) (hne : (h.gtiers g).map h.tcls ≠ [])
    (e1 : recloneA a ((h.gtiers g).map h.tcls) h = .ok () h1)
    (e2 : swapClasses h1.ct ((h.gtiers g).map h.tcls) (h1.acloned a) = .ok K)
    (e3 : M.forL (K.zip (h1.gtiers g)) (recastStep g) h1 = .ok () h2) (e4 : reRelate g h2 = .ok () h3)
    (e5 : setGroups a (h3.agroups a ++ [g]) h3 = .ok () h4) : atgAppend a g h = .ok () h4 := by
  unfold atgAppend
  mstep M.get_apply h
  dsimp only
  rw [if_neg hne]
  mstep (show (pure () : M Unit) h = .ok () h from rfl)
  mstep e1
  mstep M.get_apply h1
  mstep (show liftE (swapClasses h1.ct ((h.gtiers g).map h.tcls) (h1.acloned a)) h1 = .ok K h1 by rw [e2]; rfl)
  mstep e3
  mstep e4
  mstep M.get_apply h3
  exact e5

theorem atgAppend_run {h : Heap} {a : ARef} {g : GRef} {gs : List GRef} {Ls : List (List CRef)} (w : WFC h.ct)
    (gr : GapGrid h gs) (hg : g ∈ gs) (pl : ∀ k ∈ gs, Seated h (h.gtiers k))
    (hne : ∀ t ∈ h.gtiers g, (h.tseq t).vals ≠ []) (hcl : h.acloned a = Ls.flatten) (gc : GoodClasses h.ct Ls)
    (plain : ∀ n ∈ classNames h g, PlainName n) (nm : (classNames h g).Nodup)
    (compat : ∀ L ∈ Ls, ∀ d ∈ L, h.ct.name d ∈ classNames h g → L.map h.ct.name = classNames h g) :
    ∃ h' K, atgAppend a g h = .ok () h' ∧ Joined h h' a g K ∧ GapGrid h' gs ∧ (∀ k ∈ gs, Seated h' (h'.gtiers k)) ∧
      WFC h'.ct ∧ Ext h.ct h'.ct ∧ GoodClasses h'.ct (Ls ++ [K]) ∧
      (K ∈ Ls ∧ h'.ct = h.ct ∨ (∀ c ∈ K, h.ct.next ≤ c) ∧ ∀ d ∈ Ls.flatten, h.ct.name d ∉ classNames h g) := by
  have P := pl g hg
  have G := gr.groups g hg
  generalize hts : h.gtiers g = ts at *
  have hcn : classNames h g = (ts.map h.tcls).map h.ct.name := by
    unfold classNames
    rw [hts, List.map_map]; rfl
  rw [hcn] at plain nm compat
  obtain ⟨ct', K, e1, w', x', e2, hK, hKn, hKor, gc'⟩ := reclone_more w gc P.hier
    (fun c hc => plain _ (List.mem_map_of_mem hc)) nm
    (fun L hL c hc d hd e => compat L hL d hd (e ▸ List.mem_map_of_mem hc))
  -- the heap with the classes
  let k : Heap := { h with ct := ct', acloned := upd h.acloned a (h.acloned a ++ K) }
  have hka : k.acloned a = Ls.flatten ++ K := by
    show upd h.acloned a (h.acloned a ++ K) a = _
    rw [upd_same, hcl]
  have er : recloneA a (ts.map h.tcls) h = .ok () k := by
    unfold recloneA
    mstep M.get_apply h
    rw [hcl]
    mstep (show liftC (fun ct => reclone Ls.flatten ct (ts.map h.tcls)) h = .ok K { h with ct := ct' } by
      unfold liftC
      dsimp only
      rw [e1])
    rfl
  have hlen : K.length = ts.length := by simpa using congrArg List.length hKn
  have htnd : ts.Nodup := by
    have := gr.tiers
    rw [List.nodup_iff_pairwise_ne, List.pairwise_flatMap] at this
    have := this.1 g hg
    rw [hts] at this
    exact this
  have hsnd : (K.zip ts).map Prod.snd = ts := List.map_snd_zip (by omega)
  have hzt : ∀ p ∈ K.zip ts, p.1 ∈ K ∧ p.2 ∈ ts := fun p hp => List.of_mem_zip hp
  have hct' : ∀ c < h.ct.next, ∀ d, ct'.isSub c d = h.ct.isSub c d := fun c hc d => isSub_ext w x' _ _ hc
  have hxs : ∀ t ∈ ts, ∀ x ∈ (h.tseq t).vals, k.isPoint x = false ∧ k.label x ≠ "#" := by
    intro t ht x hx
    refine ⟨?_, G.aligned.label t ht x hx⟩
    show ct'.isSub (h.cls x) cPoint = false
    rw [G.aligned.cls t ht x hx, hct' _ (P.hier.mem _ (List.mem_map_of_mem ht)).1]
    exact P.hier.not_point w (List.mem_map_of_mem ht)
  have hsort : ∀ t ∈ ts, SortedByStart k (h.tseq t).vals := by
    intro t ht
    have := (G.tiers t ht).laid
    have h1 : ∀ x ∈ (h.tseq t).vals, h.start x < h.stop x := fun x hx => this.1 _ (List.mem_map_of_mem hx)
    have h2 : (h.tseq t).vals.Pairwise fun x y => h.stop x ≤ h.start y := List.pairwise_map.mp this.2
    refine h2.imp_of_mem ?_
    intro x y hx hy hxy
    have := h1 x hx
    show h.start x ≤ h.start y
    grind
  obtain ⟨m, e3, r⟩ := recast_run g (K.zip ts) k G.gpoint
    (fun p hp => ⟨hK.not_point w' (hzt p hp).1, hK.sup_some (hzt p hp).1⟩)
    (fun p hp => hxs p.2 (hzt p hp).2) (by rw [hsnd]; exact htnd)
    (by
      rw [show ((K.zip ts).map fun p => (k.tseq p.2).vals) = ((K.zip ts).map Prod.snd).map fun t => (h.tseq t).vals by
        rw [List.map_map]; rfl, hsnd]
      exact G.aligned.once)
    (fun p hp => hsort p.2 (hzt p hp).2)
  -- the tiers now
  have hidx : ∀ t ∈ ts, ∃ c, (c, t) ∈ K.zip ts := by
    intro t ht
    rw [← hsnd] at ht
    obtain ⟨p, hp, e⟩ := List.mem_map.mp ht
    exact ⟨p.1, by rw [← e]; exact hp⟩
  have hvals : ∀ t, (m.tseq t).vals = (h.tseq t).vals := by
    intro t
    by_cases ht : t ∈ ts
    · obtain ⟨c, hc⟩ := hidx t ht
      rw [(r.tier _ hc).2.2.2.2]
    · rw [(r.otherTier t fun p hp e => ht (e ▸ (hzt p hp).2)).2.2.2.2.1]
  have hmcls : ts.map m.tcls = K := by
    rw [← hsnd, List.map_map]
    rw [show (K.zip ts).map (m.tcls ∘ Prod.snd) = (K.zip ts).map Prod.fst from
      List.map_congr_left fun p hp => (r.tier p hp).2.1]
    exact List.map_fst_zip (by omega)
  have hmtier : ∀ t ∈ ts, m.tname t = ct'.name (m.tcls t) ∧ m.tsup t = ct'.sup (m.tcls t) ∧ m.tsub t = ct'.sub (m.tcls t) ∧
      (m.tseq t).ecls = some (m.tcls t) ∧ ∀ x ∈ (h.tseq t).vals, m.cls x = m.tcls t := by
    intro t ht
    obtain ⟨c, hc⟩ := hidx t ht
    obtain ⟨q1, q2, q3, q4, q5⟩ := r.tier _ hc
    refine ⟨by rw [q2]; exact q1, by rw [q2]; exact q3, by rw [q2]; exact q4, ?_, ?_⟩
    · rw [q2, q5]
      exact if_neg (hne t ht)
    · rw [q2]; exact r.cls _ hc
  have hmct : m.ct = ct' := by rw [r.frame]
  have hmst : m.start = h.start := by rw [r.frame]
  have hmsp : m.stop = h.stop := by rw [r.frame]
  have hmlb : m.label = h.label := by rw [r.frame]
  have hmsub : m.subs = h.subs := by rw [r.frame]
  have hmsup : m.sup = h.sup := by rw [r.frame]
  have hmgt : m.gtiers = h.gtiers := by rw [r.frame]
  have hmgp : m.gpoint = h.gpoint := by rw [r.frame]
  have hmout : ∀ x, ¬ OnTiers h ts x → m.cls x = h.cls x ∧ m.fol x = h.fol x ∧ m.prev x = h.prev x ∧
      m.intier x = h.intier x ∧ m.within x = h.within x := fun x hx =>
    r.other x fun p hp hm => hx ⟨p.2, (hzt p hp).2, hm⟩
  have Pm : Seated m ts := by
    refine ⟨by rw [hmcls, hmct]; exact hK, fun t ht => by rw [hmct]; exact (hmtier t ht).2.1,
      fun t ht => by rw [hmct]; exact (hmtier t ht).2.2.1⟩
  obtain ⟨chm, topm, lowm⟩ := Pm.chain
  have alm : AlignedTiers m ts := by
    refine ⟨?_, ?_, ?_, ?_, ?_⟩
    · rw [List.map_congr_left fun t _ => hvals t]; exact G.aligned.once
    · intro t ht x hx
      rw [hvals] at hx
      exact (hmtier t ht).2.2.2.2 x hx
    · intro t ht x hx
      rw [hvals] at hx
      rw [hmlb]; exact G.aligned.label t ht x hx
    · intro i t t' q1 q2
      rw [← Pm.tsub t (List.mem_of_getElem? q1)]
      exact (chm.down i t t' q1 q2).1
    · intro i t t' q1 q2
      rw [hvals, hvals]
      exact (G.aligned.aligned i t t' q1 q2).congr hmst hmsp
  have hcls_eq : ∀ x y, OnTiers h ts x → OnTiers h ts y → h.cls x = h.cls y → m.cls x = m.cls y := by
    rintro x y ⟨t, ht, hx⟩ ⟨t', ht', hy⟩ e
    rw [G.aligned.cls t ht x hx, G.aligned.cls t' ht' y hy] at e
    obtain ⟨i, hi⟩ := List.mem_iff_getElem?.mp ht
    obtain ⟨j, hj⟩ := List.mem_iff_getElem?.mp ht'
    have : i = j := nodup_index P.hier.nodup (Seated.at hi) (by rw [e]; exact Seated.at hj)
    subst this
    rw [hi] at hj
    have : t = t' := Option.some.inj hj
    subst this
    rw [(hmtier t ht).2.2.2.2 x hx, (hmtier t ht).2.2.2.2 y hy]
  have hon : ∀ v x, x ∈ (h.subs v).vals → (OnTiers h ts v ↔ OnTiers h ts x) := by
    intro v x hx
    have := gr.closed g hg v x ((gr.tidy.agree v x).mp hx)
    rw [hts] at this
    exact this
  have hmc : ∀ v, ∀ x ∈ (h.subs v).vals, ∀ y ∈ (h.subs v).vals, m.cls x = m.cls y := by
    intro v x hx y hy
    have e := gr.tidy.cls v x hx y hy
    by_cases hv : OnTiers h ts v
    · exact hcls_eq x y ((hon v x hx).mp hv) ((hon v y hy).mp hv) e
    · rw [(hmout x fun q => hv ((hon v x hx).mpr q)).1, (hmout y fun q => hv ((hon v y hy).mpr q)).1]
      exact e
  have tdm : Tidy m := by
    refine ⟨by rw [hmsub, hmsup]; exact gr.tidy.agree, by rw [hmsub]; exact gr.tidy.nodup, ?_, by rw [hmsub]; exact hmc,
      by rw [hmsub, hmlb]; exact gr.tidy.label⟩
    rw [hmsub]
    intro v x hx y hy sv
    refine gr.tidy.distinct v x hx y hy ⟨?_, ?_⟩
    · unfold Heap.isPoint
      rw [gr.tidy.cls v x hx y hy]
    · have := sv.2
      rw [hmst, hmsp, hmlb] at this
      exact this
  have hent : ∀ x, x ∈ entriesOf m ts ↔ OnTiers h ts x := by
    intro x
    rw [mem_entriesOf]
    constructor
    · rintro ⟨t, ht, hx⟩; rw [hvals] at hx; exact ⟨t, ht, hx⟩
    · rintro ⟨t, ht, hx⟩; exact ⟨t, ht, by rw [hvals]; exact hx⟩
  have hclo : ∀ v x, m.sup x = some v → (OnTiers h ts v ↔ OnTiers h ts x) := by
    intro v x hx
    rw [hmsup] at hx
    exact hon v x ((gr.tidy.agree v x).mpr hx)
  have htne : ts ≠ [] := G.ne
  obtain ⟨n, e4, rs, htd⟩ := reRelate_among g ts m (by rw [hmgt]; exact hts) (by rw [hmgp]; exact G.gpoint) chm htne alm
    (tdm.on fun _ => True) (fun _ _ => trivial) (fun x hx => (hent x).mp hx) hclo
  have tdn : Tidy n := by
    refine (htd ?_).tidy fun _ => trivial
    intro i t t' q1 q2 v hv x hx _
    rw [hvals] at hv
    rw [hmsub] at hx
    exact (hent x).mpr ((hon v x hx).mp ⟨t, List.mem_of_getElem? q1, hv⟩)
  have sn := rs.same
  obtain ⟨h', e5, rg⟩ := setGroups_run a (n.agroups a ++ [g]) (by simp) n
  have hst : h'.start = h.start := by rw [rg.frame]; exact sn.start.trans hmst
  have hsp : h'.stop = h.stop := by rw [rg.frame]; exact sn.stop.trans hmsp
  have hlb : h'.label = h.label := by rw [rg.frame]; exact sn.label.trans hmlb
  have hct : h'.ct = ct' := by rw [rg.frame]; exact sn.ct.trans hmct
  have hgt : h'.gtiers = h.gtiers := by rw [rg.frame, rs.frame]; exact hmgt
  have hgp : h'.gpoint = h.gpoint := by rw [rg.frame, rs.frame]; exact hmgp
  have hnE : h'.nE = h.nE := by rw [rg.frame, rs.frame, r.frame]
  have htc : h'.tcls = m.tcls := by rw [rg.frame]; exact sn.tcls
  have htn : h'.tname = m.tname := by rw [rg.frame]; exact sn.tname
  have hcc : h'.cls = m.cls := by rw [rg.frame]; exact sn.cls
  have hsq : h'.tseq = m.tseq := by rw [rg.frame]; exact sn.tseq
  have htu : h'.tsup = m.tsup := by rw [rg.frame, rs.frame]
  have htb : h'.tsub = m.tsub := by rw [rg.frame, rs.frame]
  have hsub : h'.subs = n.subs := by rw [rg.frame]
  have hsup : h'.sup = n.sup := by rw [rg.frame]
  have hgc : h'.gcont = n.gcont := by rw [rg.frame]
  have htw : h'.twithin = n.twithin := by rw [rg.frame]
  have hmgc : m.gcont = h.gcont := by rw [r.frame]
  have hmtw : m.twithin = h.twithin := by rw [r.frame]
  have hvals' : ∀ t, (h'.tseq t).vals = (h.tseq t).vals := fun t => by rw [hsq]; exact hvals t
  have hother : ∀ t, t ∉ ts → m.tname t = h.tname t ∧ m.tcls t = h.tcls t ∧ m.tsup t = h.tsup t ∧
      m.tsub t = h.tsub t ∧ m.tseq t = h.tseq t ∧ m.tcont t = h.tcont t := fun t ht =>
    r.otherTier t fun p hp e => ht (e ▸ (hzt p hp).2)
  have hon' : ∀ us x, OnTiers h' us x ↔ OnTiers h us x := by
    intro us x
    unfold OnTiers
    constructor
    · rintro ⟨t, ht, hx⟩; rw [hvals'] at hx; exact ⟨t, ht, hx⟩
    · rintro ⟨t, ht, hx⟩; exact ⟨t, ht, by rw [hvals']; exact hx⟩
  have hdisj : ∀ j ∈ gs, j ≠ g → ∀ t ∈ h.gtiers j, t ∉ ts := by
    intro j hj hjg t ht ht'
    exact flatMap_disjoint gr.tiers hj hg hjg ht (by rw [hts]; exact ht')
  have hsep : ∀ j ∈ gs, j ≠ g → ∀ t ∈ h.gtiers j, ∀ x ∈ (h.tseq t).vals, ¬ OnTiers h ts x := by
    rintro j hj hjg t ht x hx ⟨t', ht', hx'⟩
    exact gr.separate j hj g hg hjg t ht x hx t' (by rw [hts]; exact ht') hx'
  have hPl : ∀ j ∈ gs, Seated h' (h'.gtiers j) := by
    intro j hj
    rw [hgt]
    by_cases hjg : j = g
    · subst hjg
      rw [hts]
      refine ⟨by rw [hct, htc, hmcls]; exact hK, ?_, ?_⟩
      · intro t ht; rw [hct, htc, htu]; exact (hmtier t ht).2.1
      · intro t ht; rw [hct, htc, htb]; exact (hmtier t ht).2.2.1
    · refine (pl j hj).ext w (by rw [hct]; exact x') ?_
      intro t ht
      have o := hother t (hdisj j hj hjg t ht)
      rw [htc, htu, htb]
      exact ⟨o.2.1, o.2.2.1, o.2.2.2.1⟩
  have hgrid : GapGrid h' gs := by
    refine ⟨gr.nodup, by rw [hgt]; exact gr.tiers, ?_, ?_, ?_, ?_, ?_, ?_⟩
    · intro i hi j hj hij t ht x hx t' ht'
      rw [hgt] at ht ht'
      rw [hvals'] at hx ⊢
      exact gr.separate i hi j hj hij t ht x hx t' ht'
    · intro j hj
      obtain ⟨ch, tp, lw⟩ := (hPl j hj).chain
      rw [hgt] at ch tp lw ⊢
      have J := gr.groups j hj
      have lw0 : ToBottom h (h.gtiers j) := (pl j hj).chain.2.2
      have hfill : ∀ t ∈ h.gtiers j, Fillable h' t := by
        intro t ht
        have F := J.tiers t ht
        have hspan : (h'.tseq t).vals.map h'.span = (h.tseq t).vals.map h.span := by
          rw [hvals']
          unfold Heap.span
          rw [hst, hsp]
        refine ⟨by rw [hvals', hnE]; exact F.old, ?_, by rw [hspan]; exact F.laid, by rw [hspan, hvals', hst]; exact F.pos⟩
        rw [hsq, htc]
        by_cases htt : t ∈ ts
        · exact (hmtier t htt).2.2.2.1
        · rw [(hother t htt).2.2.2.2.1, (hother t htt).2.1]; exact F.ecls
      by_cases hjg : j = g
      · subst hjg
        rw [hts] at ch tp lw hfill lw0 ⊢
        refine ⟨⟨by rw [hgt]; exact hts, ?_, by rw [hgp]; exact G.gpoint, htne, ch, tp, ?_, hfill, ?_, fun q => absurd lw q⟩, ?_⟩
        · intro _
          rw [hgc]
          rcases rs.gcont j with q | q
          · rw [q, hmgc]; exact G.gcont lw0
          · exact q.2
        · exact alm.congr (hst.trans hmst.symm) (hsp.trans hmsp.symm) hsq hcc htc (hlb.trans hmlb.symm) (hct.trans hmct.symm)
        · intro _ t ht
          rw [htw]
          rcases rs.twithin t with q | q
          · rw [q, hmtw]; exact G.twithin lw0 t ht
          · exact q.2
        · exact rs.related.unmoved (.regrouped rg ts)
      · have hu : Unmoved h h' (h.gtiers j) := by
          refine ⟨?_, ?_, ?_, ?_, ?_⟩
          · intro t ht; rw [hsq]; exact (hother t (hdisj j hj hjg t ht)).2.2.2.2.1
          · intro t ht; rw [htc]; exact (hother t (hdisj j hj hjg t ht)).2.1
          · intro t ht; rw [htn]; exact (hother t (hdisj j hj hjg t ht)).1
          · intro t ht x hx
            rw [hst, hsp, hlb, hcc]
            exact ⟨rfl, rfl, rfl, (hmout x (hsep j hj hjg t ht x hx)).1⟩
          · intro t ht x hx
            have q := hsep j hj hjg t ht x hx
            have o := hmout x q
            rw [hsub, hsup, show h'.within = n.within by rw [rg.frame], show h'.cont = n.cont by rw [rg.frame],
              show h'.fol = n.fol by rw [rg.frame], show h'.prev = n.prev by rw [rg.frame], rs.apart.subs x q,
              rs.apart.sup x q, rs.apart.within x q, rs.apart.cont x q, rs.apart.fol x q, rs.apart.prev x q, hmsub, hmsup,
              o.2.2.2.2, o.2.1, o.2.2.1]
            exact ⟨rfl, rfl, rfl, by rw [r.frame], rfl, rfl⟩
        refine ⟨⟨by rw [hgt], ?_, by rw [hgp]; exact J.gpoint, J.ne, ch, tp, ?_, hfill, ?_, fun q => absurd lw q⟩,
          J.related.unmoved hu⟩
        · intro _
          rw [hgc]
          rcases rs.gcont j with q | q
          · rw [q, hmgc]; exact J.gcont lw0
          · exact absurd q.1 hjg
        · refine ⟨?_, ?_, ?_, ?_, ?_⟩
          · rw [List.map_congr_left fun t _ => hvals' t]; exact J.aligned.once
          · intro t ht x hx
            rw [hvals'] at hx
            rw [(hu.value t ht x hx).2.2.2, hu.tcls t ht]
            exact J.aligned.cls t ht x hx
          · intro t ht x hx
            rw [hvals'] at hx
            rw [hlb]; exact J.aligned.label t ht x hx
          · intro i t t' q1 q2
            have := hPl j hj
            rw [hgt] at this
            rw [← this.tsub t (List.mem_of_getElem? q1)]
            exact (ch.down i t t' q1 q2).1
          · intro i t t' q1 q2
            rw [hvals', hvals']
            exact (J.aligned.aligned i t t' q1 q2).congr hst hsp
        · intro _ t ht
          rw [htw]
          rcases rs.twithin t with q | q
          · rw [q, hmtw]; exact J.twithin lw0 t ht
          · exact absurd q.1 (hdisj j hj hjg t ht)
    · intro j hj t ht
      exact (hPl j hj).hier.not_point (by rw [hct]; exact w') (List.mem_map_of_mem ht)
    · intro j hj v x hx
      rw [hgt, hon', hon']
      rw [hsup] at hx
      rcases rs.sup v x hx with ⟨q, -⟩ | ⟨q1, q2⟩
      · rw [hmsup] at q
        exact gr.closed j hj v x q
      · rw [hent] at q1 q2
        by_cases hjg : j = g
        · subst hjg; rw [hts]; exact ⟨fun _ => q2, fun _ => q1⟩
        · constructor
          · rintro ⟨t, ht, hv⟩; exact absurd q1 (hsep j hj hjg t ht v hv)
          · rintro ⟨t, ht, hv⟩; exact absurd q2 (hsep j hj hjg t ht x hv)
    · exact tdn.congr (by rw [rg.frame]) (by rw [rg.frame]) (by rw [rg.frame]) (by rw [rg.frame]) (by rw [rg.frame])
        (by rw [rg.frame]) (by rw [rg.frame])
    · intro v x hx
      rw [hsub] at hx
      rw [hnE]
      rcases rs.subs v x hx with ⟨q, -⟩ | ⟨q1, q2⟩
      · rw [hmsub] at q
        exact gr.alloc v x q
      · rw [hent] at q1 q2
        obtain ⟨t1, a1, a2⟩ := q1
        obtain ⟨t2, b1, b2⟩ := q2
        exact ⟨(G.tiers t1 a1).old v a2, (G.tiers t2 b1).old x b2⟩
  refine ⟨h', K, ?_, ?_, hgrid, hPl, by rw [hct]; exact w', by rw [hct]; exact x', by rw [hct]; exact gc', ?_⟩
  · refine atgAppend_steps a g h k m n h' K (by rw [hts]; simpa using htne) (by rw [hts]; exact er) ?_ ?_ e4 e5
    · rw [hts, hka]; exact e2
    · rw [show k.gtiers g = ts from hts]; exact e3
  · have hag : n.agroups = h.agroups := by rw [rs.frame, r.frame]
    refine ⟨?_, rg.gwithin g (by simp), hgt, hst, hsp, hlb, hvals', ?_, ?_, ?_, ?_, ?_, ?_, ?_⟩
    · rw [setGroups_groups (by simp) e5, hag]
    · rw [hts, htc]; exact hmcls
    · rw [hts]
      intro t ht x hx
      rw [hcc, htc]; exact (hmtier t ht).2.2.2.2 x hx
    · rw [hct, hcn]; exact hKn
    · rw [hts]
      intro t ht
      rw [htn, hct, htc]; exact (hmtier t ht).1
    · rw [rg.frame, rs.frame, r.frame]
    · rw [hts]
      intro t ht
      have o := hother t ht
      rw [htc, htn, hsq]
      exact ⟨o.2.1, o.1, o.2.2.2.2.1⟩
    · rw [hts]
      intro x q
      have o := hmout x q
      rw [hcc, hsub, hsup, show h'.fol = n.fol by rw [rg.frame], show h'.prev = n.prev by rw [rg.frame], rs.apart.subs x q,
        rs.apart.sup x q, rs.apart.fol x q, rs.apart.prev x q, hmsub, hmsup]
      exact ⟨o.1, rfl, rfl, o.2.1, o.2.2.1⟩
  · rw [hct]
    rcases hKor with q | ⟨q1, q2⟩
    · exact Or.inl q
    · refine Or.inr ⟨q1, fun d hd hm => ?_⟩
      rw [hcn] at hm
      obtain ⟨c, hc, e⟩ := List.mem_map.mp hm
      exact q2 c hc d hd e

end ATG
