import Verif.Spec.Reclass
import Verif.Lemmas.AtgAppend
import Verif.Props.GroupAppend
/-!
# Appending a tier to a group of a textgrid: C67
-/
namespace ATG

/-- the classes of the textgrid are used -/
theorem HasClass.recloned {h : Heap} {a : ARef} {t : TRef} {Ls : List (List CRef)} {K : List CRef} {c : CRef}
    (q : HasClass h a t Ls K c) : ∃ new, (∀ d ∈ new, d ∈ h.acloned a) ∧
      recloneA a [h.tcls t] h = .ok () { h with acloned := upd h.acloned a (h.acloned a ++ new) } := by
  obtain ⟨s, hs, htop⟩ := q.top
  have hfl : ∀ d ∈ K, d ∈ Ls.flatten := fun d hd => List.mem_flatten.mpr ⟨K, q.hier, hd⟩
  have run : ∃ new, (∀ d ∈ new, d ∈ h.acloned a) ∧ ATG.reclone (h.acloned a) h.ct [h.tcls t] = (h.ct, .ok new) := by
    have hu : ([h.tcls t] : List CRef).eraseDups = [h.tcls t] := eraseDups_of_nodup (by simp)
    unfold ATG.reclone
    rw [hu]
    simp only [List.filter_cons, List.filter_nil, q.interval.1, q.interval.2, if_true, List.any_cons, List.any_nil, hs]
    by_cases e : h.ct.isSub s cTop = true
    · refine ⟨K, by rw [q.cloned]; exact hfl, ?_⟩
      have hh := htop e
      have hidx : ∃ i, ((h.acloned a).map h.ct.name).findIdx? (· == h.ct.name (h.tcls t)) = some i ∧
          (h.acloned a)[i]? = some c := by
        cases hf : ((h.acloned a).map h.ct.name).findIdx? (· == h.ct.name (h.tcls t)) with
        | none =>
          exfalso
          rw [List.findIdx?_eq_none_iff] at hf
          have := hf (h.ct.name c) (List.mem_map_of_mem (by rw [q.cloned]; exact hfl c q.cls))
          rw [q.name] at this
          simp at this
        | some i =>
          rw [List.findIdx?_eq_some_iff_getElem] at hf
          obtain ⟨hi, hn, -⟩ := hf
          have hi' : i < (h.acloned a).length := by simpa using hi
          refine ⟨i, rfl, ?_⟩
          rw [List.getElem?_eq_getElem hi']
          congr 1
          simp only [List.getElem_map, beq_iff_eq] at hn
          refine q.good.names _ ?_ _ (hfl c q.cls) (by rw [hn, q.name])
          rw [← q.cloned]
          exact List.getElem_mem _
      obtain ⟨i, h1, h2⟩ := hidx
      simp only [e, if_true, cloneAll, CRes.bind_ok, cloneOrReuse, h1, h2, Option.isNone_some, Bool.or_self, Bool.false_eq_true,
        if_false]
      rw [hiersOf_run (Ls := [K]) (by simp [hh]) (by
        intro L hL
        rw [List.mem_singleton.mp hL]
        exact q.good.hier K q.hier)]
      simp
    · refine ⟨[], by simp, ?_⟩
      simp only [e, cloneAll, CRes.bind_ok, Option.isNone_some, Bool.or_self, Bool.false_eq_true, if_false]
      rfl
  obtain ⟨new, hn, e⟩ := run
  refine ⟨new, hn, ?_⟩
  unfold recloneA
  mstep M.get_apply h
  mstep (show liftC (fun ct => ATG.reclone (h.acloned a) ct [h.tcls t]) h = .ok new h by
    unfold liftC
    dsimp only
    rw [e])
  rfl

/-- C67 in a textgrid: the new tier, whose class has the name of one of the textgrid's classes, is cast to that class and
    joins the group in its place in the chain; the tiers are related by containment. No time or label changes, no tier
    loses or gains an entry, keeps its name, and no other class is touched; the textgrid gets no new class.

    `_partial`: the tier fits with the group's tiers once it has the class (`reclassed`); see `C67_dropped_violated` and
    `C67_points_violated`. -/
theorem C67_textgrid_partial (h : Heap) (g : GRef) (t : TRef) (built : List Ref) (ts : List TRef) (a : ARef)
    (Ls : List (List CRef)) (K : List CRef) (c : CRef) (w : WFC h.ct) (hg : h.gpoint g = false) (hw : h.gwithin g = some a)
    (ha : h.agroups a ≠ []) (q : HasClass h a t Ls K c) (hne : h.gtiers g ≠ []) (hnt : t ∉ h.gtiers g)
    (hp : (h.gtiers g ++ [t]).Perm ts) (so : SortedByStart h (h.tseq t).vals)
    (hcls : ∀ x ∈ (h.tseq t).vals, h.cls x = h.tcls t)
    (hnew : ∀ t' ∈ h.gtiers g, h.ct.isSub (h.tcls t') c = false ∧ h.ct.isSub c (h.tcls t') = false)
    (ch : ClassChain (reclassed h t c) ts) (al : AlignedTiers (reclassed h t c) ts)
    (td : TidyOn (OnTiers h ts) (reclassed h t c)) :
    ∃ h', groupAppend g t built h = .ok () h' ∧ h'.gtiers g = ts ∧ RelatedByContainment h' ts ∧
      (h'.start = h.start ∧ h'.stop = h.stop ∧ h'.label = h.label ∧ h'.nE = h.nE ∧ h'.ct = h.ct ∧ h'.tname = h.tname) ∧
      (∀ u, (h'.tseq u).vals = (h.tseq u).vals ∧ (u ≠ t → h'.tcls u = h.tcls u)) ∧ h'.tcls t = c ∧
      (∀ x ∈ (h.tseq t).vals, h'.cls x = c) ∧ (∀ x, x ∉ (h.tseq t).vals → h'.cls x = h.cls x) := by
  have hK := q.good.hier K q.hier
  have hci : h.ct.isSub c cPoint = false := hK.not_point w q.cls
  obtain ⟨s, hs⟩ := hK.sup_some q.cls
  obtain ⟨new, hn, er⟩ := q.recloned
  have hfl : c ∈ Ls.flatten := List.mem_flatten.mpr ⟨K, q.hier, q.cls⟩
  have htt : t ∈ ts := hp.mem_iff.mp (by simp)
  have tsne : ts ≠ [] := List.ne_nil_of_mem htt
  generalize hL : (h.tseq t).vals = L at *
  have hnd : L.Nodup := by
    have := al.once
    rw [← List.flatMap_def, List.nodup_iff_pairwise_ne, List.pairwise_flatMap] at this
    have := this.1 t htt
    simpa [reclassed, hL, List.nodup_iff_pairwise_ne] using this
  have hlab : ∀ x ∈ L, h.label x ≠ "#" := by
    intro x hx
    exact al.label t htt x (by simpa [reclassed, hL] using hx)
  -- the heap after the classes were looked up
  let k : Heap := { h with acloned := upd h.acloned a (h.acloned a ++ new) }
  have esw : swapClasses k.ct [k.tcls t] (k.acloned a) = .ok [c] := by
    show swapClasses h.ct [h.tcls t] (upd h.acloned a (h.acloned a ++ new) a) = _
    rw [upd_same]
    refine swapClasses_run (by simp [q.name]) ?_ ?_
    · intro y hy
      rw [List.mem_singleton.mp hy, q.cloned]
      exact List.mem_append_left _ hfl
    · intro y hy z hz e
      rw [List.mem_singleton.mp hy] at e ⊢
      have hz : z ∈ Ls.flatten := by
        rcases List.mem_append.mp hz with hz | hz
        · rw [← q.cloned]; exact hz
        · rw [← q.cloned]; exact hn z hz
      exact q.good.names z hz c hfl e
  -- the tier was cast
  let k2 : Heap := tierBuilt { k with tcont := upd k.tcont t (leftBehind k t) } t L c s (h.tname t)
  have ecast : tierReclass t c k = .ok () k2 := by
    unfold tierReclass
    mstep M.get_apply k
    have hname : (if k.tname t ≠ k.ct.name (k.tcls t) then k.tname t else k.ct.name c) = h.tname t := by
      show (if h.tname t ≠ h.ct.name (h.tcls t) then h.tname t else h.ct.name c) = h.tname t
      by_cases e : h.tname t = h.ct.name (h.tcls t)
      · rw [if_neg (by simp [e]), q.name, e]
      · rw [if_pos e]
    rw [hname, show (k.tseq t).vals = L from hL]
    exact tierInit_any t L c s (h.tname t) k hci hs
      (fun x hx => by show h.ct.isSub (h.cls x) cPoint = false; rw [hcls x hx]; exact q.interval.2) hnd hlab so
  have f1 : k2.tcls = (reclassed h t c).tcls := rfl
  have f2 : k2.tsub = (reclassed h t c).tsub := rfl
  have f3 : k2.tsup = (reclassed h t c).tsup := by
    show upd h.tsup t (some s) = upd h.tsup t (h.ct.sup c)
    rw [hs]
  have f4 : k2.tseq = (reclassed h t c).tseq := by
    show upd h.tseq t _ = upd h.tseq t _
    rw [hL]
  have f5 : k2.cls = (reclassed h t c).cls := by
    show (fun x => if x ∈ L then c else h.cls x) = fun x => if x ∈ (h.tseq t).vals then c else h.cls x
    rw [hL]
  have ch2 : ClassChain k2 ts := ch.congr f1 f2 f3 rfl
  have htc : k2.tcls t = c := upd_same _ _ _
  have hto : ∀ u, u ≠ t → k2.tcls u = h.tcls u := fun u hu => upd_ne _ _ _ _ hu
  let h1 : Heap := { k2 with
    gcont := upd k2.gcont g (if k2.gcont g = some (k2.gtiers g) then some (k2.gtiers g ++ [t]) else k2.gcont g)
    gtiers := upd k2.gtiers g (k2.gtiers g ++ [t]) }
  have hon : ∀ x, OnTiers k2 ts x ↔ OnTiers h ts x := by
    have hv : ∀ u, (k2.tseq u).vals = (h.tseq u).vals := by
      intro u
      by_cases e : u = t
      · subst e; rw [hL]; show (upd h.tseq u _ u).vals = _; rw [upd_same]
      · show (upd h.tseq t _ u).vals = _; rw [upd_ne _ _ _ _ e]
    intro x
    unfold OnTiers
    simp only [hv]
  obtain ⟨h', e, g1, r, sc, -⟩ := C24_aligned g (h.gtiers g ++ [t]) ts false h1 (ch2.congr rfl rfl rfl rfl) hp tsne
    (al.congr rfl rfl f4 f5 f1 rfl rfl) (by
      have : OnTiers h1 ts = OnTiers h ts := funext fun x => propext (hon x)
      rw [this]
      exact td.congr rfl rfl rfl rfl f5 rfl rfl)
  refine ⟨h', ?_, g1, r, ⟨sc.start, sc.stop, sc.label, sc.nE, sc.ct, ?_⟩, ?_, ?_, ?_, ?_⟩
  · unfold groupAppend
    mstep M.get_apply h
    rw [if_neg (by simp [hg, Heap.isPointTier, q.interval.2])]
    have e0 : textgridOf h g = some a := by
      unfold textgridOf
      rw [hw]
      dsimp only
      rw [if_pos (List.length_pos_iff.mpr ha)]
    rw [e0]
    mstep (show _ = Res.ok () k2 by
      mstep er
      mstep M.get_apply k
      mstep (show liftE (swapClasses k.ct [h.tcls t] (k.acloned a)) k = .ok [c] k by
        rw [show h.tcls t = k.tcls t from rfl, esw]; rfl)
      dsimp only
      rw [if_neg (by show ¬ h.gpoint g = true; simp [hg])]
      exact ecast)
    mstep M.get_apply k2
    mstep (show liftE (groupFits k2 g (k2.tcls t)) k2 = .ok () k2 by
      rw [groupFits_ok (h := k2) hg hne ch2 hp (fun t' ht' => by
        rw [htc, hto t' (fun e => hnt (e ▸ ht'))]
        exact hnew t' ht')]
      rfl)
    mstep (show M.modify _ k2 = .ok () h1 from rfl)
    rw [if_neg (by show ¬ h.gpoint g = true; simp [hg])]
    exact e
  · rw [sc.tname]
    show upd h.tname t (h.tname t) = h.tname
    exact upd_eq_self _ _ _ rfl
  · intro u
    rw [sc.tseq, sc.tcls]
    refine ⟨?_, hto u⟩
    show (k2.tseq u).vals = _
    by_cases e : u = t
    · subst e; rw [hL]; show (upd h.tseq u _ u).vals = _; rw [upd_same]
    · show (upd h.tseq t _ u).vals = _; rw [upd_ne _ _ _ _ e]
  · rw [sc.tcls]; exact htc
  · intro x hx
    rw [sc.cls]
    exact if_pos hx
  · intro x hx
    rw [sc.cls]
    exact if_neg hx

/-- C67, errors: a tier whose class is below another and has no namesake among the textgrid's classes is refused, and nothing
    changes. -/
theorem C67_unknown (h : Heap) (g : GRef) (t : TRef) (built : List Ref) (a : ARef) (s : CRef) (hg : h.gpoint g = false)
    (hw : h.gwithin g = some a) (ha : h.agroups a ≠ [])
    (hi : h.ct.isSub (h.tcls t) cInterval = true ∧ h.ct.isSub (h.tcls t) cPoint = false)
    (hs : h.ct.sup (h.tcls t) = some s) (hst : h.ct.isSub s cTop = false)
    (hn : ∀ d ∈ h.acloned a, h.ct.name d ≠ h.ct.name (h.tcls t)) : groupAppend g t built h = .err .valueError h := by
  have hu : ([h.tcls t] : List CRef).eraseDups = [h.tcls t] := eraseDups_of_nodup (by simp)
  have e : reclone (h.acloned a) h.ct [h.tcls t] = (h.ct, .ok []) := by
    unfold reclone
    rw [hu]
    simp only [List.filter_cons, List.filter_nil, hi.1, hi.2, if_true, List.any_cons, List.any_nil, hs, hst, cloneAll, CRes.bind_ok,
      Option.isNone_some, Bool.or_self, Bool.false_eq_true, if_false]
    rfl
  have er : recloneA a [h.tcls t] h = .ok () h := by
    unfold recloneA
    mstep M.get_apply h
    mstep (show liftC (fun ct => reclone (h.acloned a) ct [h.tcls t]) h = .ok [] h by
      unfold liftC
      dsimp only
      rw [e])
    rw [M.modify_apply]
    congr 1
    rw [List.append_nil, upd_eq_self _ _ _ rfl]
  have esw : swapClasses h.ct [h.tcls t] (h.acloned a) = .error .valueError := by
    have : (h.acloned a).find? (fun c => h.ct.name c == h.ct.name (h.tcls t)) = none := by
      rw [List.find?_eq_none]
      intro d hd
      simpa using hn d hd
    unfold swapClasses
    simp only [List.mapM_cons, this]
    rfl
  have e0 : textgridOf h g = some a := by
    unfold textgridOf
    rw [hw]
    dsimp only
    rw [if_pos (List.length_pos_iff.mpr ha)]
  unfold groupAppend
  mstep M.get_apply h
  rw [if_neg (by simp [hg, Heap.isPointTier, hi.2]), e0]
  dsimp only
  refine M.bind_err ?_
  mstep er
  mstep M.get_apply h
  rw [esw]
  rfl

/-! ## A case: a textgrid of words, to which phones are appended -/

/-- the classes of a textgrid of words: clones 9 of `Word` and 11 of `Phone` -/
def exTwoClasses : ClassTab := (reclone [] baseClasses [cWord]).1

/-- the word tier (0) of the only group of a textgrid, and a tier (1) of phones that belongs to no group -/
def exWordsOnly : Heap :=
  { heap0 with
    ct := exTwoClasses
    nE := 3
    cls := fun r => if r < 1 then 9 else cPhone
    start := fun r => [0, 0, 1].getD r 0
    stop := fun r => [2, 1, 2].getD r 0
    label := fun r => ["ab", "a", "b"].getD r ""
    nT := 2
    tseq := fun t => if t = 0 then ⟨[0], some 9⟩ else ⟨[1, 2], some cPhone⟩
    tcls := fun t => if t = 0 then 9 else cPhone
    tsup := fun t => if t = 0 then some 10 else some cWord
    tsub := fun t => if t = 0 then some 11 else some 8
    tname := fun t => if t = 0 then "Word" else "Phone"
    nG := 1
    gtiers := fun _ => [0]
    gwithin := fun _ => some 0
    nA := 1
    agroups := fun _ => [0]
    acloned := fun _ => [9, 11] }

example : ∃ h', groupAppend 0 1 [] exWordsOnly = .ok () h' ∧ h'.gtiers 0 = [0, 1] ∧ (h'.subs 0).vals = [1, 2] ∧
    h'.tcls 1 = 11 ∧ h'.cls 2 = 11 := by
  have hl : IsHierarchy exWordsOnly.ct [9, 11] := isHierarchy_of_check (by decide) (by decide) (by decide +kernel)
    (by decide +kernel) (by decide +kernel) (by decide +kernel)
  have hsub : ∀ v, ((reclassed exWordsOnly 1 11).subs v).vals = [] := fun v => rfl
  have hsup : ∀ v, (reclassed exWordsOnly 1 11).sup v = none := fun v => rfl
  obtain ⟨h', e, hgt, r, ⟨hst, hsp, -⟩, hv, q1, q2, -⟩ := C67_textgrid_partial exWordsOnly 0 1 [] [0, 1] 0 [[9, 11]] [9, 11] 11
    (wfc_of_check (by decide +kernel)) (by decide) (by decide) (by decide)
    ⟨rfl, ⟨by simpa using hl, by decide +kernel, by decide +kernel⟩, by simp, by simp, by decide +kernel, by decide +kernel,
      ⟨cWord, by decide +kernel, fun q => absurd q (by decide +kernel)⟩⟩
    (by decide) (by decide) (List.Perm.refl _) (by unfold SortedByStart; decide +kernel) (by decide) (by decide +kernel)
    ⟨by decide, by
        intro i t t' h1 h2
        match i with
        | 0 => cases h1; cases h2; decide +kernel
        | i + 1 => simp at h2, by
        intro i t t' h1 h2
        match i with
        | 0 => cases h1; cases h2; decide +kernel
        | i + 1 => simp at h2, by
        intro t h1; cases h1; exact ⟨10, by decide, Or.inl (by decide +kernel)⟩, by
        intro t h1; cases h1; exact ⟨12, by decide +kernel, Or.inl (by decide +kernel)⟩⟩
    ⟨by decide, by decide, by decide, by
        intro i t t' h1 h2
        match i with
        | 0 => cases h1; cases h2; decide +kernel
        | i + 1 => simp at h2, by
        intro i t t' h1 h2
        match i with
        | 0 =>
          cases h1; cases h2
          exact ⟨by decide +kernel, by decide +kernel, by decide +kernel, by decide +kernel⟩
        | i + 1 => simp at h2⟩
    ⟨(by intro v x hx; rw [hsub] at hx; cases hx), (by intro v x _ hx; rw [hsup] at hx; cases hx), by intro v; rw [hsub]; simp,
      by intro v; rw [hsub]; simp, by intro v; rw [hsub]; simp, by intro v; rw [hsub]; simp⟩
  refine ⟨h', e, hgt, ?_, q1, q2 2 (by decide)⟩
  rw [(r.subs 0 0 1 rfl rfl 0 (by rw [(hv 0).1]; decide)).1, (hv 1).1]
  have : ∀ x, Inside h' 0 x ↔ Inside exWordsOnly 0 x := by
    intro x
    unfold Inside
    rw [hst, hsp]
  simp only [this]
  decide +kernel

-- a syllable tier is refused: the textgrid has no class of that name
example : (groupAppend 0 2 [] (run0 (do
    let _ ← newAtg [("w", [(0, 1, "x")])] (.nested [[cWord]])
    let cs ← liftC fun ct => customClasses ct ["Utt", "Syl"] []
    let _ ← newTierFrom [(0, 1, "x")] (cs.getD 1 0) "Syl"
    pure ()))).out = .error .valueError := by decide +kernel

end ATG
