import Verif.Lemmas.GroupSweep
import Verif.Lemmas.SpanLists
import Verif.Lemmas.NewTier
import Verif.Spec.EmptyTop
import Verif.Props.Queries
/-!
# Copying intervals to the empty tier above
-/
namespace ATG

/-- what appending the unrelated entry `x` to the tier `t` does -/
structure Attached (h h' : Heap) (t : TRef) (x : Ref) : Prop where
  frame : h' = { h with fol := h'.fol, prev := h'.prev, intier := h'.intier, within := h'.within, tcont := h'.tcont,
                        tseq := upd h.tseq t ⟨slSort h ((h.tseq t).vals ++ [x]), some (h.tcls t)⟩ }
  intier : ∀ y, h'.intier y = if y ∈ (h.tseq t).vals ++ [x] then some t else h.intier y
  other : ∀ y, y ∉ (h.tseq t).vals ++ [x] → h'.fol y = h.fol y ∧ h'.prev y = h.prev y ∧ h'.within y = h.within y
  linked : DoublyLinked h' (slSort h ((h.tseq t).vals ++ [x]))

/-- what is left to do after `x` has been added to the list of the tier `t` -/
def appendRest (n : Nat) (t : TRef) (x : Ref) : M Unit := do
  let h ← M.get
  (if (h.subs x).vals.length > 0 then
    match withinTruthy h t with
    | none => pure ()
    | some g => do
      M.forL (h.subs x).vals (fun iv => do
        let d ← siblingTier g t 1
        tierAppendN n d iv)
  else pure ())
  let h ← M.get
  (match h.sup x with
    | none => pure ()
    | some s =>
      if (h.subs s).vals.length > 0 then
        match withinTruthy h t with
        | none => pure ()
        | some g => do
          let u ← siblingTier g t (-1)
          tierAppendN n u s
      else pure ())

theorem tierAppendN_go (t : TRef) (x : Ref) (h : Heap) (s : CRef) (hpt : h.isPointTier t = false)
    (hs : h.tsup t = some s) (he : h.tseq t = SL.empty ∨ (h.tseq t).ecls = some (h.tcls t))
    (hc : ∀ y ∈ (h.tseq t).vals ++ [x], h.cls y = h.tcls t) (hl : ∀ y ∈ (h.tseq t).vals ++ [x], h.label y ≠ "#")
    (hnd : ((h.tseq t).vals ++ [x]).Nodup) (hx : ¬ Listed h (h.tseq t).vals x) :
    ∃ h', Attached h h' t x ∧ ∀ n, tierAppendN (n + 1) t x h = appendRest n t x h' := by
  have hnew : newOf h (h.tseq t).vals [x] = [x] := by
    unfold newOf
    rw [List.filter_cons_of_pos (by rw [(slContains_false_iff h _ x).mpr hx]; rfl)]
    rfl
  have hxc : h.cls x = h.tcls t := hc x (by simp)
  obtain ⟨q, hq⟩ : ∃ q : SL, slAdd (putSeq t) (h.tseq t) [x] h =
      .ok ⟨slSort h ((h.tseq t).vals ++ [x]), some (h.tcls t)⟩ { h with tseq := upd h.tseq t q } := by
    rcases he with he | he
    · rw [he]
      refine ⟨⟨[], some (h.tcls t)⟩, ?_⟩
      rw [slAdd_ok_empty (putSeq t) (fun sl h => { h with tseq := upd h.tseq t sl }) (fun _ _ => rfl) (fun _ _ => ⟨rfl, rfl⟩)
        [x] h (h.tcls t) x [] rfl (by simpa using hxc)]
      rfl
    · refine ⟨h.tseq t, ?_⟩
      rw [slAdd_ok (putSeq t) (h.tseq t) [x] h (h.tcls t) (h.tcls t) (by rw [hnew]; simp) he (by simpa [hnew] using hxc)
        (by simp [isSub_refl]) (by
          rw [hnew]
          intro y hy
          unfold Heap.isPoint
          rw [hc y hy]), hnew, castAll_self _ _ _ hc, upd_eq_self _ _ _ rfl]
  let L := slSort h ((h.tseq t).vals ++ [x])
  have hmem : ∀ y, y ∈ L ↔ y ∈ (h.tseq t).vals ++ [x] := fun y => (slSort_perm h _).mem_iff
  have hLs : SortedByStart h L := slSort_sorted h _
  have hLnd : L.Nodup := (slSort_perm h _).nodup_iff.mpr hnd
  have hLne : L ≠ [] := fun e => by have := (hmem x).mpr (by simp); rw [e] at this; cases this
  obtain ⟨cont, e2⟩ : ∃ cont, tierSetSeq t ⟨L, some (h.tcls t)⟩ { h with tseq := upd h.tseq t q } = .ok () { h with
      tseq := upd h.tseq t ⟨L, some (h.tcls t)⟩
      fol := folOf L h.fol
      prev := prevOf none L h.prev
      intier := fun r => if r ∈ L then some t else h.intier r
      tcont := cont
      within := if h.ct.isSub s cTop then (fun r => if r ∈ L then some (.tier t) else h.within r) else h.within } := by
    obtain ⟨cc, hcc⟩ : ∃ cc, replaceSeq t ⟨L, some (h.tcls t)⟩ { h with tseq := upd h.tseq t q } =
        .ok () { h with tseq := upd h.tseq t ⟨L, some (h.tcls t)⟩, tcont := cc } := by
      apply Exists.intro
      unfold replaceSeq
      rw [M.modify_apply]
      dsimp only
      rw [upd_upd]
    refine ⟨if h.ct.isSub s cTop then upd cc t .alias else cc, ?_⟩
    unfold tierSetSeq
    mstep M.get_apply _
    rw [if_neg (by
      have : Heap.isPointTier { h with tseq := upd h.tseq t q } t = false := hpt
      rw [this]; simp)]
    mstep slMk_cls { h with tseq := upd h.tseq t q } h L (h.tcls t) (fun y hy => hc y ((hmem y).mp hy)) rfl
    rw [slSort_of_sorted _ L hLs, if_neg hLne]
    mstep hcc
    have e : (upd h.tseq t (⟨L, some (h.tcls t)⟩ : SL) t) = ⟨L, some (h.tcls t)⟩ := upd_same _ _ _
    refine (tierPrecedence_ok t { h with tseq := upd h.tseq t ⟨L, some (h.tcls t)⟩, tcont := cc } s hpt hs
      (by dsimp only; rw [e]; exact hLnd) (by
        dsimp only
        rw [e]
        intro y hy z hz
        exact (hc y ((hmem y).mp hy)).trans (hc z ((hmem z).mp hz)).symm)
      (by
        dsimp only
        rw [e]
        exact fun y hy => hl y ((hmem y).mp hy))).trans ?_
    simp only [upd_same]
  refine ⟨{ h with
      tseq := upd h.tseq t ⟨L, some (h.tcls t)⟩
      fol := folOf L h.fol
      prev := prevOf none L h.prev
      intier := fun r => if r ∈ L then some t else h.intier r
      tcont := cont
      within := if h.ct.isSub s cTop then (fun r => if r ∈ L then some (.tier t) else h.within r) else h.within },
    ⟨?_, ?_, ?_, ?_⟩, ?_⟩
  rotate_left 4
  · intro n
    unfold tierAppendN
    mstep M.get_apply h
    rw [if_pos (by rw [hxc]; simp [isSub_refl]), if_neg (by
      intro e
      exact hx (Or.inl (by simpa using e)))]
    mstep hq
    mstep e2
    rfl
  · rfl
  · intro y
    dsimp only
    by_cases hy : y ∈ L
    · rw [if_pos hy, if_pos ((hmem y).mp hy)]
    · rw [if_neg hy, if_neg fun e => hy ((hmem y).mpr e)]
  · intro y hy
    have hy : y ∉ L := fun e => hy ((hmem y).mp e)
    refine ⟨by simp [folOf, hy], by simp [prevOf, hy], ?_⟩
    dsimp only
    split <;> simp [hy]
  · exact linked_of _ L hLnd _ _ rfl rfl

theorem tierAppendN_fresh (n : Nat) (t : TRef) (x : Ref) (h : Heap) (s : CRef) (hpt : h.isPointTier t = false)
    (hs : h.tsup t = some s) (he : h.tseq t = SL.empty ∨ (h.tseq t).ecls = some (h.tcls t))
    (hc : ∀ y ∈ (h.tseq t).vals ++ [x], h.cls y = h.tcls t) (hl : ∀ y ∈ (h.tseq t).vals ++ [x], h.label y ≠ "#")
    (hnd : ((h.tseq t).vals ++ [x]).Nodup) (hx : ¬ Listed h (h.tseq t).vals x) (hsub : (h.subs x).vals = [])
    (hsup : h.sup x = none) :
    ∃ h', tierAppendN (n + 1) t x h = .ok () h' ∧ Attached h h' t x := by
  obtain ⟨h', a, e⟩ := tierAppendN_go t x h s hpt hs he hc hl hnd hx
  refine ⟨h', (e n).trans ?_, a⟩
  unfold appendRest
  mstep M.get_apply _
  have e1 : h'.subs = h.subs := by rw [a.frame]
  have e2 : h'.sup = h.sup := by rw [a.frame]
  rw [if_neg (by rw [e1, hsub]; simp)]
  mstep M.pure_apply _ _
  mstep M.get_apply _
  rw [e2, hsup]
  rfl

theorem laid_sorted {h : Heap} {l : List Ref} (hl : Laid (l.map h.span)) : SortedByStart h l := by
  have h1 := List.pairwise_map.mp hl.2
  have h2 : ∀ x ∈ l, h.start x < h.stop x := fun x hx => hl.1 (h.span x) (List.mem_map_of_mem hx)
  refine List.Pairwise.imp_of_mem (fun {a b} ha _ q => ?_) h1
  have := h2 a ha
  have : h.stop a ≤ h.start b := q
  grind

theorem Projected.start (h : Heap) (u : TRef) (he : h.tseq u = SL.empty) : Projected h h u [] :=
  ⟨rfl, rfl, fun _ _ => ⟨⟨rfl, rfl, rfl, rfl, rfl, rfl, rfl, rfl, rfl, rfl⟩, rfl⟩, fun _ _ => rfl, by rw [he]; rfl,
    fun q => absurd rfl q, fun _ => he, by rw [he]; rfl, by rw [he]; intro r hr; cases hr⟩

/-- one interval is copied to the tier above -/
theorem projectUp_step {h h' : Heap} {g : GRef} {u l : TRef} {rest : List TRef} (t : EmptyTop h g u l rest) {xs : List Ref}
    {x : Ref} (p : Projected h h' u xs) (hx : x ∈ (h.tseq l).vals) (hl : Laid ((xs ++ [x]).map h.span)) :
    ∃ h'', projectUp x h' = .ok () h'' ∧ Projected h h'' u (xs ++ [x]) := by
  have hxlt := (t.tiers l (by simp)).old x hx
  have sx := (p.away x (Or.inl hxlt)).1
  have hct : h'.ct = h.ct := by rw [p.frame]
  have htc : h'.tcls = h.tcls := by rw [p.frame]
  have hru : ∀ r, r ∈ (h'.tseq u).vals ↔ h.nE ≤ r ∧ r < h'.nE := by
    intro r
    rw [p.vals, List.mem_range'_1, p.nE]
  have hnd : (u :: l :: rest).Nodup := t.chain.nodup
  have tp : TierPair h' g u l 0 := by
    have e1 : h'.gtiers = h.gtiers := by rw [p.frame]
    have e2 : h'.gcont = h.gcont := by rw [p.frame]
    have e3 : h'.twithin = h.twithin := by rw [p.frame]
    refine ⟨?_, ?_, ?_, ?_, ?_, ?_⟩
    · rw [e1, t.gtiers]; rfl
    · rw [e1, t.gtiers]; rfl
    · rw [e1, t.gtiers]; exact hnd
    · rw [e1, e2, t.gtiers]; exact t.gcont
    · rw [e3]; exact t.twithin u (by simp)
    · rw [e3]; exact t.twithin l (by simp)
  -- the intervals copied before end before this one starts
  have hlx : Laid (xs.map h.span) := by
    rw [List.map_append] at hl
    exact ⟨fun q hq => hl.1 q (by simp only [List.mem_append]; exact Or.inl hq), (List.pairwise_append.mp hl.2).1⟩
  have hbefore : ∀ r ∈ (h'.tseq u).vals, h'.stop r ≤ h.start x ∧ h'.start r < h'.stop r := by
    intro r hr
    have hm : h'.span r ∈ xs.map h.span := by rw [← p.spans]; exact List.mem_map_of_mem hr
    refine ⟨?_, hlx.1 _ hm⟩
    rw [List.map_append] at hl
    exact (List.pairwise_append.mp hl.2).2.2 _ hm (h.span x) (by simp)
  have hpos : h.start x < h.stop x := hl.1 (h.span x) (by simp)
  have hat : tierAt h' u (h'.start x + (h'.stop x - h'.start x) / 2) = .ok none := by
    refine (C19_interval_at h' u _ ?_).2.mpr ?_
    · have q : Laid ((h'.tseq u).vals.map h'.span) := by rw [p.spans]; exact hlx
      refine List.Pairwise.imp (fun {a b} e => ?_) (List.pairwise_map.mp q.2)
      have : h'.stop a ≤ h'.start b := e
      unfold Overlap
      grind
    · intro r hr
      have := (hbefore r hr).1
      rw [sx.start, sx.stop]
      grind
  -- the new interval
  let r := h'.nE
  obtain ⟨k, hk⟩ : ∃ k, newEntry (h'.tcls u) (h'.start x) (h'.stop x) "" h' = .ok r k := ⟨_, rfl⟩
  have kd := hk
  unfold newEntry at kd
  injection kd with _ kd
  have knE : k.nE = h'.nE + 1 := by rw [← kd]
  have kct : k.ct = h.ct := by rw [← kd]; exact hct
  have ktc : k.tcls = h.tcls := by rw [← kd]; exact htc
  have kts : k.tseq = h'.tseq := by rw [← kd]
  have kold : ∀ y, y ≠ r → SameEntry h' k y ∧ k.cont y = h'.cont y := by
    intro y hy
    rw [← kd]
    refine ⟨⟨?_, ?_, ?_, ?_, ?_, ?_, ?_, ?_, ?_, ?_⟩, ?_⟩ <;> exact upd_ne _ _ _ _ hy
  have kr : k.cls r = h.tcls u ∧ k.start r = h.start x ∧ k.stop r = h.stop x ∧ k.label r = "" ∧ k.subs r = SL.empty ∧
      k.sup r = none := by
    rw [← kd]
    refine ⟨?_, ?_, ?_, ?_, ?_, ?_⟩
    · exact (upd_same _ _ _).trans (by rw [htc])
    · exact (upd_same _ _ _).trans sx.start
    · exact (upd_same _ _ _).trans sx.stop
    · exact upd_same _ _ _
    · exact upd_same _ _ _
    · exact upd_same _ _ _
  have hne : ∀ y ∈ (h'.tseq u).vals, y ≠ r := by
    intro y hy e
    have := ((hru y).mp hy).2
    rw [e] at this
    exact Nat.lt_irrefl _ this
  have kspans : ((h'.tseq u).vals ++ [r]).map k.span = (xs ++ [x]).map h.span := by
    rw [List.map_append, List.map_append, ← p.spans]
    congr 1
    · refine List.map_congr_left fun y hy => ?_
      have := (kold y (hne y hy)).1
      unfold Heap.span
      rw [this.start, this.stop]
    · simp only [List.map_cons, List.map_nil]
      unfold Heap.span
      rw [kr.2.1, kr.2.2.1]
  have hcls : ∀ y ∈ (k.tseq u).vals ++ [r], k.cls y = k.tcls u := by
    intro y hy
    rw [ktc]
    rcases List.mem_append.mp hy with hy | hy
    · rw [kts] at hy
      rw [(kold y (hne y hy)).1.cls]; exact (p.blank y hy).2.1
    · have : y = r := by simpa using hy
      rw [this]; exact kr.1
  have hlab : ∀ y ∈ (k.tseq u).vals ++ [r], k.label y = "" := by
    intro y hy
    rcases List.mem_append.mp hy with hy | hy
    · rw [kts] at hy
      rw [(kold y (hne y hy)).1.label]; exact (p.blank y hy).1
    · have : y = r := by simpa using hy
      rw [this]; exact kr.2.2.2.1
  have hndk : ((k.tseq u).vals ++ [r]).Nodup := by
    rw [kts, List.nodup_append]
    refine ⟨by rw [p.vals]; exact List.nodup_range', by simp, ?_⟩
    intro a ha b hb
    have : b = r := by simpa using hb
    rw [this]; exact hne a ha
  have htsup : ∃ s, k.tsup u = some s := by
    obtain ⟨c, hc, -⟩ := t.chain.top u rfl
    refine ⟨c, ?_⟩
    rw [← kd]
    show h'.tsup u = _
    rw [p.frame]; exact hc
  obtain ⟨s, hs⟩ := htsup
  obtain ⟨h'', e, a⟩ := tierAppendN_fresh 999 u r k s (by unfold Heap.isPointTier; rw [kct, ktc]; exact t.interval) hs
    (by
      rw [kts, ktc]
      cases xs with
      | nil => exact Or.inl (p.empty rfl)
      | cons _ _ => exact Or.inr (p.ecls (by simp)))
    hcls (fun y hy => by rw [hlab y hy]; decide) hndk (by
      rw [kts]
      rintro (q | ⟨y, hy, q⟩)
      · exact hne r q rfl
      · have h1 := q.2.2.1
        have h2 := hbefore y hy
        have h3 := (kold y (hne y hy)).1.stop
        rw [h3, kr.2.2.1] at h1
        grind) (by rw [kr.2.2.2.2.1]; rfl) kr.2.2.2.2.2
  refine ⟨h'', ?_, ?_⟩
  · unfold projectUp
    mstep M.get_apply h'
    mstep (show isSubO (h'.ct.sup (h'.cls x)) cTop h' = Res.ok false h' by
      rw [sx.cls, hct, t.aligned.cls l (by simp) x hx, t.classes.2]
      show Res.ok (h'.ct.isSub (h.tcls u) cTop) h' = _
      rw [hct, (t.chain.inner 0 u l rfl rfl).1])
    rw [if_neg (by simp), sx.intier, (t.alone x hx).2]
    dsimp only
    rw [tp.inD]
    dsimp only
    mstep tp.above
    mstep M.get_apply h'
    rw [hat]
    dsimp only
    mstep hk
    exact e
  · have hsort : slSort k ((k.tseq u).vals ++ [r]) = (h'.tseq u).vals ++ [r] := by
      rw [kts]
      exact slSort_of_sorted k _ (laid_sorted (by rw [kspans]; exact hl))
    have hq : h''.tseq = upd h'.tseq u ⟨(h'.tseq u).vals ++ [r], some (h.tcls u)⟩ := by
      rw [a.frame]
      show upd k.tseq u ⟨slSort k ((k.tseq u).vals ++ [r]), some (k.tcls u)⟩ = _
      rw [hsort, kts, ktc]
    have hqu : h''.tseq u = ⟨(h'.tseq u).vals ++ [r], some (h.tcls u)⟩ := by rw [hq, upd_same]
    have e1 : h''.start = k.start := by rw [a.frame]
    have e2 : h''.stop = k.stop := by rw [a.frame]
    have e3 : h''.label = k.label := by rw [a.frame]
    have e4 : h''.cls = k.cls := by rw [a.frame]
    have e5 : h''.subs = k.subs := by rw [a.frame]
    have e6 : h''.sup = k.sup := by rw [a.frame]
    have e7 : h''.nE = h'.nE + 1 := by rw [← knE, a.frame]
    have e8 : h''.cont = k.cont := by rw [a.frame]
    have hnm : ∀ y, y < h.nE ∨ h''.nE ≤ y → y ∉ (k.tseq u).vals ++ [r] := by
      intro y hy hm
      rw [kts] at hm
      rcases List.mem_append.mp hm with hm | hm
      · have := (hru y).mp hm
        romega
      · have : y = r := by simpa using hm
        have h1 : r = h'.nE := rfl
        have := p.nE
        romega
    refine ⟨?_, ?_, ?_, ?_, ?_, ?_, ?_, ?_, ?_⟩
    · rw [e7, p.nE, List.length_append]; simp; omega
    · have f1 := a.frame
      rw [← kd, p.frame] at f1
      rw [f1]
    · intro y hy
      have h1 : r = h'.nE := rfl
      have hyr : y ≠ r := by
        intro e
        have := p.nE
        rw [e] at hy
        romega
      have q0 := p.away y (by rcases hy with q | q; exact Or.inl q; right; romega)
      have q1 := kold y hyr
      have q2 := a.other y (hnm y hy)
      refine ⟨⟨?_, ?_, ?_, ?_, ?_, ?_, ?_, ?_, ?_, ?_⟩, ?_⟩
      · rw [e4, q1.1.cls, q0.1.cls]
      · rw [e1, q1.1.start, q0.1.start]
      · rw [e2, q1.1.stop, q0.1.stop]
      · rw [e3, q1.1.label, q0.1.label]
      · rw [q2.1, q1.1.fol, q0.1.fol]
      · rw [q2.2.1, q1.1.prev, q0.1.prev]
      · rw [e5, q1.1.subs, q0.1.subs]
      · rw [e6, q1.1.sup, q0.1.sup]
      · rw [a.intier, if_neg (hnm y hy), q1.1.intier, q0.1.intier]
      · rw [q2.2.2, q1.1.within, q0.1.within]
      · rw [e8, q1.2, q0.2]
    · intro v hv
      rw [hq, upd_ne _ _ _ _ hv, p.other v hv]
    · rw [hqu]
      show (h'.tseq u).vals ++ [r] = _
      rw [p.vals, List.length_append, show r = h.nE + xs.length from p.nE]
      simp [List.range'_concat]
    · intro _
      rw [hqu]
    · intro q
      simp at q
    · rw [hqu]
      have : h''.span = k.span := by funext y; unfold Heap.span; rw [e1, e2]
      rw [this]
      exact kspans
    · rw [hqu]
      intro y hy
      have hy' : y ∈ (k.tseq u).vals ++ [r] := by rw [kts]; exact hy
      rw [e3, e4, e5, e6, a.intier, if_pos hy', hlab y hy', hcls y hy', ktc]
      refine ⟨rfl, rfl, ?_, ?_, rfl⟩
      · rcases List.mem_append.mp hy with hy | hy
        · rw [(kold y (hne y hy)).1.subs]; exact (p.blank y hy).2.2.1
        · have : y = r := by simpa using hy
          rw [this, kr.2.2.2.2.1]; rfl
      · rcases List.mem_append.mp hy with hy | hy
        · rw [(kold y (hne y hy)).1.sup]; exact (p.blank y hy).2.2.2.1
        · have : y = r := by simpa using hy
          rw [this, kr.2.2.2.2.2]

/-- all intervals of the tier are copied to the tier above -/
theorem project_all {h : Heap} {g : GRef} {u l : TRef} {rest : List TRef} (t : EmptyTop h g u l rest) :
    ∀ (todo done : List Ref) (h' : Heap), (h.tseq l).vals = done ++ todo → Projected h h' u done →
    ∃ h'', M.forL todo (fun i => do
      let h ← M.get
      if entryWithinTruthy h i then pure () else projectUp i) h' = .ok () h'' ∧ Projected h h'' u (h.tseq l).vals := by
  intro todo
  induction todo with
  | nil =>
    intro done h' e p
    rw [List.append_nil] at e
    rw [e]
    exact ⟨h', rfl, p⟩
  | cons x todo ih =>
    intro done h' e p
    have hx : x ∈ (h.tseq l).vals := by rw [e]; simp
    have hlaid : Laid ((done ++ [x]).map h.span) := by
      have q := (t.tiers l (by simp)).laid
      rw [e, List.append_cons, List.map_append] at q
      exact ⟨fun p hp => q.1 p (List.mem_append.mpr (Or.inl hp)), (List.pairwise_append.mp q.2).1⟩
    obtain ⟨h1, e1, p1⟩ := projectUp_step t p hx hlaid
    obtain ⟨h2, e2, p2⟩ := ih (done ++ [x]) h1 (by rw [e]; simp) p1
    refine ⟨h2, ?_, p2⟩
    rw [M.forL_cons]
    have hstep : (do
        let h ← M.get
        if entryWithinTruthy h x then pure () else projectUp x : M Unit) h' = .ok () h1 := by
      mstep M.get_apply h'
      have : entryWithinTruthy h' x = false := by
        unfold entryWithinTruthy
        rw [(p.away x (Or.inl ((t.tiers l (by simp)).old x hx))).1.within, (t.alone x hx).1]
      rw [this]
      exact e1
    rw [hstep]
    exact e2

theorem Projected.unmoved {h h1 : Heap} {g : GRef} {u l : TRef} {rest : List TRef} (t : EmptyTop h g u l rest)
    {xs : List Ref} (p : Projected h h1 u xs) : Unmoved h h1 (l :: rest) := by
  have hu : ∀ v ∈ l :: rest, v ≠ u := by
    rintro v hv rfl
    exact (List.nodup_cons.mp t.chain.nodup).1 hv
  have ha : ∀ v ∈ l :: rest, ∀ x ∈ (h.tseq v).vals, SameEntry h h1 x ∧ h1.cont x = h.cont x := fun v hv x hx =>
    p.away x (Or.inl ((t.tiers v hv).old x hx))
  refine ⟨fun v hv => p.other v (hu v hv), fun v _ => by rw [p.frame], fun v _ => by rw [p.frame], ?_, ?_⟩
  · intro v hv x hx
    obtain ⟨a, -⟩ := ha v hv x hx
    exact ⟨a.start, a.stop, a.label, a.cls⟩
  · intro v hv x hx
    obtain ⟨a, b⟩ := ha v hv x hx
    exact ⟨by rw [a.subs], a.sup, a.within, b, a.fol, a.prev⟩

/-- the tiers with the copies -/
theorem Projected.stacked {h h1 : Heap} {g : GRef} {u l : TRef} {rest : List TRef} (t : EmptyTop h g u l rest)
    (td : TidyOn (OnTiers h (l :: rest)) h) (ac : Allocated h) (p : Projected h h1 u (h.tseq l).vals) :
    Stacked (OnTiers h1 (u :: l :: rest)) (fun _ => True) h1 g (u :: l :: rest) := by
  have m := p.unmoved t
  have hct : h1.ct = h.ct := by rw [p.frame]
  have htc : h1.tcls = h.tcls := by rw [p.frame]
  have hts : h1.tsub = h.tsub := by rw [p.frame]
  have hE : h.nE ≤ h1.nE := by rw [p.nE]; omega
  have hru : ∀ r, r ∈ (h1.tseq u).vals ↔ h.nE ≤ r ∧ r < h1.nE := by
    intro r
    rw [p.vals, List.mem_range'_1, p.nE]
  have hlt : ∀ v ∈ l :: rest, ∀ x ∈ (h1.tseq v).vals, x ∈ (h.tseq v).vals ∧ x < h.nE := by
    intro v hv x hx
    rw [m.tseq v hv] at hx
    exact ⟨hx, (t.tiers v hv).old x hx⟩
  have al1 := t.aligned.unmoved_on m hct
  have hlaid := (t.tiers l (by simp)).laid
  have hsp1 : (h1.tseq u).vals.map h1.span = (h1.tseq l).vals.map h1.span := by
    rw [p.spans, m.spans (by simp)]
  have hlaid1 : Laid ((h1.tseq l).vals.map h1.span) := by rw [m.spans (by simp)]; exact hlaid
  have hsubs : ∀ v, (h1.subs v).vals = (h.subs v).vals := by
    intro v
    by_cases q : v < h.nE ∨ h1.nE ≤ v
    · rw [(p.away v q).1.subs]
    · rw [(p.blank v ((hru v).mpr (by romega))).2.2.1]
      symm
      rw [List.eq_nil_iff_forall_not_mem]
      intro x hx
      have := (ac v x hx).1
      romega
  have hsup : ∀ v x, h1.sup x = some v → h.sup x = some v ∧ ¬ (h.nE ≤ x ∧ x < h1.nE) := by
    intro v x hx
    by_cases q : h.nE ≤ x ∧ x < h1.nE
    · rw [(p.blank x ((hru x).mpr q)).2.2.2.1] at hx
      cases hx
    · refine ⟨?_, q⟩
      rw [← (p.away x (by romega)).1.sup]; exact hx
  have hlow : ToBottom h1 (u :: l :: rest) := by
    intro v hv
    rw [hct, hts]
    refine t.low v ?_
    rw [List.getLast?_cons_cons] at hv
    exact hv
  refine ⟨⟨?_, ?_, ?_, by simp, ?_, ?_, ⟨?_, ?_, ?_, ?_, ?_⟩, ?_, ?_, fun q => absurd hlow q⟩, ⟨?_, ?_, ?_, ?_, ?_, ?_⟩, ?_, ?_, ?_, ?_, ?_⟩
  · rw [p.frame]; exact t.gtiers
  · rw [p.frame]; exact fun _ => t.gcont
  · rw [p.frame]; exact t.gpoint
  · exact t.chain.congr htc hts (by rw [p.frame]) hct
  · intro v hv
    cases hv
    rw [hct, htc]; exact t.top
  · -- no entry twice
    rw [List.map_cons, List.flatten_cons, List.nodup_append]
    refine ⟨by rw [p.vals]; exact List.nodup_range', al1.once, ?_⟩
    intro a ha b hb e
    obtain ⟨L, hL, hb⟩ := List.mem_flatten.mp hb
    obtain ⟨v, hv, rfl⟩ := List.mem_map.mp hL
    have h1 := (hlt v hv b hb).2
    have h2 := ((hru a).mp ha).1
    romega
  · intro v hv x hx
    rcases List.mem_cons.mp hv with rfl | hv
    · rw [htc]; exact (p.blank x hx).2.1
    · exact al1.cls v hv x hx
  · intro v hv x hx
    rcases List.mem_cons.mp hv with rfl | hv
    · rw [(p.blank x hx).1]; decide
    · exact al1.label v hv x hx
  · intro i v v' g1 g2
    match i with
    | 0 =>
      cases g1; cases g2
      rw [hct, htc]; exact t.classes.1
    | i + 1 => exact al1.chain i v v' g1 g2
  · intro i v v' g1 g2
    match i with
    | 0 =>
      cases g1; cases g2
      exact (Aligned.copy hsp1 (List.pairwise_map.mp hlaid1.2) fun x hx => hlaid1.1 (h1.span x) (List.mem_map_of_mem hx)).2
    | i + 1 => exact al1.aligned i v v' g1 g2
  · intro v hv
    rcases List.mem_cons.mp hv with rfl | hv
    · refine ⟨fun x hx => ((hru x).mp hx).2, ?_, ?_, ?_⟩
      · rw [htc]; exact p.ecls t.ne
      · rw [hsp1]; exact hlaid1
      · rw [p.spans]
        intro hg x hx
        have : h1.span x ∈ (h.tseq l).vals.map h.span := by rw [← p.spans]; exact List.mem_map_of_mem hx
        obtain ⟨y, hy, e⟩ := List.mem_map.mp this
        have := (t.tiers l (by simp)).pos hg y hy
        have e' : h.start y = h1.start x := congrArg Prod.fst e
        rw [← e']; exact this
    · exact (t.tiers v hv).unmoved m hv hE
  · rw [show h1.twithin = h.twithin by rw [p.frame]]; exact fun _ => t.twithin
  · intro v x hx
    rw [hsubs v] at hx
    rw [(p.away x (Or.inl (ac v x hx).2)).1.sup]
    exact td.down v x hx
  · intro v x hL hx
    rw [hsubs v]
    obtain ⟨q1, q2⟩ := hsup v x hx
    refine td.up v x ?_ q1
    obtain ⟨w, hw, hx⟩ := hL
    rcases List.mem_cons.mp hw with rfl | hw
    · exact absurd ((hru x).mp hx) q2
    · exact ⟨w, hw, (hlt w hw x hx).1⟩
  · intro v; rw [hsubs v]; exact td.nodup v
  · intro v x hx y hy q
    rw [hsubs v] at hx hy
    have sx := (p.away x (Or.inl (ac v x hx).2)).1
    have sy := (p.away y (Or.inl (ac v y hy).2)).1
    refine td.distinct v x hx y hy ?_
    unfold SameValue Heap.isPoint at *
    rw [sx.cls, sy.cls, sx.start, sy.start, sx.stop, sy.stop, sx.label, sy.label, hct] at q
    exact q
  · intro v x hx y hy
    rw [hsubs v] at hx hy
    rw [(p.away x (Or.inl (ac v x hx).2)).1.cls, (p.away y (Or.inl (ac v y hy).2)).1.cls]
    exact td.cls v x hx y hy
  · intro v x hx
    rw [hsubs v] at hx
    rw [(p.away x (Or.inl (ac v x hx).2)).1.label]
    exact td.label v x hx
  · intro v x hx
    rw [hsubs v] at hx
    have := ac v x hx
    constructor <;> romega
  · intro x hx; exact mem_entriesOf.mp hx
  · intro _ _; trivial
  · intro _ _ _; exact ⟨fun _ => trivial, fun _ => trivial⟩
  · intro i v v' g1 g2 w hw x hx
    match i with
    | 0 =>
      cases g1
      rw [(p.blank w hw).2.2.1] at hx
      cases hx
    | i + 1 =>
      obtain ⟨a, ha, hx⟩ := mem_entriesOf.mp ((t.related.unmoved m).inner i v v' g1 g2 w hw x hx)
      exact mem_entriesOf.mpr ⟨a, by simp [List.mem_cons.mp ha], hx⟩

/-- the whole cleanup of such a group -/
theorem emptyTop_run {h : Heap} {g : GRef} {u l : TRef} {rest : List TRef} (t : EmptyTop h g u l rest)
    (td : TidyOn (OnTiers h (l :: rest)) h) (ac : Allocated h) :
    ∃ h1 h2 h', groupCleanup g h = .ok () h' ∧ Projected h h1 u (h.tseq l).vals ∧ SameContents h1 h2 ∧
      Swept h1 h2 g (u :: l :: rest) (fun _ => True) ∧
      Stacked (OnTiers h1 (u :: l :: rest)) (fun _ => True) h2 g (u :: l :: rest) ∧
      RelatedByContainment h2 (u :: l :: rest) ∧ sweepRest g ((u :: l :: rest).any (loose h2)) h2 = .ok () h' := by
  obtain ⟨h1, e1, p⟩ := project_all t (h.tseq l).vals [] h rfl (Projected.start h u t.empty)
  have k1 := p.stacked t td ac
  obtain ⟨h2, e2, rs, k2, r2⟩ := k1.again
  have s := rs.same
  have m := p.unmoved t
  obtain ⟨h', e3, -⟩ := sweepRest_run k2 r2 (fun _ _ => trivial)
  refine ⟨h1, h2, h', ?_, p, s, rs.swept, k2, r2, e3⟩
  have hl2 : loose h2 l = loose h l := by
    rw [loose_congr s]
    unfold loose Heap.tstarts Heap.tends
    rw [m.tseq l (by simp), List.map_congr_left fun x hx => (m.value l (by simp) x hx).1,
      List.map_congr_left fun x hx => (m.value l (by simp) x hx).2.1]
  have hu2 : loose h2 u = loose h2 l := by
    have hsp : (h2.tseq u).vals.map h2.span = (h2.tseq l).vals.map h2.span := by
      have : h2.span = h1.span := by funext x; unfold Heap.span; rw [s.start, s.stop]
      rw [this, s.tseq, p.spans, m.spans (by simp)]
    have a1 : ∀ v, h2.tstarts v = ((h2.tseq v).vals.map h2.span).map Prod.fst := by
      intro v; unfold Heap.tstarts; rw [List.map_map]; rfl
    have a2 : ∀ v, h2.tends v = ((h2.tseq v).vals.map h2.span).map Prod.snd := by
      intro v; unfold Heap.tends; rw [List.map_map]; rfl
    unfold loose
    rw [a1, a2, a1, a2, hsp]
  have hscanU : cleanupScan g u h = .ok false h := by
    unfold cleanupScan
    mstep M.get_apply h
    rw [if_neg (by rw [(t.chain.inner 0 u l rfl rfl).1]; simp)]
    unfold Heap.tstarts Heap.tends
    rw [t.empty]
    rfl
  have hscanL : cleanupScan g l h = .ok (loose h l) h2 := by
    unfold cleanupScan
    mstep M.get_apply h
    rw [if_neg (by rw [t.notTop]; simp), if_pos (by
      obtain ⟨x, hx⟩ := List.exists_mem_of_ne_nil _ t.ne
      refine List.any_eq_true.mpr ⟨x, hx, ?_⟩
      unfold entryWithinTruthy
      rw [(t.alone x hx).1]
      rfl)]
    mstep e1
    mstep e2
    rfl
  unfold groupCleanup
  mstep M.get_apply h
  rw [t.gtiers]
  have hall : cleanupScanAll g (u :: l :: rest) false h = .ok ((u :: l :: rest).any (loose h2)) h2 := by
    unfold cleanupScanAll
    mstep hscanU
    unfold cleanupScanAll
    mstep hscanL
    rw [cleanupScanAll_lower r2 rest 1 _ rfl, List.any_cons, List.any_cons, hu2, hl2]
    cases loose h l <;> simp
  mstep hall
  exact e3

end ATG
