import Verif.Lemmas.TierInit
import Verif.Model.Textgrid
/-!
# Casting the tiers of a group to other classes
-/
namespace ATG

/-- what a replaced list object is to the `contains` that refers to it -/
def leftBehind (h : Heap) (t : TRef) : Contains := match h.tcont t with
  | .alias => .detached (h.tseq t).vals
  | c => c

theorem leftBehind_ne (h : Heap) (t : TRef) : leftBehind h t ≠ .alias := by
  unfold leftBehind
  cases h.tcont t <;> simp

theorem replaceSeq_any (t : TRef) (sl : SL) (h : Heap) : replaceSeq t sl h =
    .ok () { h with tcont := upd h.tcont t (leftBehind h t), tseq := upd h.tseq t sl } := rfl

theorem replaceSeq_plain (t : TRef) (sl : SL) (h : Heap) (hc : h.tcont t ≠ .alias) :
    replaceSeq t sl h = .ok () { h with tseq := upd h.tseq t sl } := by
  rw [replaceSeq_any]
  have : leftBehind h t = h.tcont t := by
    unfold leftBehind
    cases e : h.tcont t <;> first | rfl | exact absurd e hc
  rw [this, upd_eq_self _ _ _ rfl]

/-- `SequenceTier.__init__` on a tier that may have been initialised before -/
theorem tierInit_any (t : TRef) (L : List Ref) (c s : CRef) (name : String) (h : Heap)
    (hci : h.ct.isSub c cPoint = false) (hs : h.ct.sup c = some s)
    (hp : ∀ x ∈ L, h.isPoint x = false) (hnd : L.Nodup) (hl : ∀ x ∈ L, h.label x ≠ "#") (hso : SortedByStart h L) :
    tierInit t L c name h = .ok () (tierBuilt { h with tcont := upd h.tcont t (leftBehind h t) } t L c s name) := by
  have hd := leftBehind_ne h t
  generalize hdd : leftBehind h t = d at *
  unfold tierInit
  mstep M.modify_apply _ h
  mstep (show replaceSeq t SL.empty _ = .ok () { h with
      tname := upd h.tname t name, tseq := upd h.tseq t SL.empty, tcont := upd h.tcont t d } by
    rw [replaceSeq_any, ← hdd]; rfl)
  mstep M.modify_apply _ _
  mstep forL_castAll c L _ (by intro x hx; exact hci.trans (hp x hx).symm)
  mstep slMk_cls _ h L c (by intro x hx; simp [castAll, hx]) rfl
  rw [slSort_of_sorted _ L hso]
  simp only [castAll, hs]
  unfold tierSetSeq
  mstep (show _ = Res.ok () (tierBuilt { h with tcont := upd h.tcont t d } t L c s name) by
    mstep M.get_apply _
    rw [if_neg (by simp [Heap.isPointTier, hci])]
    mstep slMk_cls _ h L c (by intro x hx; simp [hx]) rfl
    rw [slSort_of_sorted _ L hso]
    mstep replaceSeq_plain t _ _ (by show upd h.tcont t d t ≠ _; rw [upd_same]; exact hd)
    rw [tierPrecedence_ok t _ s (by simp [Heap.isPointTier, hci]) (by simp) (by simpa using hnd)
      (by simp only [upd_same]; intro x hx y hy; simp [hx, hy])
      (by simpa using hl)]
    simp [tierBuilt, upd_upd])
  rw [tierPrecedence_ok t (tierBuilt _ t L c s name) s (by simp [Heap.isPointTier, tierBuilt, hci])
      (by simp [tierBuilt]) (by simpa [tierBuilt] using hnd)
      (by simp only [tierBuilt, upd_same]; intro x hx y hy; simp [hx, hy])
      (by simpa [tierBuilt] using hl)]
  congr 1
  simp only [tierBuilt, upd_same, folOf_idem, prevOf_idem]
  congr 1
  · funext r; split <;> simp_all
  · by_cases e : h.ct.isSub s cTop = true
    · simp only [e, if_true]; funext r; split <;> simp_all
    · simp only [e]; simp
  · by_cases e : h.ct.isSub s cTop = true
    · simp only [e, if_true, upd_upd]
    · simp only [e]; simp

/-- what casting tiers, given with their new classes, does -/
structure Recast (h h' : Heap) (ps : List (CRef × TRef)) : Prop where
  frame : h' = { h with cls := h'.cls, fol := h'.fol, prev := h'.prev, intier := h'.intier, within := h'.within,
                        tname := h'.tname, tcls := h'.tcls, tsup := h'.tsup, tsub := h'.tsub, tseq := h'.tseq,
                        tcont := h'.tcont }
  tier : ∀ p ∈ ps, h'.tname p.2 = h.ct.name p.1 ∧ h'.tcls p.2 = p.1 ∧ h'.tsup p.2 = h.ct.sup p.1 ∧
    h'.tsub p.2 = h.ct.sub p.1 ∧ h'.tseq p.2 = ⟨(h.tseq p.2).vals, if (h.tseq p.2).vals = [] then none else some p.1⟩
  cls : ∀ p ∈ ps, ∀ x ∈ (h.tseq p.2).vals, h'.cls x = p.1
  otherTier : ∀ t, (∀ p ∈ ps, p.2 ≠ t) → h'.tname t = h.tname t ∧ h'.tcls t = h.tcls t ∧ h'.tsup t = h.tsup t ∧
    h'.tsub t = h.tsub t ∧ h'.tseq t = h.tseq t ∧ h'.tcont t = h.tcont t
  other : ∀ x, (∀ p ∈ ps, x ∉ (h.tseq p.2).vals) → h'.cls x = h.cls x ∧ h'.fol x = h.fol x ∧ h'.prev x = h.prev x ∧
    h'.intier x = h.intier x ∧ h'.within x = h.within x

/-- one tier of a group in `AlignedTextGrid.append` -/
def recastStep (g : GRef) (p : CRef × TRef) : M Unit := do
  let h ← M.get
  let entries := (h.tseq p.2).vals
  M.forL entries (fun x => castTo p.1 x)
  if h.gpoint g then pointTierInit p.2 entries p.1 (h.ct.name p.1)
  else tierInit p.2 entries p.1 (h.ct.name p.1)

theorem recastStep_run (g : GRef) (p : CRef × TRef) (h : Heap) (hg : h.gpoint g = false)
    (hc : h.ct.isSub p.1 cPoint = false ∧ ∃ s, h.ct.sup p.1 = some s)
    (hx : ∀ x ∈ (h.tseq p.2).vals, h.isPoint x = false ∧ h.label x ≠ "#") (hnd : (h.tseq p.2).vals.Nodup)
    (hso : SortedByStart h (h.tseq p.2).vals) : ∃ h', recastStep g p h = .ok () h' ∧ Recast h h' [p] := by
  obtain ⟨hci, s, hs⟩ := hc
  obtain ⟨c, t⟩ := p
  dsimp only at *
  generalize hL : (h.tseq t).vals = L at *
  have e1 := forL_castAll c L h (by intro x hm; rw [(hx x hm).1]; exact hci)
  have e2 := tierInit_any t L c s (h.ct.name c) (castAll h L c) hci hs
    (by
      intro x hm
      unfold Heap.isPoint
      simp only [castAll, if_pos hm]
      exact hci) hnd (fun x hm => (hx x hm).2) hso
  refine ⟨tierBuilt { castAll h L c with tcont := upd h.tcont t (leftBehind (castAll h L c) t) } t L c s (h.ct.name c),
    ?_, ?_, ?_, ?_, ?_, ?_⟩
  · unfold recastStep
    mstep M.get_apply h
    dsimp only
    rw [hL]
    mstep e1
    rw [hg]
    exact e2
  · simp only [tierBuilt, castAll]
  · intro p hp
    rw [List.mem_singleton.mp hp]
    refine ⟨upd_same _ _ _, upd_same _ _ _, (upd_same _ _ _).trans hs.symm, upd_same _ _ _, (upd_same _ _ _).trans ?_⟩
    rw [hL]
  · intro p hp x hm
    rw [List.mem_singleton.mp hp] at hm ⊢
    rw [hL] at hm
    simp only [tierBuilt, if_pos hm]
  · intro t' ht
    have ht : t' ≠ t := fun e => ht (c, t) (by simp) e.symm
    simp only [tierBuilt]
    refine ⟨upd_ne _ _ _ _ ht, upd_ne _ _ _ _ ht, upd_ne _ _ _ _ ht, upd_ne _ _ _ _ ht, upd_ne _ _ _ _ ht, ?_⟩
    split
    · rw [upd_ne _ _ _ _ ht, upd_ne _ _ _ _ ht]
    · rw [upd_ne _ _ _ _ ht]
  · intro x hm
    have hm : x ∉ L := by rw [← hL]; exact hm (c, t) (by simp)
    refine ⟨by simp [tierBuilt, castAll, hm], by simp [tierBuilt, castAll, folOf, hm], by simp [tierBuilt, castAll, prevOf, hm],
      by simp [tierBuilt, castAll, hm], ?_⟩
    show (if h.ct.isSub s cTop then (fun r => if r ∈ L then some (Owner.tier t) else h.within r) else h.within) x = _
    by_cases e : h.ct.isSub s cTop = true
    · rw [if_pos e]; exact if_neg hm
    · rw [if_neg e]

theorem recast_run (g : GRef) : ∀ (ps : List (CRef × TRef)) (h : Heap), h.gpoint g = false →
    (∀ p ∈ ps, h.ct.isSub p.1 cPoint = false ∧ ∃ s, h.ct.sup p.1 = some s) →
    (∀ p ∈ ps, ∀ x ∈ (h.tseq p.2).vals, h.isPoint x = false ∧ h.label x ≠ "#") →
    (ps.map Prod.snd).Nodup → (ps.map fun p => (h.tseq p.2).vals).flatten.Nodup →
    (∀ p ∈ ps, SortedByStart h (h.tseq p.2).vals) → ∃ h', M.forL ps (recastStep g) h = .ok () h' ∧ Recast h h' ps
  | [], h, _, _, _, _, _, _ => ⟨h, rfl, rfl, by simp, by simp, fun _ _ => ⟨rfl, rfl, rfl, rfl, rfl, rfl⟩,
      fun _ _ => ⟨rfl, rfl, rfl, rfl, rfl⟩⟩
  | p :: ps, h, hg, hc, hx, hnt, hnd, hso => by
    rw [List.map_cons, List.nodup_cons] at hnt
    rw [List.map_cons, List.flatten_cons, List.nodup_append] at hnd
    obtain ⟨hn1, hn2, hn3⟩ := hnd
    obtain ⟨h1, e1, r1⟩ := recastStep_run g p h hg (hc p (by simp)) (hx p (by simp)) hn1 (hso p (by simp))
    have hpt : ∀ q ∈ ps, ∀ p' ∈ [p], p'.2 ≠ q.2 := by
      intro q hq p' hp' e
      rw [List.mem_singleton.mp hp'] at e
      exact hnt.1 (e ▸ List.mem_map_of_mem hq)
    have hq1 : ∀ q ∈ ps, h1.tseq q.2 = h.tseq q.2 := fun q hq => (r1.otherTier q.2 (hpt q hq)).2.2.2.2.1
    have hqx : ∀ q ∈ ps, ∀ x ∈ (h.tseq q.2).vals, ∀ p' ∈ [p], x ∉ (h.tseq p'.2).vals := by
      intro q hq x hm p' hp' hm'
      rw [List.mem_singleton.mp hp'] at hm'
      exact hn3 x hm' x (List.mem_flatten.mpr ⟨_, List.mem_map_of_mem hq, hm⟩) rfl
    have hct : h1.ct = h.ct := by rw [r1.frame]
    have hlb : h1.label = h.label := by rw [r1.frame]
    have hst : h1.start = h.start := by rw [r1.frame]
    obtain ⟨h2, e2, r2⟩ := recast_run g ps h1 (by rw [r1.frame]; exact hg) (by rw [hct]; exact fun q hq => hc q (by simp [hq]))
      (by
        intro q hq x hm
        rw [hq1 q hq] at hm
        have := hx q (by simp [hq]) x hm
        unfold Heap.isPoint at this ⊢
        rw [hct, hlb, (r1.other x (hqx q hq x hm)).1]
        exact this)
      hnt.2
      (by
        rw [List.map_congr_left fun q hq => by rw [hq1 q hq]]
        exact hn2)
      (by
        intro q hq
        have := hso q (by simp [hq])
        rw [hq1 q hq]
        unfold SortedByStart at this ⊢
        rw [hst]
        exact this)
    refine ⟨h2, ?_, ?_, ?_, ?_, ?_, ?_⟩
    · rw [M.forL_cons, e1]; exact e2
    · rw [r2.frame, r1.frame]
    · intro q hq
      rcases List.mem_cons.mp hq with rfl | hq
      · have o := r2.otherTier q.2 fun p' hp' e => hnt.1 (e ▸ List.mem_map_of_mem hp')
        have k := r1.tier q (by simp)
        rw [o.1, o.2.1, o.2.2.1, o.2.2.2.1, o.2.2.2.2.1]
        exact k
      · have k := r2.tier q hq
        rw [hct, hq1 q hq] at k
        exact k
    · intro q hq x hm
      rcases List.mem_cons.mp hq with rfl | hq
      · rw [(r2.other x fun p' hp' hm' => by
          rw [hq1 p' hp'] at hm'
          exact hqx p' hp' x hm' q (by simp) hm).1]
        exact r1.cls q (by simp) x hm
      · exact r2.cls q hq x (by rw [hq1 q hq]; exact hm)
    · intro t ht
      have o1 := r1.otherTier t fun p' hp' => by
        rw [List.mem_singleton.mp hp']; exact ht p (by simp)
      have o2 := r2.otherTier t fun p' hp' => ht p' (by simp [hp'])
      rw [o2.1, o2.2.1, o2.2.2.1, o2.2.2.2.1, o2.2.2.2.2.1, o2.2.2.2.2.2]
      exact o1
    · intro x hm
      have o1 := r1.other x fun p' hp' => by
        rw [List.mem_singleton.mp hp']; exact hm p (by simp)
      have o2 := r2.other x fun p' hp' => by rw [hq1 p' hp']; exact hm p' (by simp [hp'])
      rw [o2.1, o2.2.1, o2.2.2.1, o2.2.2.2.1, o2.2.2.2.2]
      exact o1

end ATG
