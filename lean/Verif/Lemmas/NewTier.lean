import Verif.Lemmas.GridSweep
import Verif.Lemmas.AddTiers
import Verif.Lemmas.InterleaveRun
import Verif.Model.Textgrid
/-!
# New tiers beside old groups
-/
namespace ATG

/-- the heap after `SequenceTier(raw, c)` with the given name, on a tier with entries -/
structure TierNew (h h' : Heap) (c s : CRef) (name : String) (raw : List (Time × Time × String)) : Prop where
  frame : h' = { h with nE := h'.nE, cls := h'.cls, start := h'.start, stop := h'.stop, label := h'.label,
                        fol := h'.fol, prev := h'.prev, subs := h'.subs, sup := h'.sup, intier := h'.intier,
                        within := h'.within, cont := h'.cont, nT := h.nT + 1, tseq := h'.tseq,
                        tname := h'.tname, tcls := h'.tcls, tsup := h'.tsup, tsub := h'.tsub,
                        twithin := h'.twithin, tcont := h'.tcont }
  nE : h'.nE = h.nE + raw.length
  tseq : h'.tseq h.nT = ⟨List.range' h.nE raw.length, some c⟩
  values : (List.range' h.nE raw.length).map (fun r => (h'.start r, h'.stop r, h'.label r)) = raw
  tname : h'.tname h.nT = name
  tcls : h'.tcls h.nT = c
  tsup : h'.tsup h.nT = some s
  tsub : h'.tsub h.nT = h.ct.sub c
  twithin : h'.twithin h.nT = none
  fresh : ∀ r ∈ List.range' h.nE raw.length, h'.cls r = c ∧ (h'.subs r).vals = [] ∧ h'.sup r = none
  old : ∀ r, r ∉ List.range' h.nE raw.length → h'.cls r = h.cls r ∧ h'.start r = h.start r ∧ h'.stop r = h.stop r ∧
    h'.label r = h.label r ∧ h'.fol r = h.fol r ∧ h'.prev r = h.prev r ∧ h'.subs r = h.subs r ∧
    h'.sup r = h.sup r ∧ h'.within r = h.within r ∧ h'.cont r = h.cont r
  other : ∀ u, u ≠ h.nT → h'.tseq u = h.tseq u ∧ h'.tname u = h.tname u ∧ h'.tcls u = h.tcls u ∧
    h'.tsup u = h.tsup u ∧ h'.tsub u = h.tsub u ∧ h'.twithin u = h.twithin u
  intier : ∀ r, r ∉ List.range' h.nE raw.length → h'.intier r = h.intier r
  home : ∀ r ∈ List.range' h.nE raw.length, h'.intier r = some h.nT
  linked : DoublyLinked h' (List.range' h.nE raw.length)
  rooted : h.ct.isSub s cTop = true → ∀ r ∈ List.range' h.nE raw.length, h'.within r = some (.tier h.nT)

theorem newTierFrom_run (raw : List (Time × Time × String)) (c s : CRef) (name : String) (h : Heap)
    (hci : h.ct.isSub c cPoint = false) (hs : h.ct.sup c = some s) (hne : raw ≠ [])
    (hlab : ∀ p ∈ raw, p.2.2 ≠ "#") (hsorted : raw.Pairwise fun a b => a.1 ≤ b.1) :
    ∃ h', newTierFrom raw c name h = .ok h.nT h' ∧ TierNew h h' c s name raw := by
  let h1 : Heap := { h with
    nT := h.nT + 1
    tseq := upd h.tseq h.nT SL.empty
    tcont := upd h.tcont h.nT .unset
    twithin := upd h.twithin h.nT none }
  obtain ⟨rs, h2, e2, hrs, hn2, hmap, hnew, hold, hfr⟩ := newEntries_ok c raw h1
  have helse := newEntries_else c raw h1 rs h2 e2
  have hct : h2.ct = h.ct := by rw [hfr]
  have hnd : rs.Nodup := by rw [hrs]; exact List.nodup_range'
  have hrs' : rs = List.range' h.nE raw.length := hrs
  have hrne : rs ≠ [] := by
    intro q
    rw [q] at hmap
    exact hne hmap.symm
  have e3 := tierInit_ok h.nT rs c s name h2 (by rw [hfr]; exact upd_same _ _ _) (by rw [hct]; exact hci) (by rw [hct]; exact hs)
    (by intro x hx; simp [Heap.isPoint, (hnew x hx).1, hct, hci]) hnd (by
      intro x hx
      have := List.mem_map_of_mem (f := fun r => (h2.start r, h2.stop r, h2.label r)) hx
      rw [hmap] at this
      exact hlab _ this)
  have hsort : slSort h2 rs = rs := by
    apply slSort_of_sorted
    have : (rs.map fun r => (h2.start r, h2.stop r, h2.label r)).Pairwise fun a b => a.1 ≤ b.1 := by
      rw [hmap]; exact hsorted
    rw [List.pairwise_map] at this
    exact this
  rw [hsort] at e3
  refine ⟨tierBuilt h2 h.nT rs c s name, ?_, ?_, hn2, ?_, ?_, upd_same _ _ _, upd_same _ _ _, upd_same _ _ _, ?_, ?_, ?_, ?_, ?_, ?_,
    ?_, ?_, ?_⟩
  · unfold newTierFrom
    mstep (show newTierObj h = .ok h.nT h1 from rfl)
    mstep e2
    mstep e3
    rfl
  · unfold tierBuilt
    rw [hfr]
  · rw [← hrs']
    unfold tierBuilt
    simp only
    rw [if_neg hrne, upd_same]
  · rw [← hrs']; exact hmap
  · unfold tierBuilt
    simp only
    rw [upd_same, hct]
  · show h2.twithin h.nT = none
    rw [hfr]
    exact upd_same _ _ _
  · rw [← hrs']
    intro r hr
    obtain ⟨a1, a2, a3, -⟩ := hnew r hr
    exact ⟨if_pos hr, by show (h2.subs r).vals = []; rw [a2]; rfl, a3⟩
  · rw [← hrs']
    intro r hr
    obtain ⟨a1, a2, a3, a4, a5, a6, a7, a8, a9, a10, a11⟩ := helse r hr
    refine ⟨(if_neg hr).trans a1, a2, a3, a4, ?_, ?_, a7, a8, ?_, a11⟩
    · show folOf rs h2.fol r = h.fol r
      rw [folOf_notMem rs _ r hr]; exact a5
    · show prevOf none rs h2.prev r = h.prev r
      rw [prevOf_notMem _ _ _ r hr]; exact a6
    · unfold tierBuilt
      simp only
      split
      · exact (if_neg hr).trans a10
      · exact a10
  · intro u hu
    have hq : h2.tseq u = h.tseq u ∧ h2.tname u = h.tname u ∧ h2.tcls u = h.tcls u ∧ h2.tsup u = h.tsup u ∧
        h2.tsub u = h.tsub u ∧ h2.twithin u = h.twithin u := by
      rw [hfr]
      exact ⟨upd_ne _ _ _ _ hu, rfl, rfl, rfl, rfl, upd_ne _ _ _ _ hu⟩
    obtain ⟨q1, q2, q3, q4, q5, q6⟩ := hq
    exact ⟨(upd_ne _ _ _ _ hu).trans q1, (upd_ne _ _ _ _ hu).trans q2, (upd_ne _ _ _ _ hu).trans q3,
      (upd_ne _ _ _ _ hu).trans q4, (upd_ne _ _ _ _ hu).trans q5, q6⟩
  · rw [← hrs']
    intro r hr
    obtain ⟨a1, a2, a3, a4, a5, a6, a7, a8, a9, a10, a11⟩ := helse r hr
    exact (if_neg hr).trans a9
  · rw [← hrs']
    exact fun r hr => if_pos hr
  · rw [← hrs']
    exact linked_of _ _ hnd h2.fol h2.prev rfl rfl
  · rw [← hrs']
    intro ht r hr
    unfold tierBuilt
    simp only
    rw [hct, if_pos ht]
    exact if_pos hr

theorem ClassChain.congr_on {h h' : Heap} {ts : List TRef} (c : ClassChain h ts) (hct : h'.ct = h.ct)
    (e : ∀ t ∈ ts, h'.tcls t = h.tcls t ∧ h'.tsup t = h.tsup t ∧ h'.tsub t = h.tsub t) : ClassChain h' ts := by
  refine ⟨?_, ?_, ?_, ?_, ?_⟩
  · rw [List.map_congr_left fun t ht => (e t ht).1]; exact c.distinct
  · intro i t t' h1 h2
    obtain ⟨a1, a2, a3⟩ := e t (List.mem_of_getElem? h1)
    obtain ⟨b1, b2, b3⟩ := e t' (List.mem_of_getElem? h2)
    rw [a3, b1, b2, a1]; exact c.down i t t' h1 h2
  · intro i t t' h1 h2
    obtain ⟨a1, a2, a3⟩ := e t (List.mem_of_getElem? h1)
    obtain ⟨b1, b2, b3⟩ := e t' (List.mem_of_getElem? h2)
    rw [hct, a1, b1]; exact c.inner i t t' h1 h2
  · intro t ht
    obtain ⟨a1, a2, a3⟩ := e t (List.mem_of_getElem? ht)
    rw [a2, hct]
    obtain ⟨d, hd, q⟩ := c.top t ht
    refine ⟨d, hd, q.imp id fun k t' ht' => ?_⟩
    rw [(e t' ht').1]; exact k t' ht'
  · intro t ht
    obtain ⟨a1, a2, a3⟩ := e t (List.mem_of_getElem? ht)
    rw [a3, hct]
    obtain ⟨d, hd, q⟩ := c.bottom t ht
    refine ⟨d, hd, q.imp id fun k t' ht' => ?_⟩
    rw [(e t' ht').1]; exact k t' ht'

theorem AlignedTiers.unmoved_on {h h' : Heap} {ts : List TRef} (a : AlignedTiers h ts) (m : Unmoved h h' ts)
    (hct : h'.ct = h.ct) : AlignedTiers h' ts := by
  refine ⟨?_, ?_, ?_, ?_, ?_⟩
  · rw [show (ts.map fun t => (h'.tseq t).vals) = ts.map fun t => (h.tseq t).vals from
      List.map_congr_left fun t ht => by rw [m.tseq t ht]]
    exact a.once
  · intro t ht x hx
    rw [m.tseq t ht] at hx
    rw [(m.value t ht x hx).2.2.2, m.tcls t ht]
    exact a.cls t ht x hx
  · intro t ht x hx
    rw [m.tseq t ht] at hx
    rw [(m.value t ht x hx).2.2.1]
    exact a.label t ht x hx
  · intro i t t' h1 h2
    rw [hct, m.tcls t (List.mem_of_getElem? h1), m.tcls t' (List.mem_of_getElem? h2)]
    exact a.chain i t t' h1 h2
  · intro i t t' e1 e2
    exact (a.aligned i t t' e1 e2).of_spans (m.spans (List.mem_of_getElem? e1)) (m.spans (List.mem_of_getElem? e2))

theorem Fillable.unmoved {h h' : Heap} {ts : List TRef} {t : TRef} (f : Fillable h t) (m : Unmoved h h' ts) (ht : t ∈ ts)
    (hE : h.nE ≤ h'.nE) : Fillable h' t := by
  refine ⟨?_, ?_, ?_, ?_⟩
  · intro x hx
    rw [m.tseq t ht] at hx
    exact Nat.lt_of_lt_of_le (f.old x hx) hE
  · rw [m.tseq t ht, m.tcls t ht]; exact f.ecls
  · rw [m.spans ht]; exact f.laid
  · rw [m.spans ht]
    intro hg x hx
    rw [m.tseq t ht] at hx
    rw [(m.value t ht x hx).1]
    exact f.pos hg x hx

theorem GapGroup.kept {h h' : Heap} {g : GRef} {ts : List TRef} (a : GapGroup h g ts) (m : Unmoved h h' ts)
    (hct : h'.ct = h.ct) (hE : h.nE ≤ h'.nE)
    (ht : ∀ t ∈ ts, h'.tsup t = h.tsup t ∧ h'.tsub t = h.tsub t ∧ h'.twithin t = h.twithin t)
    (hg : h'.gtiers g = h.gtiers g) (hc : h'.gcont g = h.gcont g) (hp : h'.gpoint g = h.gpoint g) : GapGroup h' g ts := by
  have hlow : ToBottom h' ts ↔ ToBottom h ts := ToBottom.congr hct fun t h1 => (ht t h1).2.1
  refine { toTierStack := ⟨hg.trans a.gtiers, fun q => hc.trans (a.gcont (hlow.mp q)), hp.trans a.gpoint, a.ne, ?_, ?_,
    a.aligned.unmoved_on m hct, ?_, ?_, ?_⟩, related := a.related.unmoved m }
  · exact a.chain.congr_on hct fun t ht' => ⟨m.tcls t ht', (ht t ht').1, (ht t ht').2.1⟩
  · intro t h0
    rw [hct, m.tcls t (List.mem_of_getElem? h0)]; exact a.top t h0
  · exact fun t ht' => (a.tiers t ht').unmoved m ht' hE
  · intro q t ht'
    rw [(ht t ht').2.2]; exact a.twithin (hlow.mp q) t ht'
  · intro q t ht'
    rw [(ht t ht').2.2]; exact a.loose (fun q' => q (hlow.mpr q')) t ht'

/-- old tiers and their entries after a new tier -/
theorem TierNew.unmoved {h h' : Heap} {c s : CRef} {name : String} {raw : List (Time × Time × String)}
    (n : TierNew h h' c s name raw) {us : List TRef} (hu : ∀ t ∈ us, t ≠ h.nT)
    (ho : ∀ t ∈ us, ∀ x ∈ (h.tseq t).vals, x < h.nE) : Unmoved h h' us := by
  have hx : ∀ x, x < h.nE → x ∉ List.range' h.nE raw.length := by
    intro x hx q
    rw [List.mem_range'_1] at q
    exact absurd hx (Nat.not_lt.mpr q.1)
  refine ⟨fun t ht => (n.other t (hu t ht)).1, fun t ht => (n.other t (hu t ht)).2.2.1,
    fun t ht => (n.other t (hu t ht)).2.1, ?_, ?_⟩
  · intro t ht x hxm
    obtain ⟨a1, a2, a3, a4, -⟩ := n.old x (hx x (ho t ht x hxm))
    exact ⟨a2, a3, a4, a1⟩
  · intro t ht x hxm
    obtain ⟨a1, a2, a3, a4, a5, a6, a7, a8, a9, a10⟩ := n.old x (hx x (ho t ht x hxm))
    exact ⟨by rw [a7], a8, a9, a10, a5, a6⟩

theorem TierNew.tidy {h h' : Heap} {c s : CRef} {name : String} {raw : List (Time × Time × String)}
    (n : TierNew h h' c s name raw) (td : Tidy h) (ac : Allocated h) : Tidy h' ∧ Allocated h' := by
  have hx : ∀ x, x < h.nE → x ∉ List.range' h.nE raw.length := by
    intro x hx q
    rw [List.mem_range'_1] at q
    exact absurd hx (Nat.not_lt.mpr q.1)
  have hsub : ∀ v x, x ∈ (h'.subs v).vals → v ∉ List.range' h.nE raw.length ∧ x ∈ (h.subs v).vals ∧ x ∉ List.range' h.nE raw.length := by
    intro v x hm
    by_cases hv : v ∈ List.range' h.nE raw.length
    · rw [(n.fresh v hv).2.1] at hm; cases hm
    · rw [(n.old v hv).2.2.2.2.2.2.1] at hm
      exact ⟨hv, hm, hx x (ac v x hm).2⟩
  have hsub' : ∀ v, ∀ x ∈ (h'.subs v).vals, x ∈ (h.subs v).vals ∧ h'.start x = h.start x ∧ h'.stop x = h.stop x ∧
      h'.label x = h.label x ∧ h'.cls x = h.cls x := by
    intro v x hm
    obtain ⟨-, m, q⟩ := hsub v x hm
    obtain ⟨a1, a2, a3, a4, -⟩ := n.old x q
    exact ⟨m, a2, a3, a4, a1⟩
  refine ⟨⟨?_, ?_, ?_, ?_, ?_⟩, ?_⟩
  · intro v x
    constructor
    · intro hm
      obtain ⟨-, m, q⟩ := hsub v x hm
      rw [(n.old x q).2.2.2.2.2.2.2.1]
      exact (td.agree v x).mp m
    · intro hs
      by_cases hxr : x ∈ List.range' h.nE raw.length
      · rw [(n.fresh x hxr).2.2] at hs; cases hs
      · rw [(n.old x hxr).2.2.2.2.2.2.2.1] at hs
        have m := (td.agree v x).mpr hs
        rw [(n.old v (hx v (ac v x m).1)).2.2.2.2.2.2.1]
        exact m
  · intro v
    by_cases hv : v ∈ List.range' h.nE raw.length
    · rw [(n.fresh v hv).2.1]; exact List.nodup_nil
    · rw [(n.old v hv).2.2.2.2.2.2.1]; exact td.nodup v
  · intro v x hxm y hym sv
    obtain ⟨m1, a1, a2, a3, a4⟩ := hsub' v x hxm
    obtain ⟨m2, b1, b2, b3, b4⟩ := hsub' v y hym
    refine td.distinct v x m1 y m2 ?_
    unfold SameValue Heap.isPoint at sv ⊢
    rw [a1, a2, a3, a4, b1, b2, b3, b4, show h'.ct = h.ct by rw [n.frame]] at sv
    exact sv
  · intro v x hxm y hym
    obtain ⟨m1, a1, a2, a3, a4⟩ := hsub' v x hxm
    obtain ⟨m2, b1, b2, b3, b4⟩ := hsub' v y hym
    rw [a4, b4]; exact td.cls v x m1 y m2
  · intro v x hxm
    obtain ⟨m1, a1, a2, a3, a4⟩ := hsub' v x hxm
    rw [a3]; exact td.label v x m1
  · intro v x hm
    obtain ⟨-, m, -⟩ := hsub v x hm
    obtain ⟨l1, l2⟩ := ac v x m
    rw [n.nE]
    exact ⟨Nat.lt_of_lt_of_le l1 (Nat.le_add_right _ _), Nat.lt_of_lt_of_le l2 (Nat.le_add_right _ _)⟩

end ATG
