import Verif.Lemmas.WorkInv
import Verif.Lemmas.ReRelate
import Verif.Lemmas.GroupSweep
import Verif.Lemmas.BookPop
import Verif.Spec.Draft
/-!
# Cleaning up a group that has lost its first tier
-/
namespace ATG

/-- the classes of the subset lists after the tiers of a group have been related again -/
theorem reRelate_kinds (g : GRef) (ts : List TRef) (h : Heap) (hgt : h.gtiers g = ts) (hgp : h.gpoint g = false)
    (ch : ClassChain h ts) (hne : ts ≠ []) (al : AlignedTiers h ts) {L : Ref → Prop} (td : TidyOn L h)
    (hL : ∀ x ∈ entriesOf h ts, L x) : ∃ h', reRelate g h = .ok () h' ∧
      (∀ x, ¬ OnTiers h ts x → (h'.subs x).ecls = (h.subs x).ecls) ∧ Typed h' ts := by
  obtain ⟨b, hb⟩ := ch.arrange (List.Perm.refl ts) hne
  obtain ⟨h1, h', e, f, r⟩ := groupInit_run g ts ts false b h hb (fun _ ht => ht) al td hL
  have q0 := seated_frame h g ts b
  have hcls : h1.cls = h.cls := by rw [f.frame, q0]
  have hec : ∀ x, (h1.subs x).ecls = (h.subs x).ecls := by intro x; rw [f.subs, q0]
  refine ⟨h', ?_, ?_, ?_⟩
  · unfold reRelate
    mstep M.get_apply h
    rw [hgp, hgt]
    exact e
  · intro x hx
    rw [(r.otherUpper x ?_).1, hec]
    intro p hp q
    obtain ⟨i, t, t', g1, g2, g3, g4⟩ := mem_chainPairs hp
    exact hx ⟨t, List.mem_of_getElem? g1, q ▸ g3⟩
  · intro i t t' q1 q2 u hu
    rw [show h'.tseq = h.tseq by rw [r.frame, f.frame, q0]] at hu
    rw [show h'.tcls = h.tcls by rw [r.frame, f.frame, q0]]
    have hp := chainPairs_mem (h := h) q1 q2 hu
    obtain ⟨x, hx⟩ := List.exists_mem_of_ne_nil _ ((al.aligned i t t' q1 q2).tiled u hu).ne
    rw [r.typed _ hp x hx, hcls, al.cls t' (List.mem_of_getElem? q2) x (List.mem_filter.mp hx).1]

/-- relating the tiers of one of the groups again -/
theorem Workable.again {h : Heap} {gs : List GRef} (wk : Workable h gs) {g : GRef} (hg : g ∈ gs) (hne : h.gtiers g ≠ []) :
    ∃ h', reRelate g h = .ok () h' ∧ Workable h' gs ∧ SameContents h h' ∧ h'.gtiers = h.gtiers ∧ h'.agroups = h.agroups ∧
      ∀ g' ∈ gs, (Strung h (h.gtiers g') → Strung h' (h.gtiers g')) ∧ (Backed h (h.gtiers g') → Backed h' (h.gtiers g')) := by
  have fit := wk.fit g hg
  have fr := (wk.homed g hg).fresh
  have cl := (Editable.row wk.toEditableFor hg).links
  have ch : ClassChain h (h.gtiers g) := cl.chain (fun t ht => (fr t ht).1) (fun t ht => (fr t ht).2)
  have al : AlignedTiers h (h.gtiers g) := ⟨fit.once, fit.cls, fit.label, fun i t t' e1 e2 =>
    (cl.down i _ _ (by simp only [List.getElem?_map, e1]; rfl) (by simp only [List.getElem?_map, e2]; rfl)).1, fit.aligned⟩
  have hL : ∀ x ∈ entriesOf h (h.gtiers g), OnGroups h gs x := fun x hx => ⟨g, hg, mem_entriesOf.mp hx⟩
  obtain ⟨far1, far2⟩ := wk.far g hg
  obtain ⟨h', e, rs, td⟩ := reRelate_among g (h.gtiers g) h rfl (wk.gpoint g hg) ch hne al wk.tidy hL
    (A := Beneath h (h.gtiers g)) (fun x hx => .on (mem_entriesOf.mp hx)) (fun v x q => far1.beneath q)
  obtain ⟨h2, e2, kd1, kd2⟩ := reRelate_kinds g (h.gtiers g) h rfl (wk.gpoint g hg) ch hne al wk.tidy hL
  have hh : h2 = h' := by
    rw [e] at e2
    injection e2 with _ q
    exact q.symm
  subst hh
  have sc := rs.same
  have hgt : h2.gtiers = h.gtiers := by rw [rs.frame]
  have hnT : h2.nT = h.nT := by rw [rs.frame]
  have hnG : h2.nG = h.nG := by rw [rs.frame]
  have hit : h2.intier = h.intier := by rw [rs.frame]
  have hon : ∀ ts x, OnTiers h2 ts x ↔ OnTiers h ts x := by intro ts x; unfold OnTiers; rw [sc.tseq]
  have hong : ∀ x, OnGroups h2 gs x ↔ OnGroups h gs x := by
    intro x; unfold OnGroups; rw [hgt]
    exact ⟨fun ⟨g, hg, q⟩ => ⟨g, hg, (hon _ _).mp q⟩, fun ⟨g, hg, q⟩ => ⟨g, hg, (hon _ _).mpr q⟩⟩
  have hE : ∀ x, x ∈ entriesOf h (h.gtiers g) ↔ OnTiers h (h.gtiers g) x := fun x => mem_entriesOf
  have td' : TidyOn (OnGroups h2 gs) h2 := by
    refine (td ?_).mono fun x q => (hong x).mp q
    intro i t t' q1 q2 v hv x hx _
    exact (hE x).mpr ((fit.closed v x hx).mp ⟨t, List.mem_of_getElem? q1, hv⟩)
  have hun : ∀ g' ∈ gs, g' ≠ g → Unmoved h h2 (h.gtiers g') := fun g' hg' hn =>
    rs.apart.unmoved (ct := h.ct) sc _ fun t ht x hx => far2 g' hg' hn x ⟨t, ht, hx⟩
  have hsub : ∀ v x, x ∈ (h2.subs v).vals → x ∈ (h.subs v).vals ∨
      OnTiers h (h.gtiers g) v ∧ OnTiers h (h.gtiers g) x := fun v x q =>
    (rs.subs v x q).imp And.left fun q => ⟨(hE v).mp q.1, (hE x).mp q.2⟩
  have hsup : ∀ v x, h2.sup x = some v → h.sup x = some v ∨
      OnTiers h (h.gtiers g) v ∧ OnTiers h (h.gtiers g) x := fun v x q =>
    (rs.sup v x q).imp And.left fun q => ⟨(hE v).mp q.1, (hE x).mp q.2⟩
  have hgroup : ∀ g' ∈ gs, FitGroup h2 (h.gtiers g') ∧ UpClosed h2 (h.gtiers g') ∧ RelatedByContainment h2 (h.gtiers g') := by
    intro g' hg'
    by_cases q : g' = g
    · subst q
      refine ⟨⟨?_, ?_, ?_, ?_, ?_, ?_, ?_, ?_⟩, ?_, rs.related⟩
      · rw [sc.tseq]; exact fit.once
      · rw [sc.tseq, sc.cls, sc.tcls]; exact fit.cls
      · rw [sc.tseq, sc.label]; exact fit.label
      · rw [sc.tseq, sc.start, sc.stop]; exact fit.disjoint
      · rw [sc.tseq, sc.start, sc.stop]; exact fit.positive
      · intro i t t' q1 q2
        have hsp : h2.span = h.span := by
          funext x
          unfold Heap.span
          rw [sc.start, sc.stop]
        rw [sc.tseq, aligned_spans, hsp, ← aligned_spans]
        exact fit.aligned i t t' q1 q2
      · intro v x hx
        rw [sc.tseq]
        rcases hsub v x hx with q | ⟨q1, q2⟩
        · exact fit.closed v x q
        · exact ⟨fun _ => q2, fun _ => q1⟩
      · rw [sc.tseq, sc.nE, hnT]; exact fit.old
      · intro v x hx hxx
        rw [hon] at hxx ⊢
        rcases hsup v x hx with q | ⟨q1, q2⟩
        · exact far1 v x q hxx
        · exact q1
    · refine wk.kept hg' (hun g' hg' q) (Nat.le_of_eq hnT.symm) (Nat.le_of_eq sc.nE.symm) ?_ ?_
      · intro v x hx
        exact (hsub v x hx).imp id fun z => ⟨wk.apart hg hg' (Ne.symm q) z.1, wk.apart hg hg' (Ne.symm q) z.2⟩
      · intro v x hx
        exact (hsup v x hx).imp id fun z => wk.apart hg hg' (Ne.symm q) z.2
  refine ⟨h2, e, ⟨⟨by rw [sc.ct]; exact wk.wfc, wk.nodup, ?_, ?_, td', ?_, ?_, ?_, ?_, ?_, ?_⟩, ?_, ?_, ?_⟩, sc, hgt,
    by rw [rs.frame], ?_⟩
  · rw [hnG, hgt, hnT, sc.tseq, sc.nE]; exact wk.old
  · unfold Separate; rw [hgt, sc.tseq]; exact wk.sep
  · intro v x hx
    rw [sc.nE]
    exact (hsub v x hx).elim (wk.alloc v x) fun q => ⟨wk.lt hg q.1, wk.lt hg q.2⟩
  · intro v x hx
    rw [sc.nE]
    exact (hsup v x hx).elim (wk.allocUp v x) fun q => ⟨wk.lt hg q.1, wk.lt hg q.2⟩
  · rw [hgt]; exact fun g' hg' => (hgroup g' hg').1
  · rw [hgt]; exact fun g' hg' => (hgroup g' hg').2.1
  · rw [hgt]; exact fun g' hg' => (hgroup g' hg').2.2
  · rw [hgt, sc.ct, sc.tcls]; exact wk.rows
  · intro g' hg'
    rw [hgt]
    have m := wk.homed g' hg'
    have frs : TiersFresh h2 (h.gtiers g') := m.fresh.congr sc.ct fun t _ =>
      ⟨by rw [sc.tcls], by rw [rs.frame], by rw [rs.frame]⟩
    by_cases q : g' = g
    · subst q
      exact ⟨by rw [hit, sc.tseq]; exact m.home, by rw [sc.tseq, show h2.tsup = h.tsup by rw [rs.frame]]; exact m.below, kd2, frs⟩
    · exact m.unmoved (hun g' hg' q) (fun _ _ _ => by rw [rs.frame])
        (fun x hx => ⟨by rw [hit], kd1 x fun z => wk.apart hg hg' (Ne.symm q) z hx⟩) frs
  · rw [hgt, sc.ct, sc.tcls]; exact wk.interval
  · rw [show h2.gpoint = h.gpoint by rw [rs.frame]]; exact wk.gpoint
  · intro g' hg'
    by_cases q : g' = g
    · subst q
      refine ⟨fun st t ht i u hu => ?_, fun st t ht i u hu => ?_⟩
      all_goals
        rw [sc.tseq] at hu ⊢
        have hs := (wk.rel g' hg').top t ht u (List.mem_of_getElem? hu)
      · rw [(rs.toplinks t ht u (List.mem_of_getElem? hu) hs).1, rs.top t ht u (List.mem_of_getElem? hu) hs]
        exact st t ht i u hu
      · rw [(rs.toplinks t ht u (List.mem_of_getElem? hu) hs).2]
        exact st t ht i u hu
    · exact ⟨fun st => st.unmoved (hun g' hg' q), fun st => st.unmoved (hun g' hg' q)⟩

/-- cleaning up one of the groups, if its tiers have no gaps -/
theorem groupCleanup_kept {h : Heap} {gs : List GRef} (wk : Workable h gs) {g : GRef} (hg : g ∈ gs) (hne : h.gtiers g ≠ [])
    (hno : ∀ t ∈ h.gtiers g, ∀ p ∈ gapsOf ((h.tseq t).vals.map h.span), ¬ RealGap p) :
    ∃ h', groupCleanup g h = .ok () h' ∧ Workable h' gs ∧ SameContents h h' ∧ h'.gtiers = h.gtiers ∧ h'.agroups = h.agroups ∧
      ∀ g' ∈ gs, (Strung h (h.gtiers g') → Strung h' (h.gtiers g')) ∧ (Backed h (h.gtiers g') → Backed h' (h.gtiers g')) := by
  have hlo : (h.gtiers g).any (loose h) = false := by
    rw [List.any_eq_false]
    intro t ht q
    obtain ⟨p, hp, hq⟩ := loose_iff.mp q
    exact hno t ht p hp hq
  suffices hs : ∃ h', cleanupScanAll g (h.gtiers g) false h = .ok ((h.gtiers g).any (loose h)) h' ∧ Workable h' gs ∧
      SameContents h h' ∧ h'.gtiers = h.gtiers ∧ h'.agroups = h.agroups ∧
      ∀ g' ∈ gs, (Strung h (h.gtiers g') → Strung h' (h.gtiers g')) ∧ (Backed h (h.gtiers g') → Backed h' (h.gtiers g')) by
    obtain ⟨h', e, q⟩ := hs
    refine ⟨h', ?_, q⟩
    unfold groupCleanup
    mstep M.get_apply h
    mstep e
    rw [hlo]
    rfl
  have hself : ∃ h', cleanupScan g ((h.gtiers g).head hne) h = .ok (loose h ((h.gtiers g).head hne)) h' ∧ Workable h' gs ∧
      SameContents h h' ∧ h'.gtiers = h.gtiers ∧ h'.agroups = h.agroups ∧
      ∀ g' ∈ gs, (Strung h (h.gtiers g') → Strung h' (h.gtiers g')) ∧ (Backed h (h.gtiers g') → Backed h' (h.gtiers g')) := by
    have ht : (h.gtiers g)[0]? = some ((h.gtiers g).head hne) := by
      rw [← List.head?_eq_getElem?, List.head?_eq_some_head hne]
    generalize (h.gtiers g).head hne = t at ht
    have hsame : SameContents h h := ⟨rfl, rfl, rfl, rfl, rfl, rfl, rfl, rfl, rfl⟩
    have htm := List.mem_of_getElem? ht
    obtain ⟨p, hp, hpt, -⟩ := (Editable.row wk.toEditableFor hg).top (h.tcls t) (by rw [List.head?_eq_getElem?, List.getElem?_map, ht]; rfl)
    by_cases h1 : h.ct.isSub (h.tcls t) cTop = true
    · refine ⟨h, ?_, wk, hsame, rfl, rfl, fun _ _ => ⟨fun q => q, fun q => q⟩⟩
      unfold cleanupScan
      mstep M.get_apply h
      rw [if_pos h1]; rfl
    · by_cases h2 : (h.tseq t).vals.any (fun i => !entryWithinTruthy h i) = true
      · obtain ⟨h', e, q⟩ := wk.again hg hne
        refine ⟨h', ?_, q⟩
        unfold cleanupScan
        mstep M.get_apply h
        rw [if_neg h1, if_pos h2]
        mstep (show M.forL (h.tseq t).vals (fun i => do
            let h ← M.get
            if entryWithinTruthy h i then pure () else projectUp i) h = .ok () h from by
          refine forL_noop _ _ _ ?_
          intro x hx
          mstep M.get_apply h
          by_cases hw : entryWithinTruthy h x = true
          · rw [if_pos hw]; rfl
          · rw [if_neg hw]
            unfold projectUp
            mstep M.get_apply h
            mstep (show isSubO (h.ct.sup (h.cls x)) cTop h = Res.ok true h by
              rw [(wk.fit g hg).cls t htm x hx, sup_own hp]
              show Res.ok (h.ct.isSub p cTop) h = _
              rw [hpt])
            rfl)
        mstep e
        rfl
      · refine ⟨h, ?_, wk, hsame, rfl, rfl, fun _ _ => ⟨fun q => q, fun q => q⟩⟩
        unfold cleanupScan
        mstep M.get_apply h
        rw [if_neg h1, if_neg h2]; rfl
  obtain ⟨h', e, wk', sc, hgt, q⟩ := hself
  refine ⟨h', ?_, wk', sc, hgt, q⟩
  have hsplit : h.gtiers g = (h.gtiers g).head hne :: (h.gtiers g).tail := (List.cons_head_tail hne).symm
  have r' : RelatedByContainment h' (h.gtiers g) := by have := wk'.rel g hg; rw [hgt] at this; exact this
  rw [show cleanupScanAll g (h.gtiers g) false h =
    cleanupScanAll g ((h.gtiers g).head hne :: (h.gtiers g).tail) false h by rw [← hsplit]]
  unfold cleanupScanAll
  mstep e
  rw [cleanupScanAll_lower r' (h.gtiers g).tail 0 _ (by rw [List.drop_one])]
  have : (h.gtiers g).tail.any (loose h') = (h.gtiers g).tail.any (loose h) := by
    congr 1
    funext u
    exact loose_congr sc u
  rw [this]
  have ha : (h.gtiers g).any (loose h) = (loose h ((h.gtiers g).head hne) || (h.gtiers g).tail.any (loose h)) :=
    (congrArg (fun l : List TRef => l.any (loose h)) hsplit).trans List.any_cons
  rw [ha, Bool.false_or]

/-- cleaning up one group after another -/
theorem forL_cleanup (gs : List GRef) : ∀ (l : List GRef) (h : Heap), (∀ g ∈ l, g ∈ gs) → Workable h gs →
    (∀ g ∈ l, h.gtiers g ≠ []) →
    (∀ g ∈ l, ∀ t ∈ h.gtiers g, ∀ p ∈ gapsOf ((h.tseq t).vals.map h.span), ¬ RealGap p) →
    ∃ h', M.forL l (fun g => do
        let h ← M.get
        if h.gpoint g then pure () else groupCleanup g) h = .ok () h' ∧ Workable h' gs ∧ SameContents h h' ∧
      h'.gtiers = h.gtiers ∧ h'.agroups = h.agroups ∧ ∀ g' ∈ gs, (Strung h (h.gtiers g') → Strung h' (h.gtiers g')) ∧ (Backed h (h.gtiers g') → Backed h' (h.gtiers g'))
  | [], h, _, wk, _, _ => ⟨h, rfl, wk, ⟨rfl, rfl, rfl, rfl, rfl, rfl, rfl, rfl, rfl⟩, rfl, rfl, fun _ _ => ⟨fun q => q, fun q => q⟩⟩
  | g :: l, h, hm, wk, hne, hno => by
    obtain ⟨h1, e1, wk1, s1, g1, a1, st1⟩ := groupCleanup_kept wk (hm g (by simp)) (hne g (by simp)) (hno g (by simp))
    have hsp : h1.span = h.span := by
      funext x
      unfold Heap.span
      rw [s1.start, s1.stop]
    obtain ⟨h', e2, wk2, s2, g2, a2, st2⟩ := forL_cleanup gs l h1 (fun g' hg' => hm g' (by simp [hg'])) wk1
      (by rw [g1]; exact fun g' hg' => hne g' (by simp [hg']))
      (by rw [g1, s1.tseq, hsp]; exact fun g' hg' => hno g' (by simp [hg']))
    refine ⟨h', ?_, wk2, s1.trans s2, g2.trans g1, a2.trans a1, fun g' hg' => ?_⟩
    · rw [M.forL_cons]
      have hx : (do
          let h ← M.get
          if h.gpoint g then pure () else groupCleanup g : M Unit) h = .ok () h1 := by
        mstep M.get_apply h
        rw [if_neg (by rw [wk.gpoint g (hm g (by simp))]; simp)]
        exact e1
      rw [hx]
      exact e2
    · have := st2 g' hg'
      rw [g1] at this
      exact ⟨fun q => this.1 ((st1 g' hg').1 q), fun q => this.2 ((st1 g' hg').2 q)⟩

end ATG
