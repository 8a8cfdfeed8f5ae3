import Verif.Lemmas.PopAll
import Verif.Props.InterleaveTiers
/-!
# C70: the tiers left by `pop_class` (`aligned_textgrid.py:652-733`)
-/
namespace ATG

/-- **C70.** `pop_class(name)` succeeds and takes the tier of the class out of every group that has one and other
    tiers: the group keeps its other tiers, in their order, with their intervals, times and labels, now related
    by containment across the gap; the intervals of what is then the lowest tier contain nothing. Groups with
    only the tier are dropped, other groups are as before, and the order of the groups is kept. The classes above
    and below are linked to each other.

    The hypotheses: the class `p` has links of its own to `u` above and `d` below; the groups share no entry; in
    each group with the class the tiers fit together (their boundaries are aligned) and their classes are linked
    to each other by links of their own. `_partial`: it fails if no group stays (`C70_only_violated`). Missing:
    tiers whose boundaries are not aligned, groups sharing entries. -/
theorem C70_pop_partial (h : Heap) (a : ARef) (name : String) (u p d : CRef) (b : Between h.ct u p d)
    (old : ∀ g ∈ h.agroups a, g < h.nG) (nd : (h.agroups a).Nodup) (sep : Separate h (h.agroups a)) (td : Tidy h)
    (hstay : staying h name (h.agroups a) ≠ [])
    (spot : ∀ g ∈ h.agroups a, Popped h name g → ∃ pre pt post, PopSpot h g name p pre pt post ∧
      ClassLinks h.ct ((pre ++ pt :: post).map h.tcls) ∧ OwnLinks h.ct ((pre ++ post).map h.tcls)) :
    ∃ h', popClass a name h = .ok () h' ∧
      (h'.agroups a).length = (staying h name (h.agroups a)).length ∧
      (∀ (i : Nat) g g', (staying h name (h.agroups a))[i]? = some g → (h'.agroups a)[i]? = some g' →
        if Popped h name g then PopDone h h' g g' name
        else g' = g ∧ h'.gtiers g = h.gtiers g ∧ Unmoved h h' (h.gtiers g)) ∧
      SameContents { h with ct := h'.ct } h' ∧
      ((∃ g ∈ h.agroups a, Popped h name g) → h'.ct.sub u = some d ∧ h'.ct.sup d = some u) ∧
      ((∀ g ∈ h.agroups a, ¬ Popped h name g) → h'.ct = h.ct) := by
  obtain ⟨gs', h1, e1, c1, c2, c3, c4, c5, c6, c7, c8, c9, r1, r2, -⟩ :=
    popGroups_ok (u := u) (p := p) (d := d) name (h.agroups a) h (fun _ => False) b nd old sep
      (td.on _) (fun _ q => q.elim) (by
        intro g hg hp
        obtain ⟨pre, pt, post, s, cl, ol⟩ := spot g hg hp
        refine ⟨pre, pt, post, s, ?_⟩
        rw [List.map_append] at ol ⊢
        rw [List.map_append, List.map_cons, s.cls] at cl
        exact cl.remove ol b)
      (by
        intro g hg hp
        obtain ⟨pre, pt, post, s, -⟩ := spot g hg hp
        refine SupClosed.far ?_ hg sep
        rw [s.eq]
        exact fun v x hs => s.fit.closed v x ((td.agree v x).mpr hs))
  obtain ⟨fg, fc, fw, e2, hfg⟩ := storeGroups a gs' h1 (by
    rintro rfl
    exact absurd (List.length_eq_zero_iff.mp c1.symm) hstay)
  have m : ∀ ts, Unmoved h1 { h1 with agroups := fg, acont := fc, gwithin := fw } ts := fun ts =>
    ⟨fun _ _ => rfl, fun _ _ => rfl, fun _ _ => rfl, fun _ _ _ _ => ⟨rfl, rfl, rfl, rfl⟩,
      fun _ _ _ _ => ⟨rfl, rfl, rfl, rfl, rfl, rfl⟩⟩
  refine ⟨{ h1 with agroups := fg, acont := fc, gwithin := fw }, ?_, ?_, ?_, ?_, ?_, ?_⟩
  · unfold popClass
    mstep M.get_apply h
    mstep e1
    exact e2
  · show (fg a).length = _
    rw [hfg]; exact c1
  · intro i g g' q1 q2
    change (fg a)[i]? = some g' at q2
    rw [hfg] at q2
    have := c7 i g g' q1 q2
    by_cases hp : Popped h name g
    · rw [if_pos hp] at this ⊢
      exact this.congr rfl (fun _ => rfl) rfl rfl rfl (m _) c2.tseq
    · rw [if_neg hp] at this ⊢
      exact ⟨this.1, this.2.1, this.2.2.trans (m _)⟩
  · exact ⟨c2.start, c2.stop, c2.label, c2.cls, c2.nE, c2.tseq, c2.tcls, c2.tname, rfl⟩
  · intro q
    show h1.ct.sub u = some d ∧ h1.ct.sup d = some u
    rw [r1 q]
    exact ⟨sub_own (by simp [closeLink, ClassTab.putSup, ClassTab.putSub]),
      sup_own (by simp [closeLink, ClassTab.putSup, ClassTab.putSub])⟩
  · intro q
    show h1.ct = h.ct
    exact r2 q

theorem exGroupAndWord_links : ClassLinks exGroupAndWord.ct [cWord, cPhone] := by
  refine ⟨by decide, ?_, ?_, ?_, ?_⟩
  · intro i c c' h1 h2
    match i with
    | 0 => cases h1; cases h2; decide +kernel
    | i + 1 => simp at h2
  · intro i c c' h1 h2
    match i with
    | 0 => cases h1; cases h2; decide +kernel
    | i + 1 => simp at h2
  · intro c e; cases e; exact ⟨7, by decide +kernel, Or.inl (by decide +kernel)⟩
  · intro c e; cases e; exact ⟨8, by decide +kernel, Or.inl (by decide +kernel)⟩

/-- a case meeting the hypotheses of C70: the phones are popped; the words of the first group are left without
    contents, the group of the single word is left as it is -/
example : ∃ h' g, popClass 0 "Phone" exGroupAndWord = .ok () h' ∧ h'.agroups 0 = [g, 1] ∧ h'.gtiers g = [0] ∧
    (h'.subs 0).vals = [] ∧ (h'.subs 1).vals = [] ∧ h'.gtiers 1 = [2] ∧ h'.ct.sub cWord = some 8 := by
  obtain ⟨h', e, k1, k2, -, k4, -⟩ := C70_pop_partial exGroupAndWord 0 "Phone" cWord cPhone 8
    ⟨by decide +kernel, by decide +kernel, by decide, by decide, by decide, by decide +kernel, by decide +kernel,
      by decide +kernel, by decide +kernel⟩
    (by decide) (by decide) (by unfold Separate; decide) exGroupAndWord_tidy (by decide +kernel)
    (by
      intro g hg hp
      have hg : g = 0 ∨ g = 1 := by simpa [exGroupAndWord] using hg
      rcases hg with rfl | rfl
      · refine ⟨[0], 1, [], ⟨rfl, rfl, by decide +kernel, by decide +kernel, exGroupAndWord_spot.fit⟩,
          exGroupAndWord_links, ?_⟩
        intro c hc
        have hc : c = cWord := by simpa [exGroupAndWord] using hc
        subst hc
        exact ⟨⟨cPhone, 7, by decide +kernel⟩, by decide +kernel⟩
      · exact absurd rfl hp.2)
  have hst : staying exGroupAndWord "Phone" (exGroupAndWord.agroups 0) = [0, 1] := by decide +kernel
  rw [hst] at k1 k2
  have hP : Popped exGroupAndWord "Phone" 0 := ⟨⟨1, by decide, by decide +kernel⟩, by decide⟩
  match hg : h'.agroups 0, k1 with
  | [g, g2], _ =>
    have a1 := k2 0 0 g rfl (by rw [hg]; rfl)
    have a2 := k2 1 1 g2 rfl (by rw [hg]; rfl)
    rw [if_pos hP] at a1
    rw [if_neg (fun q => q.2 rfl)] at a2
    obtain ⟨pre, pt, post, b1, b2, b3, b4, b5, b6⟩ := a1
    have hpp : pre = [0] ∧ post = [] := by
      have q : [0, 1] = pre ++ pt :: post := b1
      match pre, q with
      | [], q =>
        simp only [List.nil_append, List.cons.injEq] at q
        rw [← q.1] at b2
        exact absurd b2 (by decide +kernel)
      | [x], q => simp at q; simp [← q.1, q.2.2]
      | x :: y :: z, q => simp at q
    rw [hpp.1, hpp.2] at b4 b6
    refine ⟨h', g, e, by rw [hg, a2.1], b4, (b6 0 rfl 0 (by decide)).1, (b6 0 rfl 1 (by decide)).1, a2.2.1, (k4 ⟨0, by decide, hP⟩).1⟩

/-- C70 fails if every group has only the tier: the groups stay as they are -/
theorem C70_only_violated : ∃ (h : Heap) (a : ARef) (g : GRef) (t : TRef), h.agroups a = [g] ∧ h.gtiers g = [t] ∧
    h.ct.name (h.tcls t) = "Word" ∧
    (popClass a "Word" h).out = .ok () ∧ (popClass a "Word" h).heap.agroups a = [g] := by
  refine ⟨{ exGroupAndWord with agroups := fun _ => [1] }, 0, 1, 2, ?_⟩
  decide +kernel

end ATG
