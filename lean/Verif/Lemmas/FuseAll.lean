import Verif.Lemmas.FuseRun
/-!
# Fusing again and again
-/
namespace ATG

theorem RightRun.neighbours {h : Heap} {t : TRef} {A : List Ref} {x y : Ref} {l : List Ref} {d : CRef}
    (r : RightRun h t A x (y :: l) d) : Neighbours (fun _ => True) h x y d where
  tidy := r.tidy.on _
  listed := ⟨trivial, trivial⟩
  ordered := fun v _ => r.ordered v
  ne := by
    have := r.tordered.nodup
    rw [List.nodup_append] at this
    intro e; subst e
    exact (List.nodup_cons.mp this.2.1).1 (by simp)
  spans := by
    have := (List.pairwise_append.mp r.tordered).2.1
    exact (List.pairwise_cons.mp this).1 y (by simp)
  cls := (r.cls y (by simp)).symm
  sub := r.sub
  clsA := r.subcls x (by simp)
  clsB := r.subcls y (by simp)
  ecls := r.ecls.imp_right Or.inl
  follow := (List.pairwise_cons.mp r.follow).1 y (by simp)
  sup := by rw [r.sup x (by simp), r.sup y (by simp)]
  notUnder := by rw [r.sup x (by simp)]; simp

theorem RightRun.onTier {h : Heap} {t : TRef} {A : List Ref} {x y : Ref} {l : List Ref} {d : CRef}
    (r : RightRun h t A x (y :: l) d) : TierNeighbours h t A x y l where
  list := r.list
  ordered := by rw [r.list]; exact r.tordered
  cls := by rw [r.list]; intro u hu v hv; rw [r.cls u hu, r.cls v hv]
  label := by rw [r.list]; exact r.label
  intierA := r.intier x (by simp)
  intierB := r.intier y (by simp)
  notUnder := by rw [r.list]; intro z hz; rw [r.sup z hz]; simp
  interval := r.interval
  top := fun _ => r.sup x (by simp)

/-- one step -/
theorem RightRun.step {h : Heap} {t : TRef} {A : List Ref} {x y : Ref} {l : List Ref} {d : CRef}
    (r : RightRun h t A x (y :: l) d) (J : String → String → String) (hj : J (h.label x) (h.label y) ≠ "#") :
    ∃ h', fuseRight J x h = .ok () h' ∧ RightRun h' t A x l d ∧ h'.start x = h.start x ∧ h'.stop x = h.stop y ∧
      h'.label x = J (h.label x) (h.label y) ∧ (h'.subs x).vals = (h.subs x).vals ++ (h.subs y).vals ∧
      (∀ u, u ≠ x → h'.start u = h.start u ∧ h'.stop u = h.stop u ∧ h'.label u = h.label u) ∧
      (∀ u, u ≠ x → u ≠ y → (h'.subs u).vals = (h.subs u).vals) ∧ h'.cls = h.cls := by
  have n := r.neighbours
  have tn := r.onTier
  obtain ⟨td, h2, hm, m⟩ := fuse_merge n (.inl ⟨rfl, rfl⟩) _ hj (upd h.fol x (h.fol y)) h.prev
  obtain ⟨h3, hd, fu, ta⟩ := fuse_tier n (.inl ⟨rfl, rfl⟩) hj tn m
  have hf : h.fol x = some (.obj y) := r.linked 0 x y rfl rfl
  have hsx : h.sup x = none := r.sup x (by simp)
  have hxo : ∀ v, x ∉ (h.subs v).vals := by
    intro v q; have := (r.tidy.agree v x).mp q; rw [hsx] at this; cases this
  have hsubl : ∀ u ∈ A ++ x :: l, u ∈ A ++ x :: y :: l := by
    intro u hu; simp only [List.mem_append, List.mem_cons] at hu ⊢; grind
  have hnd := r.tordered.nodup
  have hnd' : (A ++ x :: l).Nodup := by
    rw [← tn.erase (.inl ⟨rfl, rfl⟩), r.list]; exact hnd.sublist List.erase_sublist
  have hyl : y ∉ A ++ x :: l := by
    rw [← tn.erase (.inl ⟨rfl, rfl⟩), r.list]; exact hnd.not_mem_erase
  have hxl : x ∉ l := (List.nodup_cons.mp (List.nodup_append.mp hnd').2.1).1
  have hxA : x ∉ A := fun q => (List.nodup_append.mp hnd').2.2 x q x (by simp) rfl
  have hxy := n.spans
  have hsubs : ∀ u, u ≠ x → u ≠ y → (h3.subs u).vals = (h.subs u).vals :=
    fun u u1 u2 => fu.others u u1 u2 (by rw [hsx]; simp)
  have hval : ∀ v, ∀ z ∈ (h.subs v).vals, h3.start z = h.start z ∧ h3.stop z = h.stop z := by
    intro v z hz
    have := fu.values z (fun e => hxo v (e ▸ hz))
    exact ⟨this.1, this.2.1⟩
  have hio : ∀ v, InOrder h3 (h.subs v).vals := by
    intro v
    refine (r.ordered v).imp_of_mem ?_
    intro p q hp hq hh
    rw [(hval v p hp).1, (hval v p hp).2, (hval v q hq).1, (hval v q hq).2]; exact hh
  have hclx : h3.cls x = h.cls x := by rw [fu.classes.1]
  have hnu : ∀ u ∈ A ++ x :: y :: l, u ∉ (h3.subs x).vals := by
    intro u hu q
    rw [fu.subs, List.mem_append] at q
    have hn := r.sup u hu
    rcases q with q | q
    · have := (r.tidy.agree x u).mp q; rw [hn] at this; cases this
    · have := (r.tidy.agree y u).mp q; rw [hn] at this; cases this
  refine ⟨h3, fuseRight_run J hf (r.label y (by simp)) hm hd, ?_, fu.start, fu.stop, fu.label, fu.subs, fu.values, hsubs,
    fu.classes.1⟩
  refine ⟨fu.tidy.tidy fun _ => trivial, ?_, by rw [ta.list], ?_, ?_, ?_, ?_, ?_, ?_, ?_, ?_, ?_, ?_, ?_⟩
  · intro v
    by_cases e1 : v = x
    · subst e1
      rw [fu.subs]
      refine List.pairwise_append.mpr ⟨hio v, hio y, ?_⟩
      intro p hp q hq
      rw [(hval v p hp).1, (hval v p hp).2, (hval y q hq).1, (hval y q hq).2]
      exact n.follow p hp q hq
    · by_cases e2 : v = y
      · subst e2; rw [fu.emptied]; exact List.Pairwise.nil
      · rw [hsubs v e1 e2]; exact hio v
  · -- the tier is in order
    have ho := r.tordered
    unfold InOrder at ho ⊢
    rw [List.pairwise_append] at ho ⊢
    obtain ⟨oA, oB, oC⟩ := ho
    rw [List.pairwise_cons, List.pairwise_cons] at oB
    have vA : ∀ u ∈ A, h3.start u = h.start u ∧ h3.stop u = h.stop u := fun u hu => by
      have := fu.values u (fun e => hxA (e ▸ hu)); exact ⟨this.1, this.2.1⟩
    have vl : ∀ u ∈ l, h3.start u = h.start u ∧ h3.stop u = h.stop u := fun u hu => by
      have := fu.values u (fun e => hxl (e ▸ hu)); exact ⟨this.1, this.2.1⟩
    refine ⟨oA.imp_of_mem ?_, List.pairwise_cons.mpr ⟨?_, oB.2.2.imp_of_mem ?_⟩, ?_⟩
    · intro u v hu hv hh
      rw [(vA u hu).1, (vA u hu).2, (vA v hv).1, (vA v hv).2]; exact hh
    · intro u hu
      rw [fu.start, fu.stop, (vl u hu).1, (vl u hu).2]
      exact ⟨(oB.1 u (by simp [hu])).1, (oB.2.1 u hu).2⟩
    · intro u v hu hv hh
      rw [(vl u hu).1, (vl u hu).2, (vl v hv).1, (vl v hv).2]; exact hh
    · intro u hu v hv
      rw [(vA u hu).1, (vA u hu).2]
      rcases List.mem_cons.mp hv with e | e
      · subst e
        rw [fu.start, fu.stop]
        exact ⟨(oC u hu v (by simp)).1, (oC u hu y (by simp)).2⟩
      · rw [(vl v e).1, (vl v e).2]
        exact oC u hu v (by simp [e])
  · intro u hu; rw [fu.classes.1]; exact r.cls u (hsubl u hu)
  · intro u hu
    by_cases e : u = x
    · subst e; rw [fu.label]; exact hj
    · rw [(fu.values u e).2.2]; exact r.label u (hsubl u hu)
  · intro u hu; exact ta.intier u (r.intier u (hsubl u hu))
  · intro u hu
    have h1 := hsubl u hu
    rw [fu.sups u (fun e => hyl (e ▸ hu)) (hnu u h1)]
    exact r.sup u h1
  · rw [fu.classes.2, ta.frame.1]; exact r.interval
  · rw [fu.classes.2, fu.classes.1]; exact r.sub
  · intro u hu z hz
    rw [fu.classes.1]
    rcases List.mem_cons.mp hu with e | e
    · subst e
      rw [fu.subs, List.mem_append] at hz
      rcases hz with q | q
      · exact r.subcls u (by simp) z q
      · exact r.subcls y (by simp) z q
    · rw [hsubs u (fun q => hxl (q ▸ e)) (fun q => hyl (by simp [← q, e]))] at hz
      exact r.subcls u (by simp [e]) z hz
  · rcases fu.ecls with e | e
    · exact Or.inr e
    · left; rw [e]; exact r.sub
  · have ho := r.follow
    rw [List.pairwise_cons, List.pairwise_cons] at ho
    have vs : ∀ u ∈ l, (h3.subs u).vals = (h.subs u).vals := fun u e =>
      hsubs u (fun q => hxl (q ▸ e)) (fun q => hyl (by simp [← q, e]))
    refine List.pairwise_cons.mpr ⟨?_, ho.2.2.imp_of_mem ?_⟩
    · intro v hv p hp q hq
      rw [vs v hv] at hq
      rw [fu.subs, List.mem_append] at hp
      rw [(hval v q hq).1, (hval v q hq).2]
      rcases hp with hp | hp
      · rw [(hval x p hp).1, (hval x p hp).2]
        exact ho.1 v (by simp [hv]) p hp q hq
      · rw [(hval y p hp).1, (hval y p hp).2]
        exact ho.2.1 v hv p hp q hq
    · intro u v hu hv hh p hp q hq
      rw [vs u hu] at hp
      rw [vs v hv] at hq
      rw [(hval u p hp).1, (hval u p hp).2, (hval v q hq).1, (hval v q hq).2]
      exact hh p hp q hq
  · -- the links rightwards
    intro i u v hu hv
    by_cases ht : h.tsup t = some cTop
    · have dl := ta.top ht
      have e1 : (A ++ x :: l)[A.length + i]? = some u := by
        rw [List.getElem?_append_right (by omega)]; simpa using hu
      have e2 : (A ++ x :: l)[A.length + i + 1]? = some v := by
        rw [List.getElem?_append_right (by omega), show A.length + i + 1 - A.length = i + 1 by omega]; exact hv
      exact (dl.next _ u v e1 e2).1
    · have hum : u ∈ x :: y :: l := by
        rcases List.mem_cons.mp (List.mem_of_getElem? hu) with e | e
        · simp [e]
        · simp [e]
      rw [(ta.plain ht hsx u (hnu u (List.mem_append_right _ hum))).1]
      cases i with
      | zero =>
        have : u = x := by simpa using hu.symm
        subst this
        rw [upd_same]
        exact r.linked 1 y v rfl hv
      | succ i =>
        have hux : u ≠ x := by
          intro e; subst e
          exact hxl (List.mem_of_getElem? (by simpa using hu))
        rw [upd_ne _ _ _ _ hux]
        exact r.linked (i + 2) u v hu hv

end ATG
