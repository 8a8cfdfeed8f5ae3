import Verif.Lemmas.Pad
/-!
# One step of `TierMixins.append` (`mixins/tiermixins.py:54-125`): the tier's own list
-/
namespace ATG

/-- an interval tier whose list is consistent with its class -/
structure OkTier (h : Heap) (t : TRef) : Prop where
  interval : h.ct.isSub (h.tcls t) cPoint = false
  ecls : (h.tseq t).ecls = some (h.tcls t)
  sup : (h.tsup t).isSome = true
  cls : ∀ x ∈ (h.tseq t).vals, h.cls x = h.tcls t
  label : ∀ x ∈ (h.tseq t).vals, h.label x ≠ "#"
  nodup : (h.tseq t).vals.Nodup
  nonempty : (h.tseq t).vals ≠ []

theorem OkTier.frame {h h' : Heap} {t} (f : SeqFrame h h') (e : h'.tseq t = h.tseq t) (g : OkTier h t) :
    OkTier h' t := by
  have hc : h'.cls = h.cls := by rw [f]
  have hct : h'.ct = h.ct := by rw [f]
  have htc : h'.tcls = h.tcls := by rw [f]
  have hts : h'.tsup = h.tsup := by rw [f]
  have hl : h'.label = h.label := by rw [f]
  exact ⟨by rw [hct, htc]; exact g.interval, by rw [e, htc]; exact g.ecls, by rw [hts]; exact g.sup,
    by rw [e, hc, htc]; exact g.cls, by rw [e, hl]; exact g.label, by rw [e]; exact g.nodup,
    by rw [e]; exact g.nonempty⟩

/-- setting the list of a tier to a rearrangement of entries of its class -/
theorem tierSet_ok (h : Heap) (t : TRef) (l : List Ref) (e : Option CRef)
    (hi : h.ct.isSub (h.tcls t) cPoint = false) (hsup : (h.tsup t).isSome = true)
    (hc : ∀ x ∈ l, h.cls x = h.tcls t) (hl : ∀ x ∈ l, h.label x ≠ "#") (hnd : l.Nodup) (hne : l ≠ []) :
    ∃ h1, tierSetSeq t ⟨l, e⟩ h = .ok () h1 ∧ SeqFrame h h1 ∧
      h1.tseq t = ⟨slSort h l, some (h.tcls t)⟩ ∧ ∀ u, u ≠ t → h1.tseq u = h.tseq u := by
  let k := slSort h l
  have hkp : k.Perm l := slSort_perm h _
  have hkm : ∀ y, y ∈ k ↔ y ∈ l := fun y => hkp.mem_iff
  let h2 : Heap := { h with
    tcont := upd h.tcont t (match h.tcont t with
      | .alias => .detached (h.tseq t).vals
      | k => k)
    tseq := upd h.tseq t ⟨k, some (h.tcls t)⟩ }
  have hv2 : (h2.tseq t).vals = k := by simp [h2]
  obtain ⟨sup, hs⟩ := Option.isSome_iff_exists.mp hsup
  have hprec := tierPrecedence_ok t h2 sup hi hs
    (by rw [hv2]; exact hkp.nodup_iff.mpr hnd)
    (by
      rw [hv2]; intro y hy z hz
      exact (hc y ((hkm y).mp hy)).trans (hc z ((hkm z).mp hz)).symm)
    (by
      rw [hv2]; intro y hy
      exact hl y ((hkm y).mp hy))
  have hset : tierSetSeq t ⟨l, e⟩ h = tierPrecedence t h2 := by
    unfold tierSetSeq
    mstep M.get_apply h
    rw [if_neg (by unfold Heap.isPointTier; rw [hi]; simp)]
    mstep slMk_cls h h _ (h.tcls t) hc rfl
    rw [if_neg hne]
    mstep (show replaceSeq t _ h = .ok () h2 from rfl)
    rfl
  exact ⟨_, hset.trans hprec, rfl, by simp [h2, k], fun u hu => upd_ne _ _ _ _ hu⟩

/-- the first half of `append`: an entry that is not an object of the tier is added to the tier, unless an
    entry with the same value is there; the list is set either way -/
theorem addSet_ok (h : Heap) (t : TRef) (x : Ref) (g : OkTier h t) (hx : x ∉ (h.tseq t).vals)
    (hc : h.cls x = h.tcls t) (hl : h.label x ≠ "#") :
    ∃ sl h1, slAdd (putSeq t) (h.tseq t) [x] h = .ok sl h ∧ tierSetSeq t sl h = .ok () h1 ∧ SeqFrame h h1 ∧
      OkTier h1 t ∧ (∀ u, u ≠ t → h1.tseq u = h.tseq u) ∧
      (Listed h (h.tseq t).vals x → ∀ y, y ∈ (h1.tseq t).vals ↔ y ∈ (h.tseq t).vals) ∧
      (¬ Listed h (h.tseq t).vals x → ∀ y, y ∈ (h1.tseq t).vals ↔ y ∈ (h.tseq t).vals ∨ y = x) := by
  by_cases hL : Listed h (h.tseq t).vals x
  · have hnw : newOf h (h.tseq t).vals [x] = [] := by
      simp [newOf, (slContains_iff _ _ _).mpr hL]
    obtain ⟨h1, hr, f, q, o⟩ := tierSet_ok h t (h.tseq t).vals (h.tseq t).ecls g.interval g.sup g.cls g.label g.nodup
      g.nonempty
    have hm : ∀ y, y ∈ (h1.tseq t).vals ↔ y ∈ (h.tseq t).vals := by
      intro y; rw [q]; exact (slSort_perm h _).mem_iff
    refine ⟨_, h1, slAdd_none_new _ _ _ _ hnw, hr, f, ?_, o, fun _ => hm, fun e => absurd hL e⟩
    have hcl : h1.cls = h.cls := by rw [f]
    have hct : h1.ct = h.ct := by rw [f]
    have htc : h1.tcls = h.tcls := by rw [f]
    have hts : h1.tsup = h.tsup := by rw [f]
    have hlb : h1.label = h.label := by rw [f]
    refine ⟨by rw [hct, htc]; exact g.interval, by rw [q, htc], by rw [hts]; exact g.sup, ?_, ?_, ?_, ?_⟩
    · intro y hy; rw [hcl, htc]; exact g.cls y ((hm y).mp hy)
    · intro y hy; rw [hlb]; exact g.label y ((hm y).mp hy)
    · rw [q]; exact (slSort_perm h _).nodup_iff.mpr g.nodup
    · intro e
      rw [q] at e
      have := slSort_perm h (h.tseq t).vals
      rw [show slSort h (h.tseq t).vals = [] from e] at this
      exact g.nonempty this.symm.eq_nil
  · have hnw : newOf h (h.tseq t).vals [x] = [x] := by
      simp [newOf, (slContains_false_iff _ _ _).mpr hL]
    have hcl : ∀ y ∈ (h.tseq t).vals ++ [x], h.cls y = h.tcls t := by
      intro y hy
      rcases List.mem_append.mp hy with hy | hy
      · exact g.cls y hy
      · rw [List.mem_singleton.mp hy]; exact hc
    have hlb : ∀ y ∈ (h.tseq t).vals ++ [x], h.label y ≠ "#" := by
      intro y hy
      rcases List.mem_append.mp hy with hy | hy
      · exact g.label y hy
      · rw [List.mem_singleton.mp hy]; exact hl
    have hrel : h.ct.isSub (h.tcls t) (h.tcls t) = true := isSub_refl _ _
    have hadd := slAdd_ok (putSeq t) (h.tseq t) [x] h (h.tcls t) (h.tcls t) (by simp [hnw]) g.ecls
      (by rw [hnw]; intro y hy; exact hcl y (by simp [List.mem_singleton.mp hy]))
      (by simp [hrel]) (by
        rw [hnw]
        intro y hy
        rw [Heap.isPoint, hcl y hy])
    rw [hnw, castAll_same h _ _ hcl] at hadd
    have hp := slSort_perm h ((h.tseq t).vals ++ [x])
    have hnd : ((h.tseq t).vals ++ [x]).Nodup := by
      rw [List.nodup_append]
      refine ⟨g.nodup, by simp, ?_⟩
      rintro y hy z hz rfl
      rw [List.mem_singleton.mp hz] at hy
      exact hx hy
    have hsort : slSort h (slSort h ((h.tseq t).vals ++ [x])) = slSort h ((h.tseq t).vals ++ [x]) :=
      slSort_of_sorted h _ (slSort_sorted h _)
    obtain ⟨h1, hr, f, q, o⟩ := tierSet_ok h t (slSort h ((h.tseq t).vals ++ [x])) (some (h.tcls t)) g.interval g.sup
      (fun y hy => hcl y (hp.mem_iff.mp hy)) (fun y hy => hlb y (hp.mem_iff.mp hy)) (hp.nodup_iff.mpr hnd)
      (fun e => by rw [e] at hp; exact absurd hp.symm.eq_nil (by simp))
    rw [hsort] at q
    have hm : ∀ y, y ∈ (h1.tseq t).vals ↔ y ∈ (h.tseq t).vals ++ [x] := by
      intro y; rw [q]; exact hp.mem_iff
    refine ⟨_, h1, hadd, hr, f, ?_, o, fun e => absurd e hL, fun _ y => by rw [hm]; simp⟩
    have hcl1 : h1.cls = h.cls := by rw [f]
    have hct : h1.ct = h.ct := by rw [f]
    have htc : h1.tcls = h.tcls := by rw [f]
    have hts : h1.tsup = h.tsup := by rw [f]
    have hlb1 : h1.label = h.label := by rw [f]
    refine ⟨by rw [hct, htc]; exact g.interval, by rw [q, htc], by rw [hts]; exact g.sup, ?_, ?_, ?_, ?_⟩
    · intro y hy; rw [hcl1, htc]; exact hcl y ((hm y).mp hy)
    · intro y hy; rw [hlb1]; exact hlb y ((hm y).mp hy)
    · rw [q]; exact hp.nodup_iff.mpr hnd
    · intro e
      have := (hm x).mpr (by simp)
      rw [e] at this
      cases this

end ATG
