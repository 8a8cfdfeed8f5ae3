import Verif.Lemmas.GroupAligned
import Verif.Lemmas.Step
/-!
# Appending a new interval to a subset list
-/
namespace ATG

/-- what `w.append(x)` does for a new interval `x` of the subset class -/
structure Appended (h h' : Heap) (w x : Ref) (d : CRef) : Prop where
  tidy : Tidy h'
  list : h'.subs w = ⟨slSort h ((h.subs w).vals ++ [x]), some d⟩
  others : ∀ v, v ≠ w → h'.subs v = h.subs v
  linked : DoublyLinked h' (h'.subs w).vals
  linkedOthers : ∀ v, v ≠ w → DoublyLinked h (h.subs v).vals → DoublyLinked h' (h.subs v).vals
  sup : ∀ r, h'.sup r = if r = x then some w else h.sup r
  within : ∀ r, h'.within r = if r = x ∨ r ∈ (h.subs w).vals then some (.ival w) else h.within r
  links : ∀ r, r ∉ (h.subs w).vals → r ≠ x → h'.fol r = h.fol r ∧ h'.prev r = h.prev r
  frame : h' = { h with subs := h'.subs, sup := h'.sup, within := h'.within, cont := h'.cont, fol := h'.fol,
                        prev := h'.prev }

theorem Tidy.agreeX {h : Heap} (td : Tidy h) (w : Ref) : AgreeX (fun _ => True) h w :=
  ⟨fun v _ x => (td.agree v x).mp, fun v _ x _ => (td.agree v x).mpr, fun v _ => ⟨td.nodup v, td.distinct v, td.cls v, td.label v⟩⟩

theorem ivalAppend_new {h : Heap} (td : Tidy h) (w x : Ref) (d : CRef) (hd : h.ct.sub (h.cls w) = some d)
    (hx : h.cls x = d) (hs : h.sup x = none) (hlab : h.label x ≠ "#") (hnl : ¬ Listed h (h.subs w).vals x)
    (hc : ∀ y ∈ (h.subs w).vals, h.cls y = d) (hec : (h.subs w).ecls = some d ∨ h.subs w = SL.empty)
    (hfree : ∀ t, h.intier w = some t → withinTruthy h t = none) :
    ∃ h', ivalAppend w x h = .ok () h' ∧ Appended h h' w x d := by
  have hxn : ∀ v, x ∉ (h.subs v).vals := by
    intro v hh; have := (td.agree v x).mp hh; rw [hs] at this; cases this
  have hsv : ∀ v y, v ≠ w → y ∈ (h.subs v).vals → y ∉ (h.subs w).vals := by
    intro v y hv hy hh
    have h1 := (td.agree v y).mp hy
    have h2 := (td.agree w y).mp hh
    rw [h1] at h2; exact hv (Option.some.inj h2)
  have hn : newOf h (h.subs w).vals [x] = [x] := by
    simp [newOf, (slContains_false_iff h (h.subs w).vals x).mpr hnl]
  have hadd : slAdd (putSubs w) (h.subs w) [x] h =
      .ok ⟨slSort h ((h.subs w).vals ++ [x]), some d⟩
        { h with subs := upd h.subs w ⟨(h.subs w).vals, some d⟩ } := by
    rcases hec with hec | hec
    · have e0 : upd h.subs w ⟨(h.subs w).vals, some d⟩ = h.subs := upd_eq_self _ _ _ (by rw [← hec])
      rw [e0]
      have hallc : ∀ y ∈ (h.subs w).vals ++ newOf h (h.subs w).vals [x], h.cls y = d := by
        rw [hn]
        intro y hy
        rcases List.mem_append.mp hy with q | q
        · exact hc y q
        · simp at q; rw [q]; exact hx
      have := slAdd_ok (putSubs w) (h.subs w) [x] h d d (by rw [hn]; simp) hec
        (by rw [hn]; simpa using hx) (by simp [isSub_refl]) (by
          intro y hy; unfold Heap.isPoint; rw [hallc y hy])
      rw [castAll_self h _ _ hallc, hn] at this
      exact this
    · rw [hec]
      exact slAdd_ok_empty (putSubs w) (fun sl h => { h with subs := upd h.subs w sl })
        (fun _ _ => rfl) (fun _ _ => ⟨rfl, rfl⟩) [x] h d x [] rfl (by simpa using hx)
  generalize hh1 : ({ h with subs := upd h.subs w ⟨(h.subs w).vals, some d⟩ } : Heap) = h1 at *
  have hsub1 : ∀ v, (h1.subs v).vals = (h.subs v).vals := by
    intro v; subst hh1; by_cases q : v = w <;> simp [upd, q]
  have hsub1' : ∀ v, v ≠ w → h1.subs v = h.subs v := by
    intro v hv; subst hh1; exact upd_ne _ _ _ _ hv
  have td1 : Tidy h1 := by
    refine ⟨?_, ?_, ?_, ?_, ?_⟩
    · intro v y; rw [hsub1, show h1.sup = h.sup by subst hh1; rfl]; exact td.agree v y
    · intro v; rw [hsub1]; exact td.nodup v
    · intro v; rw [hsub1]; subst hh1; exact td.distinct v
    · intro v; rw [hsub1]; subst hh1; exact td.cls v
    · intro v; rw [hsub1]; subst hh1; exact td.label v
  have hst : slSort h1 (slSort h ((h.subs w).vals ++ [x])) = slSort h ((h.subs w).vals ++ [x]) := by
    rw [slSort_congr h1 h _ (by subst hh1; rfl)]
    exact slSort_of_sorted _ _ (slSort_sorted _ _)
  have hmem : ∀ r, r ∈ slSort h ((h.subs w).vals ++ [x]) ↔ r ∈ (h.subs w).vals ∨ r = x := by
    intro r; rw [(slSort_perm _ _).mem_iff]; simp
  have hcl1 : h1.cls = h.cls := by subst hh1; rfl
  have hct1 : h1.ct = h.ct := by subst hh1; rfl
  have hlab1 : h1.label = h.label := by subst hh1; rfl
  have hsv1 : ∀ a b, SameValue h1 a b ↔ SameValue h a b := by
    intro a b; subst hh1; exact Iff.rfl
  have hclS : ∀ y ∈ slSort h ((h.subs w).vals ++ [x]), h.cls y = d := by
    intro y hy
    rcases (hmem y).mp hy with q | q
    · exact hc y q
    · rw [q]; exact hx
  have hnd : (slSort h ((h.subs w).vals ++ [x])).Nodup := by
    rw [(slSort_perm _ _).nodup_iff, List.nodup_append]
    exact ⟨td.nodup w, by simp, by
      intro a ha b hb e
      simp at hb; subst hb; subst e; exact hxn w ha⟩
  obtain ⟨f, p, hrun, hl1, hl2, hl3⟩ := setSubs_ok w (slSort h ((h.subs w).vals ++ [x])) h1 d (td1.agreeX w) (fun _ _ => trivial)
    (by intro y hy; exact (td1.agree w y).mp hy)
    (by
      intro y hy z hz hsv'
      rw [hsub1] at hy
      rw [hsv1] at hsv'
      rcases (hmem z).mp hz with q | q
      · exact td.distinct w z q y hy hsv'
      · subst q
        exact absurd (Or.inr ⟨y, hy, ⟨hsv'.1.symm, hsv'.2.1.symm, hsv'.2.2.1.symm, hsv'.2.2.2.symm⟩⟩) hnl)
    (by
      intro y hy
      rw [hct1, hcl1]
      exact ⟨d, hd, by rw [hclS y hy]; exact isSub_refl _ _⟩)
    (by rw [hcl1]; exact hclS) hnd
    (by
      rw [hlab1]
      intro y hy
      rcases (hmem y).mp hy with q | q
      · exact td.label w y q
      · rw [q]; exact hlab)
  rw [hst] at hrun hl1 hl2
  have hne : slSort h ((h.subs w).vals ++ [x]) ≠ [] := by
    intro q
    have := (hmem x).mpr (Or.inr rfl)
    rw [q] at this; cases this
  rw [if_neg hne] at hrun hl1 hl2
  generalize hS : slSort h ((h.subs w).vals ++ [x]) = S at *
  generalize hh2 : assigned h1 w S (some d) f p = h2 at *
  have hfil : ∀ v, v ≠ w → (h1.subs v).vals.filter (· ∉ S) = (h.subs v).vals := by
    intro v hv
    rw [hsub1, List.filter_eq_self]
    intro y hy
    have h1 := hsv v y hv hy
    have h2 : y ≠ x := fun e => hxn v (e ▸ hy)
    simp [hmem, h1, h2]
  have eframe : h2 =
      { h with subs := h2.subs, sup := h2.sup, within := h2.within, cont := h2.cont, fol := h2.fol, prev := h2.prev } := by subst hh2; subst hh1; rfl
  have elist : h2.subs w = ⟨S, some d⟩ := by subst hh2; simp [assigned, settled]
  have eoth : ∀ v, v ≠ w → h2.subs v = h.subs v := by
    intro v hv
    subst hh2
    simp only [assigned, settled, if_neg hv]
    rw [hfil v hv, hsub1' v hv]
  have esup : ∀ r, h2.sup r = if r = x then some w else h.sup r := by
    intro r
    subst hh2
    simp only [assigned, settled]
    by_cases q : r = x
    · rw [if_pos ((hmem r).mpr (Or.inr q)), if_pos q]
    · rw [if_neg q]
      by_cases q2 : r ∈ (h.subs w).vals
      · rw [if_pos ((hmem r).mpr (Or.inl q2))]; exact ((td.agree w r).mp q2).symm
      · rw [if_neg (by rw [hmem]; exact fun hh => hh.elim q2 q), hsub1, if_neg q2]
        subst hh1; rfl
  refine ⟨h2, ?_, ⟨?_, by rw [elist, hS], eoth, ?_, ?_, esup, ?_, ?_, eframe⟩⟩
  · have hadd' : subsIAdd w [x] h = .ok () h2 := by
      unfold subsIAdd
      mstep M.get_apply h
      mstep hadd
      exact hrun
    unfold ivalAppend
    mstep M.get_apply h
    mstep (show isSubO (h.ct.sub (h.cls w)) (h.cls x) h = .ok true h by
      simp [isSubO, hd, hx, isSub_refl])
    rw [if_pos rfl]
    mstep hadd'
    mstep M.get_apply h2
    have e1 : h2.intier = h.intier := by rw [eframe]
    have e2 : ∀ t, withinTruthy h2 t = withinTruthy h t := by intro t; rw [eframe]; rfl
    rw [e1]
    cases q : h.intier w with
    | none => rfl
    | some t =>
      simp only [e2, hfree t q]
      split <;> rfl
  · have g : ∀ v, GoodList h2 (h2.subs v).vals := by
      intro v
      by_cases hv : v = w
      · subst hv
        rw [elist]
        have : GoodList h S := by
          refine ⟨hnd, ?_, ?_, ?_⟩
          · intro a ha b hb hab
            rcases (hmem a).mp ha with qa | qa <;> rcases (hmem b).mp hb with qb | qb
            · exact td.distinct v a qa b qb hab
            · subst qb; exact absurd (Or.inr ⟨a, qa, hab⟩) hnl
            · subst qa
              exact absurd (Or.inr ⟨b, qb, ⟨hab.1.symm, hab.2.1.symm, hab.2.2.1.symm, hab.2.2.2.symm⟩⟩) hnl
            · rw [qa, qb]
          · intro a ha b hb; rw [hclS a ha, hclS b hb]
          · intro a ha
            rcases (hmem a).mp ha with q | q
            · exact td.label v a q
            · rw [q]; exact hlab
        exact this.congr (by rw [eframe]) (by rw [eframe]) (by rw [eframe]) (by rw [eframe]) (by rw [eframe])
      · rw [eoth v hv]
        exact (td.good v).congr (by rw [eframe]) (by rw [eframe]) (by rw [eframe]) (by rw [eframe]) (by rw [eframe])
    refine ⟨?_, fun v => (g v).nodup, fun v => (g v).distinct, fun v => (g v).cls, fun v => (g v).label⟩
    intro v r
    rw [esup]
    by_cases hv : v = w
    · subst hv
      rw [elist]
      show r ∈ S ↔ _
      rw [hmem]
      split
      · rename_i q; simp [q]
      · rename_i q; simp [q]; exact td.agree v r
    · rw [eoth v hv]
      split
      · rename_i q
        subst q
        constructor
        · intro hh; exact absurd hh (hxn v)
        · intro hh; exact absurd (Option.some.inj hh).symm hv
      · exact td.agree v r
  · rw [elist]; exact hl2
  · intro v hv hdl
    have := hl1 v hv (Or.inl (by rw [hsub1]; subst hh1; exact hdl.congr (fun _ _ => rfl) (fun _ _ => rfl)))
    rw [hfil v hv] at this
    exact this
  · intro r
    subst hh2
    simp only [assigned, settled]
    by_cases q : r = x ∨ r ∈ (h.subs w).vals
    · rw [if_pos ((hmem r).mpr q.symm), if_pos q]
    · rw [if_neg (by rw [hmem]; exact fun hh => q hh.symm), if_neg q, hsub1, if_neg (fun hh => q (Or.inr hh))]
      subst hh1; rfl
  · intro r hr hrx
    have hnm : r ∉ S := by
      rw [hmem]
      rintro (q | q)
      · exact hr q
      · exact hrx q
    have := hl3 r (by
      rintro v hv ⟨z, hz, hzv⟩
      rw [hsub1] at hzv
      rcases (hmem z).mp hz with q | q
      · exact absurd q (hsv v z hv hzv)
      · subst q; exact absurd hzv (hxn v))
    subst hh2
    simp only [assigned, settled]
    rw [folOf_notMem _ _ _ hnm, prevOf_notMem _ _ _ _ hnm, this.1, this.2]
    subst hh1; exact ⟨rfl, rfl⟩

end ATG
