import Verif.Lemmas.PopRun
import Verif.Lemmas.InterleaveAll
import Verif.Lemmas.Homely
import Verif.Props.Interleave
/-!
# What `pop_class` does to one group
-/
namespace ATG

theorem getElem?_close {α} {pre post : List α} {n : α} {i : Nat} {t t' : α}
    (e1 : (pre ++ post)[i]? = some t) (e2 : (pre ++ post)[i + 1]? = some t') :
    (∃ j : Nat, (pre ++ n :: post)[j]? = some t ∧ (pre ++ n :: post)[j + 1]? = some t' ∧ j + 1 ≠ pre.length ∧
      j ≠ pre.length) ∨
    (pre.getLast? = some t ∧ post.head? = some t') := by
  by_cases h1 : i + 1 < pre.length
  · rw [List.getElem?_append_left (by omega)] at e1 e2
    exact Or.inl ⟨i, by rw [List.getElem?_append_left (by omega)]; exact e1,
      by rw [List.getElem?_append_left (by omega)]; exact e2, by omega, by omega⟩
  · by_cases h2 : i + 1 = pre.length
    · rw [List.getElem?_append_left (by omega)] at e1
      rw [List.getElem?_append_right (by omega), h2, Nat.sub_self] at e2
      refine Or.inr ⟨?_, by rw [List.head?_eq_getElem?]; exact e2⟩
      rw [List.getLast?_eq_getElem?, ← e1]
      congr 1
      omega
    · rw [List.getElem?_append_right (by omega)] at e1 e2
      refine Or.inl ⟨i + 1, ?_, ?_, by omega, by omega⟩
      · rw [List.getElem?_append_right (by omega), show i + 1 - pre.length = (i - pre.length) + 1 by omega]
        simpa using e1
      · rw [List.getElem?_append_right (by omega), show i + 1 + 1 - pre.length = (i + 1 - pre.length) + 1 by omega]
        simpa using e2

theorem getElem?_last_next {α} {pre post : List α} {n t : α} (e : pre.getLast? = some t) :
    ∃ i : Nat, (pre ++ n :: post)[i]? = some t ∧ (pre ++ n :: post)[i + 1]? = some n := by
  rw [List.getLast?_eq_getElem?] at e
  have hl := getElem?_lt e
  refine ⟨pre.length - 1, by rw [List.getElem?_append_left hl]; exact e, ?_⟩
  rw [List.getElem?_append_right (by omega), show pre.length - 1 + 1 - pre.length = 0 by omega]
  rfl

theorem getElem?_next_head {α} {pre post : List α} {n t : α} (e : post.head? = some t) :
    (pre ++ n :: post)[pre.length]? = some n ∧ (pre ++ n :: post)[pre.length + 1]? = some t := by
  rw [List.head?_eq_getElem?] at e
  refine ⟨by simp, ?_⟩
  rw [List.getElem?_append_right (by omega), show pre.length + 1 - pre.length = 0 + 1 by omega]
  simpa using e

/-- the links of the classes of a group after a class was taken out -/
theorem ClassLinks.remove {ct : ClassTab} {p q : List CRef} {c u d : CRef} (cl : ClassLinks ct (p ++ c :: q))
    (own : OwnLinks ct (p ++ q)) (b : Between ct u c d) : ClassLinks (closeLink ct u d) (p ++ q) := by
  have hpar : (closeLink ct u d).parent = ct.parent := rfl
  have his : ∀ x y, (closeLink ct u d).isSub x y = ct.isSub x y := fun x y => isSub_congr hpar x y
  have nd := cl.distinct
  have hperm : (p ++ c :: q).Perm (c :: (p ++ q)) := List.perm_middle
  have nd' : (p ++ q).Nodup ∧ c ∉ p ++ q := by
    rw [hperm.nodup_iff, List.nodup_cons] at nd
    exact ⟨nd.2, nd.1⟩
  have hp : ∀ x, p.getLast? = some x → x = u := by
    intro x hx
    obtain ⟨i, e1, e2⟩ := getElem?_last_next (n := c) (post := q) hx
    have := (cl.down i x c e1 e2).2
    rw [sup_own b.sup] at this
    exact (Option.some.inj this).symm
  have hq : ∀ x, q.head? = some x → x = d := by
    intro x hx
    obtain ⟨e1, e2⟩ := getElem?_next_head (n := c) (pre := p) hx
    have := (cl.down _ c x e1 e2).1
    rw [sub_own b.sub] at this
    exact (Option.some.inj this).symm
  have huq : u ∉ q := by
    intro hu
    rcases List.eq_nil_or_concat p with rfl | ⟨p', x, rfl⟩
    · obtain ⟨r, r1, r2⟩ := cl.top c (by simp)
      rw [sup_own b.sup] at r1
      cases r1
      rcases r2 with r2 | r2
      · rw [(own u (by simp [hu])).2.1] at r2; cases r2
      · exact r2 (by simp [hu])
    · have := hp x (by simp)
      subst this
      have := nd'.1
      simp only [List.concat_eq_append] at this
      rw [List.nodup_append] at this
      exact this.2.2 x (by simp) x hu rfl
  have hdp : d ∉ p := by
    intro hd
    cases q with
    | nil =>
      obtain ⟨r, r1, r2⟩ := cl.bottom c (by simp)
      rw [sub_own b.sub] at r1
      cases r1
      rcases r2 with r2 | r2
      · rw [(own d (by simp [hd])).2.2] at r2; cases r2
      · exact r2 (by simp [hd])
    | cons x q =>
      have := hq x rfl
      subst this
      have := nd'.1
      rw [List.nodup_append] at this
      exact this.2.2 x hd x (by simp) rfl
  have ownU : (closeLink ct u d).ownSub u = some (some d) := by
    simp [closeLink, ClassTab.putSup, ClassTab.putSub]
  have ownD : (closeLink ct u d).ownSup d = some (some u) := by
    simp [closeLink, ClassTab.putSup, ClassTab.putSub]
  have sub_eq : ∀ x ∈ p ++ q, x ≠ u → (closeLink ct u d).sub x = ct.sub x := by
    intro x hx hxu
    obtain ⟨⟨a, e, oa, oe⟩, -⟩ := own x hx
    rw [sub_own oa]
    refine sub_own ?_
    simp [closeLink, ClassTab.putSup, ClassTab.putSub, upd, hxu, oa]
  have sup_eq : ∀ x ∈ p ++ q, x ≠ d → (closeLink ct u d).sup x = ct.sup x := by
    intro x hx hxd
    obtain ⟨⟨a, e, oa, oe⟩, -⟩ := own x hx
    rw [sup_own oe]
    refine sup_own ?_
    simp [closeLink, ClassTab.putSup, ClassTab.putSub, upd, hxd, oe]
  have idx : ∀ (j : Nat), (p ++ c :: q)[j]? = some u → j + 1 = p.length := by
    intro j hj
    have hu : u ∈ p := by
      have := hperm.mem_iff.mp (List.mem_of_getElem? hj)
      rcases List.mem_cons.mp this with e | e
      · exact absurd e b.neU
      · rcases List.mem_append.mp e with e | e
        · exact e
        · exact absurd e huq
    have hpl : p.getLast? = some u := by
      cases hg : p.getLast? with
      | none => rw [List.getLast?_eq_none_iff] at hg; rw [hg] at hu; simp at hu
      | some x => rw [hp x hg]
    rw [List.getLast?_eq_getElem?] at hpl
    have hl := getElem?_lt hpl
    have h2 : (p ++ c :: q)[p.length - 1]? = some u := by rw [List.getElem?_append_left hl]; exact hpl
    have l1 := getElem?_lt hj
    have l2 := getElem?_lt h2
    rw [List.getElem?_eq_getElem l1, Option.some.injEq] at hj
    rw [List.getElem?_eq_getElem l2, Option.some.injEq] at h2
    have := (List.getElem_inj nd).mp (hj.trans h2.symm)
    omega
  have idxd : ∀ (j : Nat), (p ++ c :: q)[j]? = some d → j = p.length + 1 := by
    intro j hj
    have hd : d ∈ q := by
      have := hperm.mem_iff.mp (List.mem_of_getElem? hj)
      rcases List.mem_cons.mp this with e | e
      · exact absurd e b.neD
      · rcases List.mem_append.mp e with e | e
        · exact absurd e hdp
        · exact e
    have hql : q.head? = some d := by
      cases hg : q.head? with
      | none => rw [List.head?_eq_none_iff] at hg; rw [hg] at hd; simp at hd
      | some x => rw [hq x hg]
    have h2 := (getElem?_next_head (n := c) (pre := p) hql).2
    have l1 := getElem?_lt hj
    have l2 := getElem?_lt h2
    rw [List.getElem?_eq_getElem l1, Option.some.injEq] at hj
    rw [List.getElem?_eq_getElem l2, Option.some.injEq] at h2
    exact (List.getElem_inj nd).mp (hj.trans h2.symm)
  refine ⟨nd'.1, ?_, ?_, ?_, ?_⟩
  · intro i x x' e1 e2
    rcases getElem?_close (n := c) e1 e2 with ⟨j, q1, q2, q3, q4⟩ | ⟨q1, q2⟩
    · have hxu : x ≠ u := fun e => q3 (idx j (e ▸ q1))
      have hxd : x' ≠ d := fun e => q4 (by have := idxd (j + 1) (e ▸ q2); omega)
      rw [sub_eq x (List.mem_of_getElem? e1) hxu, sup_eq x' (List.mem_of_getElem? e2) hxd]
      exact cl.down j x x' q1 q2
    · rw [hp x q1, hq x' q2]
      exact ⟨sub_own ownU, sup_own ownD⟩
  · intro i x x' e1 e2
    rw [his, his]
    exact ⟨(own x (List.mem_of_getElem? e1)).2.1, (own x' (List.mem_of_getElem? e2)).2.2⟩
  · intro x e
    cases p with
    | nil =>
      have : x = d := hq x (by rw [List.head?_eq_getElem?]; simpa using e)
      subst this
      obtain ⟨r, r1, r2⟩ := cl.top c (by simp)
      rw [sup_own b.sup] at r1
      cases r1
      refine ⟨u, sup_own ownD, ?_⟩
      rw [his]
      exact Or.inr huq
    | cons a p =>
      simp only [List.cons_append, List.getElem?_cons_zero, Option.some.injEq] at e
      subst e
      rw [sup_eq a (by simp) (fun e => hdp (by simp [e]))]
      obtain ⟨r, r1, r2⟩ := cl.top a (by simp)
      refine ⟨r, r1, ?_⟩
      rw [his]
      refine r2.imp id fun hr hmem => hr ?_
      exact hperm.mem_iff.mpr (List.mem_cons_of_mem _ hmem)
  · intro x e
    rcases List.eq_nil_or_concat q with rfl | ⟨q', z, rfl⟩
    · have : x = u := hp x (by rw [List.getLast?_eq_getElem?]; simpa using e)
      subst this
      refine ⟨d, sub_own ownU, ?_⟩
      rw [his]
      exact Or.inr (by simpa using hdp)
    · simp only [List.concat_eq_append] at *
      rw [show (p ++ (q' ++ [z]))[(p ++ (q' ++ [z])).length - 1]? = some z by
        rw [← List.append_assoc]; simp] at e
      cases e
      rw [sub_eq x (by simp) (fun e => huq (by simp [e]))]
      obtain ⟨r, r1, r2⟩ := cl.bottom x (by
        rw [← List.cons_append, ← List.append_assoc]; simp)
      refine ⟨r, r1, ?_⟩
      rw [his]
      refine r2.imp id fun hr hmem => hr ?_
      exact hperm.mem_iff.mpr (List.mem_cons_of_mem _ hmem)


theorem AlignedTiers.remove {h : Heap} {pre post : List TRef} {pt : TRef} (fit : FitGroup h (pre ++ pt :: post))
    (cl : ClassLinks h.ct ((pre ++ post).map h.tcls)) : AlignedTiers h (pre ++ post) := by
  have hsub : (pre ++ post).Sublist (pre ++ pt :: post) := by simp
  have hmem : ∀ t ∈ pre ++ post, t ∈ pre ++ pt :: post := fun t ht => hsub.subset ht
  refine ⟨?_, fun t ht => fit.cls t (hmem t ht), fun t ht => fit.label t (hmem t ht), ?_, ?_⟩
  · have := fit.once
    rw [List.map_append, List.map_cons, List.flatten_append, List.flatten_cons] at this
    rw [List.map_append, List.flatten_append]
    exact List.Nodup.sublist ((List.Sublist.refl _).append (List.sublist_append_right _ _)) this
  · intro i t t' e1 e2
    exact (cl.down i _ _ (by simp only [List.getElem?_map, e1]; rfl) (by simp only [List.getElem?_map, e2]; rfl)).1
  · intro i t t' e1 e2
    rcases getElem?_close (n := pt) e1 e2 with ⟨j, q1, q2, -⟩ | ⟨q1, q2⟩
    · exact fit.aligned j t t' q1 q2
    · obtain ⟨i, a1, a2⟩ := getElem?_last_next (n := pt) (post := post) q1
      obtain ⟨b1, b2⟩ := getElem?_next_head (n := pt) (pre := pre) q2
      exact (fit.aligned _ _ _ a1 a2).trans (fit.aligned _ _ _ b1 b2)
        (fit.positive t' (List.mem_of_getElem? b2))

/-- stripping the intervals of the last tier leaves the relations among the tiers -/
theorem RelatedByContainment.strip {h h' : Heap} {ts : List TRef} {last : TRef} (r : RelatedByContainment h ts)
    (s : Strips h h' (h.tseq last).vals) (hl : ts.getLast? = some last)
    (hd : ∀ v x, x ∈ (h.subs v).vals → h.sup x = some v)
    (once : (ts.map fun t => (h.tseq t).vals).flatten.Nodup) : RelatedByContainment h' ts := by
  have f := s.frame
  have ftseq : h'.tseq = h.tseq := by rw [f]
  have fstart : h'.start = h.start := by rw [f]
  have fstop : h'.stop = h.stop := by rw [f]
  have ffol : h'.fol = h.fol := by rw [f]
  have fprev : h'.prev = h.prev := by rw [f]
  have hnl : ∀ (i : Nat) t t', ts[i]? = some t → ts[i + 1]? = some t' → ∀ u ∈ (h.tseq t).vals,
      u ∉ (h.tseq last).vals := by
    intro i t t' e1 e2 u hu hul
    rw [List.getLast?_eq_getElem?] at hl
    have l2 := getElem?_lt e2
    rw [List.nodup_iff_pairwise_ne, List.pairwise_flatten] at once
    have := once.2
    rw [List.pairwise_map, List.pairwise_iff_getElem] at this
    have lt1 : i < ts.length := by omega
    have lt2 : ts.length - 1 < ts.length := by omega
    have q := this i (ts.length - 1) lt1 lt2 (by omega)
    rw [List.getElem?_eq_getElem lt1, Option.some.injEq] at e1
    rw [List.getElem?_eq_getElem lt2, Option.some.injEq] at hl
    rw [e1, hl] at q
    exact q u hu u hul rfl
  have hsub : ∀ (i : Nat) t t', ts[i]? = some t → ts[i + 1]? = some t' → ∀ u ∈ (h.tseq t).vals,
      h'.subs u = h.subs u := by
    intro i t t' e1 e2 u hu
    rw [s.subs, if_neg (hnl i t t' e1 e2 u hu)]
  have hins : ∀ u x, Inside h' u x ↔ Inside h u x := by
    intro u x; unfold Inside; rw [fstart, fstop]
  refine ⟨?_, ?_, ?_, ?_, ?_, ?_⟩
  · intro i t t' e1 e2 u hu
    rw [ftseq] at hu ⊢
    rw [hsub i t t' e1 e2 u hu]
    simp only [hins]
    exact r.subs i t t' e1 e2 u hu
  · intro i t t' e1 e2 u hu
    rw [ftseq] at hu
    rw [hsub i t t' e1 e2 u hu]
    exact (r.linked i t t' e1 e2 u hu).congr (fun x _ => by rw [ffol]) (fun x _ => by rw [fprev])
  · intro i t t' e1 e2 u hu x hx
    rw [ftseq] at hu
    rw [hsub i t t' e1 e2 u hu] at hx
    obtain ⟨k1, k2⟩ := s.kept x (by
      intro w hw hxw
      have q1 := hd w x hxw
      rw [hd u x hx] at q1
      cases q1
      exact hnl i t t' e1 e2 _ hu hw)
    rw [k1, k2]
    exact r.sup i t t' e1 e2 u hu x hx
  · intro i t t' e1 e2 x hx
    rw [ftseq] at hx ⊢
    obtain ⟨u, hu, hxu⟩ := r.covered i t t' e1 e2 x hx
    exact ⟨u, hu, by rw [hsub i t t' e1 e2 u hu]; exact hxu⟩
  · intro t e x hx
    rw [ftseq] at hx
    by_cases q : ∃ w ∈ (h.tseq last).vals, x ∈ (h.subs w).vals
    · obtain ⟨w, hw, hxw⟩ := q
      exact s.freed w hw x hxw
    · rw [(s.kept x (fun w hw hxw => q ⟨w, hw, hxw⟩)).1]
      exact r.top t e x hx
  · intro i t t' e1 e2 u hu
    rw [ftseq] at hu
    rw [s.cont, if_neg (hnl i t t' e1 e2 u hu)]
    exact r.contains i t t' e1 e2 u hu

theorem TidyOn.strip {h h' : Heap} {xs : List Ref} {L : Ref → Prop} (td : TidyOn L h) (s : Strips h h' xs) :
    TidyOn L h' := by
  have f := s.frame
  have hin : ∀ v x, x ∈ (h'.subs v).vals → v ∉ xs ∧ x ∈ (h.subs v).vals := by
    intro v x hx
    rw [s.subs] at hx
    by_cases e : v ∈ xs
    · rw [if_pos e] at hx; exact nomatch hx
    · rw [if_neg e] at hx; exact ⟨e, hx⟩
  have hv : ∀ x y, SameValue h' x y → SameValue h x y := by
    intro x y q
    unfold SameValue Heap.isPoint at *
    rw [show h'.ct = h.ct by rw [f], show h'.cls = h.cls by rw [f], show h'.start = h.start by rw [f],
      show h'.stop = h.stop by rw [f], show h'.label = h.label by rw [f]] at q
    exact q
  have fcls : h'.cls = h.cls := by rw [f]
  have flab : h'.label = h.label := by rw [f]
  refine ⟨?_, ?_, ?_, ?_, ?_, ?_⟩
  · intro v x hx
    obtain ⟨q1, q2⟩ := hin v x hx
    rw [(s.kept x (by
      intro w hw hxw
      have a := td.down w x hxw
      rw [td.down v x q2] at a
      cases a
      exact q1 hw)).1]
    exact td.down v x q2
  · intro v x hL hs
    have hnf : ∀ w ∈ xs, x ∉ (h.subs w).vals := by
      intro w hw hxw
      rw [s.freed w hw x hxw] at hs
      cases hs
    rw [(s.kept x hnf).1] at hs
    have := td.up v x hL hs
    rw [s.subs, if_neg (fun e => hnf v e this)]
    exact this
  · intro v
    rw [s.subs]
    by_cases e : v ∈ xs
    · rw [if_pos e]; exact List.nodup_nil
    · rw [if_neg e]; exact td.nodup v
  · intro v x hx y hy q
    exact td.distinct v x (hin v x hx).2 y (hin v y hy).2 (hv x y q)
  · intro v x hx y hy
    rw [fcls]
    exact td.cls v x (hin v x hx).2 y (hin v y hy).2
  · intro v x hx
    rw [flab]
    exact td.label v x (hin v x hx).2

theorem popGroup_ok {u d : CRef} {L : Ref → Prop} (name : String) (h : Heap) (g : GRef) (pre post : List TRef) (pt : TRef)
    (hg : h.gtiers g = pre ++ pt :: post) (hpt : h.ct.name (h.tcls pt) = name)
    (hother : ∀ t ∈ pre ++ post, h.ct.name (h.tcls t) ≠ name) (hne : pre ++ post ≠ [])
    (b : Between h.ct u (h.tcls pt) d) (cl : ClassLinks (closeLink h.ct u d) ((pre ++ post).map h.tcls)) (fit : FitGroup h (pre ++ pt :: post))
    (td : TidyOn L h) (hL : ∀ x, OnTiers h (pre ++ post) x → L x) (hLp : ∀ x, OnTiers h [pt] x → ¬ L x)
    (uc : UpClosed h (pre ++ pt :: post)) :
    ∃ h', popGroup g name h = .ok h.nG h' ∧ h'.gtiers = upd h.gtiers h.nG (pre ++ post) ∧ h'.nG = h.nG + 1 ∧
      RelatedByContainment h' (pre ++ post) ∧ SameContents { h with ct := closeLink h.ct u d } h' ∧
      (∀ t, (pre ++ post).getLast? = some t → ∀ x ∈ (h.tseq t).vals,
        (h'.subs x).vals = [] ∧ h'.cont x = .detached []) ∧
      TidyOn L h' ∧ Apart h h' (Beneath h (pre ++ pt :: post)) ∧ h'.nT = h.nT ∧ h'.agroups = h.agroups ∧
      (∀ v x, h'.sup x = some v → h.sup x = some v ∨
        OnTiers h (pre ++ pt :: post) v ∧ OnTiers h (pre ++ pt :: post) x) ∧
      (∀ v x, x ∈ (h'.subs v).vals → x ∈ (h.subs v).vals ∨
        OnTiers h (pre ++ pt :: post) v ∧ OnTiers h (pre ++ pt :: post) x) ∧
      FitGroup h' (pre ++ post) ∧ UpClosed h' (pre ++ post) ∧ Typed h' (pre ++ post) ∧ FirstKept h h' (pre ++ post) ∧
      h'.intier = h.intier ∧ (∀ t, h'.tsup t = h.tsup t ∧ h'.tsub t = h.tsub t ∧ t ∉ pre ++ post ∨
        h'.tsup t = (closeLink h.ct u d).sup (h.tcls t) ∧ h'.tsub t = (closeLink h.ct u d).sub (h.tcls t)) ∧
      (∀ x, ¬ OnTiers h (pre ++ post) x → (h'.subs x).ecls = (h.subs x).ecls) ∧ h'.gpoint = upd h.gpoint h.nG false := by
  have hcl : ∀ v x, h.sup x = some v → (Beneath h (pre ++ pt :: post) v ↔ Beneath h (pre ++ pt :: post) x) :=
    fun v x => uc.beneath
  have hf1 : (h.gtiers g).filter (fun t => decide (h.ct.name (h.tcls t) = name)) = [pt] := by
    rw [hg, List.filter_append, List.filter_cons_of_pos (by simpa using hpt)]
    rw [List.filter_eq_nil_iff.mpr (fun t ht => by simpa using hother t (by simp [ht])),
      List.filter_eq_nil_iff.mpr (fun t ht => by simpa using hother t (by simp [ht]))]
    rfl
  have hf2 : (h.gtiers g).filter (fun t => decide (h.ct.name (h.tcls t) ≠ name)) = pre ++ post := by
    rw [hg, List.filter_append, List.filter_cons_of_neg (by simpa using hpt)]
    rw [List.filter_eq_self.mpr (fun t ht => by simpa using hother t (by simp [ht])),
      List.filter_eq_self.mpr (fun t ht => by simpa using hother t (by simp [ht]))]
  obtain ⟨ct1, e1, e2⟩ := pop_links b
  let h1 : Heap := { h with ct := closeLink h.ct u d }
  let h2 : Heap := refreshed h1 (pre ++ post)
  have cl2 : ClassLinks h2.ct ((pre ++ post).map h2.tcls) := cl
  have fit2 : FitGroup h2 (pre ++ pt :: post) :=
    ⟨fit.once, fit.cls, fit.label, fit.disjoint, fit.positive,
      fun i t t' q1 q2 => (fit.aligned i t t' q1 q2).congr rfl rfl, fit.closed, fit.old⟩
  have ch : ClassChain h2 (pre ++ post) := cl2.chain
    (fun t ht => by
      show (if t ∈ pre ++ post then _ else _) = _
      rw [if_pos ht]; rfl)
    (fun t ht => by
      show (if t ∈ pre ++ post then _ else _) = _
      rw [if_pos ht]; rfl)
  have hsv : ∀ x y, SameValue h2 x y → SameValue h x y := by
    intro x y q
    unfold SameValue Heap.isPoint at *
    rw [show ∀ c, h2.ct.isSub c cPoint = h.ct.isSub c cPoint from
      fun c => isSub_congr (ct := h.ct) (ct' := closeLink h.ct u d) rfl c cPoint] at q
    rw [show ∀ c, h2.ct.isSub c cPoint = h.ct.isSub c cPoint from
      fun c => isSub_congr (ct := h.ct) (ct' := closeLink h.ct u d) rfl c cPoint] at q
    exact q
  have td2 : TidyOn L h2 := ⟨td.down, td.up, td.nodup,
    fun v x hx y hy q => td.distinct v x hx y hy (hsv x y q), td.cls, td.label⟩
  have al2 : AlignedTiers h2 (pre ++ post) := AlignedTiers.remove fit2 cl2
  have hent : ∀ x, x ∈ entriesOf h2 (pre ++ post) ↔ OnTiers h (pre ++ post) x := fun x => mem_entriesOf
  have hA : ∀ x, OnTiers h (pre ++ post) x → OnTiers h (pre ++ pt :: post) x := by
    rintro x ⟨t, ht, hx⟩
    exact ⟨t, by simp only [List.mem_append, List.mem_cons] at ht ⊢; rcases ht with q | q <;> simp [q], hx⟩
  obtain ⟨h3, e3, k1, k2, k3, k4, k5, k6, k7, k8, k9, k10, k11, k12, k13, k14⟩ :=
    newGroup_among (pre ++ post) h2 ch hne al2 (A := Beneath h (pre ++ pt :: post)) td2
      (fun x hx => hL x ((hent x).mp hx)) (fun x hx => .on (hA x ((hent x).mp hx))) hcl
  obtain ⟨h3', e3', kd1, kd2, kd3, kd4, kd5⟩ := newGroup_kinds (pre ++ post) h2 ch hne al2 td2 (fun x hx => hL x ((hent x).mp hx))
  have hkd : h3' = h3 := by
    rw [e3] at e3'
    injection e3' with _ q
    exact q.symm
  subst hkd
  have td3 : TidyOn L h3' := by
    apply k5
    intro v hv x hx hLx
    have hAx := (fit.closed v x hx).mp (hA v ((hent v).mp hv))
    obtain ⟨t, ht, hxt⟩ := hAx
    rw [hent]
    simp only [List.mem_append, List.mem_cons] at ht
    rcases ht with q | q | q
    · exact ⟨t, by simp [q], hxt⟩
    · subst q
      exact absurd hLx (hLp x ⟨t, by simp, hxt⟩)
    · exact ⟨t, by simp [q], hxt⟩
  obtain ⟨last, hlast⟩ : ∃ t, (pre ++ post).getLast? = some t := by
    cases e : (pre ++ post).getLast? with
    | none => exact absurd (List.getLast?_eq_none_iff.mp e) hne
    | some t => exact ⟨t, rfl⟩
  obtain ⟨h4, e4, s⟩ := forL_strip (h3'.tseq last).vals h3' td3.down
  have hseq : h3'.tseq = h.tseq := k4.tseq
  have f := s.frame
  have hon : ∀ x, OnTiers h3' (pre ++ post) x ↔ OnTiers h (pre ++ post) x := by
    intro x; unfold OnTiers; rw [hseq]
  have hlm : last ∈ pre ++ post := List.mem_of_getLast? hlast
  have hup3 : ∀ v x, h3'.sup x = some v → h.sup x = some v ∨
      OnTiers h (pre ++ pt :: post) v ∧ OnTiers h (pre ++ pt :: post) x := by
    intro v x q
    rcases k12 v x q with ⟨a, -⟩ | ⟨a, a'⟩
    · exact Or.inl a
    · exact Or.inr ⟨hA v ((hent v).mp a), hA x ((hent x).mp a')⟩
  have hrel : RelatedByContainment h4 (pre ++ post) := by
    refine k3.strip s hlast td3.down ?_
    rw [hseq]; exact al2.once
  have hsup4 : ∀ v x, h4.sup x = some v → h3'.sup x = some v := by
    intro v x q
    by_cases e : ∃ w ∈ (h3'.tseq last).vals, x ∈ (h3'.subs w).vals
    · obtain ⟨w, hw, hxw⟩ := e
      rw [s.freed w hw x hxw] at q
      cases q
    · rw [(s.kept x (fun w hw hxw => e ⟨w, hw, hxw⟩)).1] at q
      exact q
  have hsub4 : ∀ v x, x ∈ (h4.subs v).vals → v ∉ (h3'.tseq last).vals ∧ x ∈ (h3'.subs v).vals := by
    intro v x q
    rw [s.subs] at q
    by_cases e : v ∈ (h3'.tseq last).vals
    · rw [if_pos e] at q; exact nomatch q
    · rw [if_neg e] at q; exact ⟨e, q⟩
  have hseq4 : h4.tseq = h.tseq := by rw [f]; exact k4.tseq
  have hon4 : ∀ x, OnTiers h4 (pre ++ post) x ↔ OnTiers h (pre ++ post) x := by
    intro x; unfold OnTiers; rw [hseq4]
  refine ⟨h4, ?_, ?_, ?_, hrel, ?_, ?_, td3.strip s, ?_, ?_, ?_, ?_, ?_, ?_, ?_, ?_, ?_, ?_, ?_, ?_,
    by rw [show h4.gpoint = h3'.gpoint by rw [f], kd5]; rfl⟩
  · unfold popGroup
    mstep M.get_apply h
    rw [hf1, hf2]
    simp only [sup_own b.sup, sub_own b.sub]
    mstep liftC_ok (fun ct => setSubClass ct u (some d)) h ct1 () e1
    mstep liftC_ok (fun ct => setSupClass ct d (some u)) { h with ct := ct1 } (closeLink h.ct u d) () e2
    mstep forL_refresh (pre ++ post) h1
    mstep e3
    mstep M.get_apply h3'
    rw [k1]
    show (match (upd h.gtiers h.nG (pre ++ post) h.nG).getLast? with
        | none => M.throw .indexError
        | some last => do
          M.forL (h3'.tseq last).vals (fun x => do
            setSubs x []
            M.modify fun h => { h with cont := upd h.cont x (.detached []) })
          pure h.nG) h3' = _
    rw [upd_same, hlast]
    simp only
    mstep e4
    rfl
  · rw [show h4.gtiers = h3'.gtiers by rw [f], k1]; rfl
  · rw [show h4.nG = h3'.nG by rw [f], k2]; rfl
  · exact ⟨by rw [f]; exact k4.start, by rw [f]; exact k4.stop, by rw [f]; exact k4.label, by rw [f]; exact k4.cls,
      by rw [f]; exact k4.nE, by rw [f]; exact k4.tseq, by rw [f]; exact k4.tcls, by rw [f]; exact k4.tname,
      by rw [f]; exact k4.ct⟩
  · intro t ht x hx
    rw [hlast] at ht
    cases ht
    rw [s.subs, s.cont, hseq, if_pos hx, if_pos hx]
    exact ⟨rfl, rfl⟩
  · have hxs : ∀ v, ¬ Beneath h (pre ++ pt :: post) v → v ∉ (h3'.tseq last).vals := by
      intro v hv hvl
      rw [hseq] at hvl
      exact hv (.on (hA v ⟨last, hlm, hvl⟩))
    have hkept : ∀ x, ¬ Beneath h (pre ++ pt :: post) x → h4.sup x = h3'.sup x ∧ h4.within x = h3'.within x := by
      intro x hx
      apply s.kept
      intro w hw hxw
      have hwA : OnTiers h (pre ++ pt :: post) w := hA w ⟨last, hlm, by rw [← hseq]; exact hw⟩
      rcases hup3 w x (td3.down w x hxw) with q | q
      · exact hx ((hcl w x q).mp (.on hwA))
      · exact hx (.on q.2)
    refine ⟨?_, ?_, ?_, ?_, ?_, ?_⟩
    · intro v hv
      rw [s.subs, if_neg (hxs v hv)]
      exact k6.subs v hv
    · intro x hx
      rw [(hkept x hx).1]; exact k6.sup x hx
    · intro x hx
      rw [(hkept x hx).2]; exact k6.within x hx
    · intro v hv
      rw [s.cont, if_neg (hxs v hv)]
      exact k6.cont v hv
    · intro x hx
      rw [show h4.fol = h3'.fol by rw [f]]; exact k6.fol x hx
    · intro x hx
      rw [show h4.prev = h3'.prev by rw [f]]; exact k6.prev x hx
  · rw [show h4.nT = h3'.nT by rw [f], k7]; rfl
  · rw [show h4.agroups = h3'.agroups by rw [f], k10]; rfl
  · exact fun v x q => hup3 v x (hsup4 v x q)
  · intro v x q
    rcases k11 v x (hsub4 v x q).2 with ⟨a, -⟩ | ⟨a, a'⟩
    · exact Or.inl a
    · exact Or.inr ⟨hA v ((hent v).mp a), hA x ((hent x).mp a')⟩
  · have hm : ∀ t ∈ pre ++ post, t ∈ pre ++ pt :: post := fun t ht => by
      simp only [List.mem_append, List.mem_cons] at ht ⊢; rcases ht with q | q <;> simp [q]
    constructor
    · rw [hseq4]; exact al2.once
    · rw [hseq4, show h4.cls = h.cls by rw [f]; exact k4.cls, show h4.tcls = h.tcls by rw [f]; exact k4.tcls]
      exact fun t ht => fit.cls t (hm t ht)
    · rw [hseq4, show h4.label = h.label by rw [f]; exact k4.label]
      exact fun t ht => fit.label t (hm t ht)
    · rw [hseq4, show h4.start = h.start by rw [f]; exact k4.start, show h4.stop = h.stop by rw [f]; exact k4.stop]
      exact fun t ht => fit.disjoint t (hm t ht)
    · rw [hseq4, show h4.start = h.start by rw [f]; exact k4.start, show h4.stop = h.stop by rw [f]; exact k4.stop]
      exact fun t ht => fit.positive t (hm t ht)
    · intro i t t' q1 q2
      rw [hseq4]
      exact (al2.aligned i t t' q1 q2).congr (by rw [f]; exact k4.start) (by rw [f]; exact k4.stop)
    · intro v x hx
      obtain ⟨hv, hx3⟩ := hsub4 v x hx
      show OnTiers h4 (pre ++ post) v ↔ OnTiers h4 (pre ++ post) x
      constructor
      · rintro ⟨t, ht, hvt⟩
        obtain ⟨i, e1⟩ := List.mem_iff_getElem?.mp ht
        cases e2 : (pre ++ post)[i + 1]? with
        | none =>
          exfalso
          apply hv
          have hl := getElem?_lt e1
          rw [List.getElem?_eq_none_iff] at e2
          rw [List.getLast?_eq_getElem?, show (pre ++ post).length - 1 = i by omega, e1] at hlast
          cases hlast
          rw [hseq, ← hseq4]; exact hvt
        | some t' =>
          rw [(hrel.subs i t t' e1 e2 v hvt).1] at hx
          exact ⟨t', List.mem_of_getElem? e2, (List.mem_filter.mp hx).1⟩
      · intro hxt
        rcases k11 v x hx3 with ⟨-, a⟩ | ⟨a, -⟩
        · exact absurd ((hent x).mpr ((hon4 x).mp hxt)) a
        · exact (hon4 v).mpr ((hent v).mp a)
    · intro t ht
      rw [hseq4, show h4.nT = h.nT by rw [f]; exact k7, show h4.nE = h.nE by rw [f]; exact k4.nE]
      exact fit.old t (hm t ht)
  · intro v x q hx
    rw [hon4] at hx ⊢
    rcases k12 v x (hsup4 v x q) with ⟨-, a⟩ | ⟨a, -⟩
    · exact absurd ((hent x).mpr hx) a
    · exact (hent v).mp a
  · intro i t t' q1 q2 v hv
    rw [hseq4] at hv
    rw [show h4.tcls = h.tcls by rw [f]; exact k4.tcls, s.subs, if_neg]
    · exact kd2 i t t' q1 q2 v hv
    · intro q
      rw [hseq] at q
      rw [List.getLast?_eq_getElem?] at hlast
      have hl := getElem?_lt q2
      have := flatten_index (f := fun t => (h2.tseq t).vals) al2.once q1 hlast hv q
      omega
  · intro t ht x hx hs
    obtain ⟨k, k', k''⟩ := kd3 t ht x hx hs
    rw [show h4.fol = h3'.fol by rw [f], show h4.prev = h3'.prev by rw [f]]
    refine ⟨k, Eq.trans (s.kept x ?_).2 k', k''⟩
    intro w _ hxw
    have q := td3.down w x hxw
    rw [k3.top t ht x (by rw [hseq]; exact hx)] at q
    cases q
  · rw [show h4.intier = h3'.intier by rw [f]]; exact kd4
  · intro t
    rw [show h4.tsup = h3'.tsup by rw [f], show h4.tsub = h3'.tsub by rw [f], k8, k9]
    by_cases q : t ∈ pre ++ post
    · exact Or.inr ⟨if_pos q, if_pos q⟩
    · exact Or.inl ⟨if_neg q, if_neg q, q⟩
  · intro x hx
    rw [s.subs, if_neg (fun q => hx ⟨last, hlm, by rw [← hseq]; exact q⟩)]
    exact kd1 x hx

end ATG
