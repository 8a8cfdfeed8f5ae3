import Verif.Lemmas.Pad
import Verif.Props.Extent
import Verif.Props.Queries
/-!
# The two padding loops of `AlignedTextGrid.cleanup` (`aligned_textgrid.py:482-508`)
-/
namespace ATG

/-- an interval group all of whose tiers are in good order and reach from `lo` to `hi` -/
structure Flush (h : Heap) (g : GRef) (lo hi : Time) : Prop where
  interval : h.gpoint g = false
  nonempty : h.gtiers g ≠ []
  nodup : (h.gtiers g).Nodup
  good : ∀ t ∈ h.gtiers g, GoodTier h t
  first : ∀ t ∈ h.gtiers g, Least h.start (h.tseq t).vals lo
  last : ∀ t ∈ h.gtiers g, Greatest h.stop (h.tseq t).vals hi

theorem CloseTo.rfl' (a : Time) : CloseTo a a := by
  unfold CloseTo; constructor <;> grind

theorem lt_of_not_close {x m : Time} (h : m ≤ x) (hc : ¬ allclose x m = true) : m < x := by
  rw [allclose_iff] at hc
  by_cases e : m < x
  · exact e
  · have : x = m := by grind
    exact absurd (this ▸ CloseTo.rfl' m) hc

theorem Flush.noEmpty {h g lo hi} (f : Flush h g lo hi) : NoEmptyTier h g := by
  intro t ht e
  obtain ⟨⟨x, hx, _⟩, _⟩ := f.first t ht
  rw [e] at hx
  cases hx

theorem Flush.xmin {h g lo hi} (f : Flush h g lo hi) : groupXmin h g = .ok lo := by
  rw [C44_group_xmin]
  refine ⟨f.noEmpty, ?_, ?_⟩
  · obtain ⟨t, ht⟩ := List.exists_mem_of_ne_nil _ f.nonempty
    obtain ⟨⟨x, hx, e⟩, _⟩ := f.first t ht
    exact ⟨x, List.mem_flatMap.mpr ⟨t, ht, hx⟩, e⟩
  · intro x hx
    obtain ⟨t, ht, hx⟩ := List.mem_flatMap.mp hx
    exact (f.first t ht).2 x hx

theorem Flush.xmax {h g lo hi} (f : Flush h g lo hi) : groupXmax h g = .ok hi := by
  rw [C44_group_xmax h g hi f.interval]
  refine ⟨f.noEmpty, ?_, ?_⟩
  · obtain ⟨t, ht⟩ := List.exists_mem_of_ne_nil _ f.nonempty
    obtain ⟨⟨x, hx, e⟩, _⟩ := f.last t ht
    exact ⟨x, List.mem_flatMap.mpr ⟨t, ht, hx⟩, e⟩
  · intro x hx
    obtain ⟨t, ht, hx⟩ := List.mem_flatMap.mp hx
    exact (f.last t ht).2 x hx

theorem Flush.entry {h h' : Heap} {g lo hi} (e : EntryFrame h h')
    (ht : ∀ t ∈ h.gtiers g, h'.tseq t = h.tseq t) (f : Flush h g lo hi) : Flush h' g lo hi where
  interval := by rw [e.gpoint]; exact f.interval
  nonempty := by rw [e.gtiers]; exact f.nonempty
  nodup := by rw [e.gtiers]; exact f.nodup
  good := by rw [e.gtiers]; exact fun t hm => (f.good t hm).entry e (ht t hm)
  first := by
    rw [e.gtiers]
    intro t hm
    have hs : ∀ x ∈ (h.tseq t).vals, h'.start x = h.start x := fun x hx =>
      congrArg Prod.fst (e.span x ((f.good t hm).old x hx))
    obtain ⟨⟨x, hx, ex⟩, hm'⟩ := f.first t hm
    rw [ht t hm]
    exact ⟨⟨x, hx, (hs x hx).trans ex⟩, fun y hy => by rw [hs y hy]; exact hm' y hy⟩
  last := by
    rw [e.gtiers]
    intro t hm
    have hs : ∀ x ∈ (h.tseq t).vals, h'.stop x = h.stop x := fun x hx =>
      congrArg Prod.snd (e.span x ((f.good t hm).old x hx))
    obtain ⟨⟨x, hx, ex⟩, hm'⟩ := f.last t hm
    rw [ht t hm]
    exact ⟨⟨x, hx, (hs x hx).trans ex⟩, fun y hy => by rw [hs y hy]; exact hm' y hy⟩

/-- `l` are blank intervals of class `c` that `h` did not have, with these spans -/
structure PadOf (h h' : Heap) (c : CRef) (spans : List (Time × Time)) (l : List Ref) : Prop where
  spans : l.map h'.span = spans
  fresh : ∀ r ∈ l, h.nE ≤ r ∧ r < h'.nE
  cls : ∀ r ∈ l, h'.cls r = c
  blank : ∀ r ∈ l, h'.label r = ""

theorem PadOf.entry {h0 h h' : Heap} {c s l} (e : EntryFrame h h') (p : PadOf h0 h c s l) : PadOf h0 h' c s l where
  spans := by rw [map_span_congr e l (fun x hx => (p.fresh x hx).2)]; exact p.spans
  fresh r hr := ⟨(p.fresh r hr).1, Nat.lt_of_lt_of_le (p.fresh r hr).2 e.nE⟩
  cls r hr := (e.cls r (p.fresh r hr).2).trans (p.cls r hr)
  blank r hr := (e.label r (p.fresh r hr).2).trans (p.blank r hr)

theorem PadOf.grow {h0 h h' : Heap} {c s l} (e : h0.nE ≤ h.nE) (p : PadOf h h' c s l) : PadOf h0 h' c s l where
  spans := p.spans
  fresh r hr := ⟨Nat.le_trans e (p.fresh r hr).1, (p.fresh r hr).2⟩
  cls := p.cls
  blank := p.blank

theorem PadOf.nil (h h' : Heap) (c : CRef) : PadOf h h' c [] [] := ⟨rfl, by simp, by simp, by simp⟩

theorem NewBlank.pad {h h' : Heap} {c s e r} (b : NewBlank h h' c s e r) : PadOf h h' c [(s, e)] [r] where
  spans := by simp [b.span]
  fresh x hx := by rw [List.mem_singleton.mp hx]; exact ⟨b.fresh, b.inHeap⟩
  cls x hx := by rw [List.mem_singleton.mp hx]; exact b.cls
  blank x hx := by rw [List.mem_singleton.mp hx]; exact b.label

/-- what is put in front of a tier that starts at `x`, or behind one that ends at `x` -/
def padL (x smin : Time) : List (Time × Time) := if allclose x smin then [] else [(smin, x)]
def padR (x smax emax : Time) : List (Time × Time) := if allclose x smax then [] else [(x, emax)]

theorem padLoop_left (smin : Time) (lo hi : GRef → Time) (gs : List GRef) (h : Heap)
    (hnd : (gs.flatMap h.gtiers).Nodup) (hf : ∀ g ∈ gs, Flush h g (lo g) (hi g)) (hlo : ∀ g ∈ gs, smin ≤ lo g) :
    ∃ h', M.forL gs (fun g => do
        let h ← M.get
        let x ← liftE (groupXmin h g)
        if allclose x smin then pure () else padGroup g smin x) h = .ok () h' ∧ EntryFrame h h' ∧
      (∀ g ∈ gs, ∀ t ∈ h.gtiers g, ∃ pre, PadOf h h' (h.tcls t) (padL (lo g) smin) pre ∧
        h'.tseq t = ⟨pre ++ (h.tseq t).vals, some (h.tcls t)⟩) ∧
      ∀ u, u ∉ gs.flatMap h.gtiers → h'.tseq u = h.tseq u := by
  induction gs generalizing h with
  | nil => exact ⟨h, rfl, .refl h, by simp, fun _ _ => rfl⟩
  | cons g gs ih =>
    rw [List.flatMap_cons, List.nodup_append] at hnd
    have fg := hf g (by simp)
    have hstep : ∃ h1, (do
        let h ← M.get
        let x ← liftE (groupXmin h g)
        if allclose x smin then pure () else padGroup g smin x : M Unit) h = .ok () h1 ∧ EntryFrame h h1 ∧
        (∀ t ∈ h.gtiers g, ∃ pre, PadOf h h1 (h.tcls t) (padL (lo g) smin) pre ∧
          h1.tseq t = ⟨pre ++ (h.tseq t).vals, some (h.tcls t)⟩) ∧
        ∀ u, u ∉ h.gtiers g → h1.tseq u = h.tseq u := by
      by_cases hc : allclose (lo g) smin = true
      · refine ⟨h, ?_, .refl h, ?_, fun _ _ => rfl⟩
        · mstep M.get_apply h
          rw [fg.xmin]
          mstep (show liftE (Except.ok (lo g)) h = .ok (lo g) h from rfl)
          rw [if_pos hc]
          rfl
        · intro t ht
          refine ⟨[], by unfold padL; rw [if_pos hc]; exact .nil _ _ _, ?_⟩
          rw [← (fg.good t ht).ecls]
          rfl
      · have hlt : smin < lo g := lt_of_not_close (hlo g (by simp)) hc
        obtain ⟨h1, hr, f1, q1, o1⟩ := padGroup_left h g smin (lo g) fg.nodup fg.good
          (fun t ht y hy => by have := (fg.first t ht).2 y hy; grind)
        refine ⟨h1, ?_, f1, ?_, o1⟩
        · mstep M.get_apply h
          rw [fg.xmin]
          mstep (show liftE (Except.ok (lo g)) h = .ok (lo g) h from rfl)
          rw [if_neg hc]
          exact hr
        · intro t ht
          obtain ⟨r, b, hq⟩ := q1 t ht
          refine ⟨[r], by unfold padL; rw [if_neg hc]; exact b.pad, hq⟩
    obtain ⟨h1, hr1, f1, q1, o1⟩ := hstep
    have hout : ∀ g' ∈ gs, ∀ t ∈ h.gtiers g', t ∉ h.gtiers g := fun g' hg' t ht hc =>
      hnd.2.2 t hc t (List.mem_flatMap.mpr ⟨g', hg', ht⟩) rfl
    obtain ⟨h2, hr2, f2, q2, o2⟩ := ih h1 (by rw [f1.gtiers]; exact hnd.2.1)
      (fun g' hg' => (hf g' (by simp [hg'])).entry f1 (fun t ht => o1 t (hout g' hg' t ht)))
      (fun g' hg' => hlo g' (by simp [hg']))
    refine ⟨h2, ?_, f1.trans f2, ?_, ?_⟩
    · rw [M.forL_cons]
      rw [show _ = Res.ok () _ from hr1]
      exact hr2
    · intro g' hg' t ht
      rcases List.mem_cons.mp hg' with rfl | hg'
      · obtain ⟨pre, hp, hq⟩ := q1 t ht
        refine ⟨pre, hp.entry f2, ?_⟩
        rw [o2 t (by
          rw [f1.gtiers]
          intro hc
          exact hnd.2.2 t ht t hc rfl), hq]
      · obtain ⟨pre, hp, hq⟩ := q2 g' hg' t (by rw [f1.gtiers]; exact ht)
        rw [f1.tcls] at hp hq
        refine ⟨pre, hp.grow f1.nE, ?_⟩
        rw [hq, o1 t (hout g' hg' t ht)]
    · intro u hu
      rw [List.flatMap_cons, List.mem_append, not_or] at hu
      rw [o2 u (by rw [f1.gtiers]; exact hu.2), o1 u hu.1]

theorem padLoop_right (smax emax : Time) (lo hi : GRef → Time) (gs : List GRef) (h : Heap)
    (hnd : (gs.flatMap h.gtiers).Nodup) (hf : ∀ g ∈ gs, Flush h g (lo g) (hi g)) :
    ∃ h', M.forL gs (fun g => do
        let h ← M.get
        let x ← liftE (groupXmax h g)
        if allclose x smax then pure () else padGroup g x emax) h = .ok () h' ∧ EntryFrame h h' ∧
      (∀ g ∈ gs, ∀ t ∈ h.gtiers g, ∃ post, PadOf h h' (h.tcls t) (padR (hi g) smax emax) post ∧
        h'.tseq t = ⟨(h.tseq t).vals ++ post, some (h.tcls t)⟩) ∧
      ∀ u, u ∉ gs.flatMap h.gtiers → h'.tseq u = h.tseq u := by
  induction gs generalizing h with
  | nil => exact ⟨h, rfl, .refl h, by simp, fun _ _ => rfl⟩
  | cons g gs ih =>
    rw [List.flatMap_cons, List.nodup_append] at hnd
    have fg := hf g (by simp)
    have hstep : ∃ h1, (do
        let h ← M.get
        let x ← liftE (groupXmax h g)
        if allclose x smax then pure () else padGroup g x emax : M Unit) h = .ok () h1 ∧ EntryFrame h h1 ∧
        (∀ t ∈ h.gtiers g, ∃ post, PadOf h h1 (h.tcls t) (padR (hi g) smax emax) post ∧
          h1.tseq t = ⟨(h.tseq t).vals ++ post, some (h.tcls t)⟩) ∧
        ∀ u, u ∉ h.gtiers g → h1.tseq u = h.tseq u := by
      by_cases hc : allclose (hi g) smax = true
      · refine ⟨h, ?_, .refl h, ?_, fun _ _ => rfl⟩
        · mstep M.get_apply h
          rw [fg.xmax]
          mstep (show liftE (Except.ok (hi g)) h = .ok (hi g) h from rfl)
          rw [if_pos hc]
          rfl
        · intro t ht
          refine ⟨[], by unfold padR; rw [if_pos hc]; exact .nil _ _ _, ?_⟩
          rw [← (fg.good t ht).ecls, List.append_nil]
      · obtain ⟨h1, hr, f1, q1, o1⟩ := padGroup_right h g (hi g) emax fg.nodup fg.good
          (fun t ht y hy => by
            have h1 := (fg.last t ht).2 y hy
            have h2 := (fg.good t ht).laid.1 _ (List.mem_map_of_mem hy)
            simp only [Heap.span] at h2
            grind)
        refine ⟨h1, ?_, f1, ?_, o1⟩
        · mstep M.get_apply h
          rw [fg.xmax]
          mstep (show liftE (Except.ok (hi g)) h = .ok (hi g) h from rfl)
          rw [if_neg hc]
          exact hr
        · intro t ht
          obtain ⟨r, b, hq⟩ := q1 t ht
          refine ⟨[r], by unfold padR; rw [if_neg hc]; exact b.pad, hq⟩
    obtain ⟨h1, hr1, f1, q1, o1⟩ := hstep
    have hout : ∀ g' ∈ gs, ∀ t ∈ h.gtiers g', t ∉ h.gtiers g := fun g' hg' t ht hc =>
      hnd.2.2 t hc t (List.mem_flatMap.mpr ⟨g', hg', ht⟩) rfl
    obtain ⟨h2, hr2, f2, q2, o2⟩ := ih h1 (by rw [f1.gtiers]; exact hnd.2.1)
      (fun g' hg' => (hf g' (by simp [hg'])).entry f1 (fun t ht => o1 t (hout g' hg' t ht)))
    refine ⟨h2, ?_, f1.trans f2, ?_, ?_⟩
    · rw [M.forL_cons]
      rw [show _ = Res.ok () _ from hr1]
      exact hr2
    · intro g' hg' t ht
      rcases List.mem_cons.mp hg' with rfl | hg'
      · obtain ⟨pre, hp, hq⟩ := q1 t ht
        refine ⟨pre, hp.entry f2, ?_⟩
        rw [o2 t (by
          rw [f1.gtiers]
          intro hc
          exact hnd.2.2 t ht t hc rfl), hq]
      · obtain ⟨pre, hp, hq⟩ := q2 g' hg' t (by rw [f1.gtiers]; exact ht)
        rw [f1.tcls] at hp hq
        refine ⟨pre, hp.grow f1.nE, ?_⟩
        rw [hq, o1 t (hout g' hg' t ht)]
    · intro u hu
      rw [List.flatMap_cons, List.mem_append, not_or] at hu
      rw [o2 u (by rw [f1.gtiers]; exact hu.2), o1 u hu.1]

/-- what the left loop does to a group keeps it in order, now starting at the common start -/
theorem Flush.padded {h h' : Heap} {g lo hi smin} (e : EntryFrame h h') (hlo : smin ≤ lo)
    (q : ∀ t ∈ h.gtiers g, ∃ pre, PadOf h h' (h.tcls t) (padL lo smin) pre ∧
      h'.tseq t = ⟨pre ++ (h.tseq t).vals, some (h.tcls t)⟩) (f : Flush h g lo hi) :
    Flush h' g (if allclose lo smin then lo else smin) hi := by
  by_cases hc : allclose lo smin = true
  · rw [if_pos hc]
    refine f.entry e ?_
    intro t ht
    obtain ⟨pre, p, hq⟩ := q t ht
    have : pre = [] := by
      have := p.spans
      unfold padL at this
      rw [if_pos hc] at this
      exact List.map_eq_nil_iff.mp this
    rw [hq, this, ← (f.good t ht).ecls]
    rfl
  · rw [if_neg hc]
    have hlt : smin < lo := lt_of_not_close hlo hc
    have key : ∀ t ∈ h.gtiers g, ∃ r, h'.span r = (smin, lo) ∧ r < h'.nE ∧ h'.cls r = h.tcls t ∧
        h'.label r = "" ∧ h'.tseq t = ⟨r :: (h.tseq t).vals, some (h.tcls t)⟩ := by
      intro t ht
      obtain ⟨pre, p, hq⟩ := q t ht
      have hsp := p.spans
      unfold padL at hsp
      rw [if_neg hc] at hsp
      match pre, hsp, p, hq with
      | [r], hsp, p, hq =>
        simp only [List.map_cons, List.map_nil, List.cons.injEq, and_true] at hsp
        exact ⟨r, hsp, (p.fresh r (by simp)).2, p.cls r (by simp), p.blank r (by simp), hq⟩
    have hs : ∀ t ∈ h.gtiers g, ∀ x ∈ (h.tseq t).vals, h'.span x = h.span x := fun t ht x hx =>
      e.span x ((f.good t ht).old x hx)
    refine ⟨by rw [e.gpoint]; exact f.interval, by rw [e.gtiers]; exact f.nonempty,
      by rw [e.gtiers]; exact f.nodup, ?_, ?_, ?_⟩
    · rw [e.gtiers]
      intro t ht
      obtain ⟨r, hsp, hin, hcl, hlab, hq⟩ := key t ht
      have gt := f.good t ht
      refine ⟨by rw [e.ct, e.tcls]; exact gt.interval, by rw [hq, e.tcls], by rw [e.tsup]; exact gt.sup, ?_, ?_,
        ?_, ?_⟩
      · rw [hq]; intro x hx
        rcases List.mem_cons.mp hx with rfl | hx
        · exact hin
        · exact Nat.lt_of_lt_of_le (gt.old x hx) e.nE
      · rw [hq, e.tcls]; intro x hx
        rcases List.mem_cons.mp hx with rfl | hx
        · exact hcl
        · exact (e.cls x (gt.old x hx)).trans (gt.cls x hx)
      · rw [hq]; intro x hx
        rcases List.mem_cons.mp hx with rfl | hx
        · rw [hlab]; decide
        · rw [e.label x (gt.old x hx)]; exact gt.label x hx
      · rw [hq]
        simp only [List.map_cons]
        rw [map_span_congr e _ gt.old, hsp]
        refine ⟨?_, ?_⟩
        · intro p hp
          rcases List.mem_cons.mp hp with rfl | hp
          · exact hlt
          · exact gt.laid.1 p hp
        · rw [List.pairwise_cons]
          refine ⟨?_, gt.laid.2⟩
          intro p hp
          obtain ⟨x, hx, rfl⟩ := List.mem_map.mp hp
          exact (f.first t ht).2 x hx
    · rw [e.gtiers]
      intro t ht
      obtain ⟨r, hsp, hin, hcl, hlab, hq⟩ := key t ht
      rw [hq]
      refine ⟨⟨r, by simp, congrArg Prod.fst hsp⟩, ?_⟩
      intro x hx
      rcases List.mem_cons.mp hx with rfl | hx
      · rw [show h'.start x = smin from congrArg Prod.fst hsp]; grind
      · rw [show h'.start x = h.start x from congrArg Prod.fst (hs t ht x hx)]
        have := (f.first t ht).2 x hx
        grind
    · rw [e.gtiers]
      intro t ht
      obtain ⟨r, hsp, hin, hcl, hlab, hq⟩ := key t ht
      obtain ⟨⟨x, hx, ex⟩, hm⟩ := f.last t ht
      rw [hq]
      refine ⟨⟨x, by simp [hx], by rw [show h'.stop x = h.stop x from congrArg Prod.snd (hs t ht x hx)]; exact ex⟩, ?_⟩
      intro y hy
      rcases List.mem_cons.mp hy with rfl | hy
      · rw [show h'.stop y = lo from congrArg Prod.snd hsp]
        have h1 := (f.first t ht).2 x hx
        have h2 := (f.good t ht).laid.1 _ (List.mem_map_of_mem hx)
        simp only [Heap.span] at h2
        grind
      · rw [show h'.stop y = h.stop y from congrArg Prod.snd (hs t ht y hy)]; exact hm y hy

end ATG
