import Verif.Lemmas.Link
import Verif.Lemmas.TierInit
import Verif.Lemmas.IvalCleanup
import Verif.Model.Textgrid
import Verif.Spec.Gaps
/-!
# Padding the tiers of a group with blank intervals (`aligned_textgrid.py:485-508`)
-/
namespace ATG

/-- only the lists of tiers and the links may differ -/
def SeqFrame (h h' : Heap) : Prop :=
  h' = { h with tseq := h'.tseq, tcont := h'.tcont, fol := h'.fol, prev := h'.prev, intier := h'.intier,
                within := h'.within }

theorem SeqFrame.refl (h : Heap) : SeqFrame h h := rfl
theorem SeqFrame.trans {a b c : Heap} (h1 : SeqFrame a b) (h2 : SeqFrame b c) : SeqFrame a c := by
  unfold SeqFrame at *
  rw [h2, h1]

/-- an interval tier in good order: non-overlapping intervals of positive length and of its class -/
structure GoodTier (h : Heap) (t : TRef) : Prop where
  interval : h.ct.isSub (h.tcls t) cPoint = false
  ecls : (h.tseq t).ecls = some (h.tcls t)
  sup : (h.tsup t).isSome = true
  old : ∀ x ∈ (h.tseq t).vals, x < h.nE
  cls : ∀ x ∈ (h.tseq t).vals, h.cls x = h.tcls t
  label : ∀ x ∈ (h.tseq t).vals, h.label x ≠ "#"
  laid : Laid ((h.tseq t).vals.map h.span)

theorem castAll_same (h : Heap) (l : List Ref) (c : CRef) (hc : ∀ x ∈ l, h.cls x = c) : castAll h l c = h := by
  unfold castAll
  have : (fun r => if r ∈ l then c else h.cls r) = h.cls := by
    funext r
    split
    · rename_i e; exact (hc r e).symm
    · rfl
  rw [this]

theorem GoodTier.nodup {h : Heap} {t : TRef} (g : GoodTier h t) : (h.tseq t).vals.Nodup := by
  have := g.laid.sorted
  rw [List.pairwise_map] at this
  exact this.imp fun {a b} e hab => by
    subst hab
    simp only [Heap.span] at e
    exact absurd e (by grind)

theorem GoodTier.sorted {h : Heap} {t : TRef} (g : GoodTier h t) : SortedByStart h (h.tseq t).vals := by
  have := g.laid.sorted
  rw [List.pairwise_map] at this
  exact this.imp fun {a b} e => by simp only [Heap.span] at e; grind

/-- a blank interval of class `c` that belongs to nothing yet -/
structure Blank (h : Heap) (c : CRef) (s e : Time) (x : Ref) : Prop where
  cls : h.cls x = c
  start : h.start x = s
  stop : h.stop x = e
  label : h.label x = ""
  subs : (h.subs x).vals = []
  sup : h.sup x = none

theorem Blank.frame {h h' : Heap} {c s e x} (f : SeqFrame h h') (b : Blank h c s e x) : Blank h' c s e x := by
  unfold SeqFrame at f
  rw [f]
  exact ⟨b.cls, b.start, b.stop, b.label, b.subs, b.sup⟩

theorem GoodTier.frame {h h' : Heap} {t} (f : SeqFrame h h') (e : h'.tseq t = h.tseq t) (g : GoodTier h t) :
    GoodTier h' t := by
  have hn : h'.nE = h.nE := by rw [f]
  have hc : h'.cls = h.cls := by rw [f]
  have hct : h'.ct = h.ct := by rw [f]
  have htc : h'.tcls = h.tcls := by rw [f]
  have hts : h'.tsup = h.tsup := by rw [f]
  have hl : h'.label = h.label := by rw [f]
  have hs : h'.span = h.span := by funext x; unfold Heap.span; rw [f]
  exact ⟨by rw [hct, htc]; exact g.interval, by rw [e, htc]; exact g.ecls, by rw [hts]; exact g.sup,
    by rw [e, hn]; exact g.old, by rw [e, hc, htc]; exact g.cls, by rw [e, hl]; exact g.label,
    by rw [e, hs]; exact g.laid⟩

/-- Appending a blank interval to a tier in good order. -/
theorem blankAppend_ok (n : Nat) (h : Heap) (t : TRef) (s e : Time) (x : Ref) (g : GoodTier h t)
    (b : Blank h (h.tcls t) s e x) (hx : x ∉ (h.tseq t).vals)
    (hs : ∀ y ∈ (h.tseq t).vals, h.start y ≠ s) :
    ∃ h', tierAppendN (n + 1) t x h = .ok () h' ∧ SeqFrame h h' ∧
      h'.tseq t = ⟨slSort h ((h.tseq t).vals ++ [x]), some (h.tcls t)⟩ ∧
      ∀ u, u ≠ t → h'.tseq u = h.tseq u := by
  have hnew : ¬ Listed h (h.tseq t).vals x := by
    rintro (hm | ⟨y, hy, hv⟩)
    · exact hx hm
    · exact hs y hy (hv.2.1.trans b.start)
  have hnp : (h.tseq t).vals.contains x = false := by simpa using hx
  have hnw : newOf h (h.tseq t).vals [x] = [x] := by
    simp [newOf, (slContains_false_iff _ _ _).mpr hnew]
  have hcl : ∀ y ∈ (h.tseq t).vals ++ [x], h.cls y = h.tcls t := by
    intro y hy
    rcases List.mem_append.mp hy with hy | hy
    · exact g.cls y hy
    · rw [List.mem_singleton.mp hy]; exact b.cls
  have hrel : h.ct.isSub (h.tcls t) (h.tcls t) = true := isSub_refl _ _
  have hadd := slAdd_ok (putSeq t) (h.tseq t) [x] h (h.tcls t) (h.tcls t) (by simp [hnw]) g.ecls
    (by rw [hnw]; intro y hy; exact hcl y (by simp [List.mem_singleton.mp hy]))
    (by simp [hrel]) (by
      rw [hnw]
      intro y hy
      rw [Heap.isPoint, hcl y hy])
  rw [hnw, castAll_same h _ _ hcl] at hadd
  let l := slSort h ((h.tseq t).vals ++ [x])
  have hlp : l.Perm ((h.tseq t).vals ++ [x]) := slSort_perm h _
  have hlm : ∀ y, y ∈ l ↔ y ∈ (h.tseq t).vals ++ [x] := fun y => hlp.mem_iff
  have hls : SortedByStart h l := slSort_sorted h _
  have hlne : l ≠ [] := by
    intro e
    rw [e] at hlp
    exact absurd hlp.symm.eq_nil (by simp)
  let h2 : Heap := { h with
    tcont := upd h.tcont t (match h.tcont t with
      | .alias => .detached (h.tseq t).vals
      | k => k)
    tseq := upd h.tseq t ⟨l, some (h.tcls t)⟩ }
  have hv2 : (h2.tseq t).vals = l := by simp [h2]
  obtain ⟨sup, hsup⟩ := Option.isSome_iff_exists.mp g.sup
  have hprec := tierPrecedence_ok t h2 sup g.interval hsup
    (by
      rw [hv2]
      refine hlp.nodup_iff.mpr ?_
      rw [List.nodup_append]
      refine ⟨g.nodup, by simp, ?_⟩
      rintro y hy z hz rfl
      rw [List.mem_singleton.mp hz] at hy
      exact hx hy)
    (by
      rw [hv2]; intro y hy z hz
      exact (hcl y ((hlm y).mp hy)).trans (hcl z ((hlm z).mp hz)).symm)
    (by
      rw [hv2]; intro y hy
      show h.label y ≠ "#"
      rcases List.mem_append.mp ((hlm y).mp hy) with hy | hy
      · exact g.label y hy
      · rw [List.mem_singleton.mp hy, b.label]; decide)
  have hset : tierSetSeq t ⟨l, some (h.tcls t)⟩ h = tierPrecedence t h2 := by
    unfold tierSetSeq
    mstep M.get_apply h
    rw [if_neg (by unfold Heap.isPointTier; rw [g.interval]; simp)]
    mstep slMk_cls h h _ (h.tcls t) (fun y hy => hcl y ((hlm y).mp hy)) rfl
    rw [slSort_of_sorted h _ hls, if_neg hlne]
    mstep (show replaceSeq t _ h = .ok () h2 from rfl)
    rfl
  obtain ⟨h3, hset, hf, hq, ho⟩ : ∃ h3, tierSetSeq t ⟨l, some (h.tcls t)⟩ h = .ok () h3 ∧ SeqFrame h h3 ∧
      h3.tseq t = ⟨l, some (h.tcls t)⟩ ∧ ∀ u, u ≠ t → h3.tseq u = h.tseq u :=
    ⟨_, hset.trans hprec, rfl, by simp [h2], fun u hu => upd_ne _ _ _ _ hu⟩
  have e1 : (h3.subs x).vals = [] := by rw [hf]; exact b.subs
  have e2 : h3.sup x = none := by rw [hf]; exact b.sup
  refine ⟨h3, ?_, hf, hq, ho⟩
  rw [tierAppendN]
  mstep M.get_apply h
  rw [if_pos (by rw [b.cls, hrel]; simp), if_neg (by rw [hnp]; simp)]
  mstep hadd
  mstep hset
  mstep M.get_apply _
  rw [if_neg (by rw [e1]; simp)]
  mstep M.pure_apply () _
  mstep M.get_apply _
  simp only [e2]
  rfl

/-- Appending one blank interval to each of several different tiers. -/
theorem blankAppends_ok (n : Nat) (s e : Time) (ps : List (TRef × Ref)) (h : Heap)
    (hnd : (ps.map Prod.fst).Nodup) (hg : ∀ p ∈ ps, GoodTier h p.1)
    (hb : ∀ p ∈ ps, Blank h (h.tcls p.1) s e p.2) (hx : ∀ p ∈ ps, p.2 ∉ (h.tseq p.1).vals)
    (hs : ∀ p ∈ ps, ∀ y ∈ (h.tseq p.1).vals, h.start y ≠ s) :
    ∃ h', M.forL ps (fun p => tierAppendN (n + 1) p.1 p.2) h = .ok () h' ∧ SeqFrame h h' ∧
      (∀ p ∈ ps, h'.tseq p.1 = ⟨slSort h ((h.tseq p.1).vals ++ [p.2]), some (h.tcls p.1)⟩) ∧
      ∀ u, u ∉ ps.map Prod.fst → h'.tseq u = h.tseq u := by
  induction ps generalizing h with
  | nil => exact ⟨h, rfl, .refl h, by simp, fun _ _ => rfl⟩
  | cons p ps ih =>
    simp only [List.map_cons, List.nodup_cons] at hnd
    obtain ⟨h1, hr, f1, q1, o1⟩ := blankAppend_ok n h p.1 s e p.2 (hg p (by simp)) (hb p (by simp))
      (hx p (by simp)) (hs p (by simp))
    have hne : ∀ q ∈ ps, q.1 ≠ p.1 := fun q hq eq => hnd.1 (eq ▸ List.mem_map_of_mem hq)
    have htc : h1.tcls = h.tcls := by rw [f1]
    have hst : h1.start = h.start := by rw [f1]
    obtain ⟨h2, hr2, f2, q2, o2⟩ := ih h1 hnd.2
      (fun q hq => (hg q (by simp [hq])).frame f1 (o1 _ (hne q hq)))
      (fun q hq => by rw [htc]; exact (hb q (by simp [hq])).frame f1)
      (fun q hq => by rw [o1 _ (hne q hq)]; exact hx q (by simp [hq]))
      (fun q hq => by rw [o1 _ (hne q hq), hst]; exact hs q (by simp [hq]))
    refine ⟨h2, ?_, f1.trans f2, ?_, ?_⟩
    · rw [M.forL_cons]
      rw [show _ = Res.ok () _ from hr]
      exact hr2
    · intro q hq
      rcases List.mem_cons.mp hq with rfl | hq
      · rw [o2 _ hnd.1, q1]
      · rw [q2 q hq, o1 _ (hne q hq), htc, slSort_congr h1 h _ hst]
    · intro u hu
      simp only [List.map_cons, List.mem_cons, not_or] at hu
      rw [o2 u hu.2, o1 u hu.1]

/-- new entries were made and nothing else changed -/
structure Grown (h h' : Heap) : Prop where
  nE : h.nE ≤ h'.nE
  cls : ∀ r, r < h.nE → h'.cls r = h.cls r
  start : ∀ r, r < h.nE → h'.start r = h.start r
  stop : ∀ r, r < h.nE → h'.stop r = h.stop r
  label : ∀ r, r < h.nE → h'.label r = h.label r
  tseq : h'.tseq = h.tseq
  ct : h'.ct = h.ct
  tcls : h'.tcls = h.tcls
  tsup : h'.tsup = h.tsup
  gtiers : h'.gtiers = h.gtiers
  gpoint : h'.gpoint = h.gpoint
  subs : ∀ r, r < h.nE → h'.subs r = h.subs r
  sup : ∀ r, r < h.nE → h'.sup r = h.sup r
  agroups : h'.agroups = h.agroups

theorem Grown.refl (h : Heap) : Grown h h :=
  ⟨Nat.le_refl _, fun _ _ => rfl, fun _ _ => rfl, fun _ _ => rfl, fun _ _ => rfl,
      rfl, rfl, rfl, rfl, rfl, rfl, fun _ _ => rfl, fun _ _ => rfl, rfl⟩

theorem Grown.trans {a b c : Heap} (g1 : Grown a b) (g2 : Grown b c) : Grown a c where
  nE := Nat.le_trans g1.nE g2.nE
  cls r hr := (g2.cls r (Nat.lt_of_lt_of_le hr g1.nE)).trans (g1.cls r hr)
  start r hr := (g2.start r (Nat.lt_of_lt_of_le hr g1.nE)).trans (g1.start r hr)
  stop r hr := (g2.stop r (Nat.lt_of_lt_of_le hr g1.nE)).trans (g1.stop r hr)
  label r hr := (g2.label r (Nat.lt_of_lt_of_le hr g1.nE)).trans (g1.label r hr)
  subs r hr := (g2.subs r (Nat.lt_of_lt_of_le hr g1.nE)).trans (g1.subs r hr)
  sup r hr := (g2.sup r (Nat.lt_of_lt_of_le hr g1.nE)).trans (g1.sup r hr)
  tseq := g2.tseq.trans g1.tseq
  ct := g2.ct.trans g1.ct
  tcls := g2.tcls.trans g1.tcls
  tsup := g2.tsup.trans g1.tsup
  gtiers := g2.gtiers.trans g1.gtiers
  gpoint := g2.gpoint.trans g1.gpoint
  agroups := g2.agroups.trans g1.agroups

theorem Blank.grown {h h' : Heap} {c s e x} (g : Grown h h') (hx : x < h.nE) (b : Blank h c s e x) :
    Blank h' c s e x :=
  ⟨(g.cls x hx).trans b.cls, (g.start x hx).trans b.start, (g.stop x hx).trans b.stop,
    (g.label x hx).trans b.label, by rw [g.subs x hx]; exact b.subs, (g.sup x hx).trans b.sup⟩

theorem newBlanks_ok (s e : Time) (ts : List TRef) (h : Heap)
    (hi : ∀ t ∈ ts, h.ct.isSub (h.tcls t) cPoint = false) :
    ∃ rs h', newBlanks s e (ts.map h.tcls) h = .ok rs h' ∧ Grown h h' ∧ rs.length = ts.length ∧
      (∀ r ∈ rs, h.nE ≤ r ∧ r < h'.nE) ∧ ∀ p ∈ ts.zip rs, Blank h' (h.tcls p.1) s e p.2 := by
  induction ts generalizing h with
  | nil => exact ⟨[], h, rfl, .refl h, rfl, by simp, by simp⟩
  | cons t ts ih =>
    let h1 : Heap := (newEntry (h.tcls t) s e "" h).heap
    have hr1 : newBlank (h.tcls t) s e h = .ok h.nE h1 := by
      unfold newBlank
      mstep M.get_apply h
      rw [if_neg (by rw [hi t (by simp)]; simp)]
      rfl
    have hn1 : h1.nE = h.nE + 1 := rfl
    have hb1 : Blank h1 (h.tcls t) s e h.nE :=
      ⟨upd_same _ _ _, upd_same _ _ _, upd_same _ _ _, upd_same _ _ _, congrArg SL.vals (upd_same _ _ _),
        upd_same _ _ _⟩
    have hg1 : Grown h h1 := by
      refine ⟨Nat.le_succ _, fun r hr => ?_, fun r hr => ?_, fun r hr => ?_, fun r hr => ?_,
          rfl, rfl, rfl, rfl, rfl, rfl, fun r hr => ?_, fun r hr => ?_, rfl⟩ <;> exact upd_ne _ _ _ _ (Nat.ne_of_lt hr)
    obtain ⟨rs, h2, hr2, g2, hl2, hm2, hb2⟩ := ih h1 (fun u hu => hi u (by simp [hu]))
    refine ⟨h.nE :: rs, h2, ?_, ?_, by simp [hl2], ?_, ?_⟩
    · rw [List.map_cons, newBlanks]
      mstep hr1
      mstep (show newBlanks s e (ts.map h.tcls) h1 = .ok rs h2 from hr2)
      rfl
    · exact hg1.trans g2
    · intro r hr
      rcases List.mem_cons.mp hr with rfl | hr
      · exact ⟨Nat.le_refl _, Nat.lt_of_lt_of_le (by rw [hn1]; exact Nat.lt_succ_self _) g2.nE⟩
      · have := hm2 r hr
        rw [hn1] at this
        exact ⟨Nat.le_of_succ_le this.1, this.2⟩
    · intro p hp
      rw [List.zip_cons_cons] at hp
      rcases List.mem_cons.mp hp with rfl | hp
      · exact hb1.grown g2 (by rw [hn1]; exact Nat.lt_succ_self _)
      · exact hb2 p hp

/-- existing entries keep their data; tiers and groups keep theirs, except the lists of the tiers -/
structure EntryFrame (h h' : Heap) : Prop where
  nE : h.nE ≤ h'.nE
  cls : ∀ r, r < h.nE → h'.cls r = h.cls r
  span : ∀ r, r < h.nE → h'.span r = h.span r
  label : ∀ r, r < h.nE → h'.label r = h.label r
  ct : h'.ct = h.ct
  tcls : h'.tcls = h.tcls
  tsup : h'.tsup = h.tsup
  gtiers : h'.gtiers = h.gtiers
  gpoint : h'.gpoint = h.gpoint
  agroups : h'.agroups = h.agroups

theorem EntryFrame.refl (h : Heap) : EntryFrame h h :=
  ⟨Nat.le_refl _, fun _ _ => rfl, fun _ _ => rfl, fun _ _ => rfl, rfl, rfl, rfl, rfl, rfl, rfl⟩

theorem EntryFrame.trans {a b c : Heap} (g1 : EntryFrame a b) (g2 : EntryFrame b c) : EntryFrame a c where
  nE := Nat.le_trans g1.nE g2.nE
  cls r hr := (g2.cls r (Nat.lt_of_lt_of_le hr g1.nE)).trans (g1.cls r hr)
  span r hr := (g2.span r (Nat.lt_of_lt_of_le hr g1.nE)).trans (g1.span r hr)
  label r hr := (g2.label r (Nat.lt_of_lt_of_le hr g1.nE)).trans (g1.label r hr)
  ct := g2.ct.trans g1.ct
  tcls := g2.tcls.trans g1.tcls
  tsup := g2.tsup.trans g1.tsup
  gtiers := g2.gtiers.trans g1.gtiers
  gpoint := g2.gpoint.trans g1.gpoint
  agroups := g2.agroups.trans g1.agroups

theorem Grown.entry {h h' : Heap} (g : Grown h h') : EntryFrame h h' :=
  ⟨g.nE, g.cls, fun r hr => by unfold Heap.span; rw [g.start r hr, g.stop r hr], g.label, g.ct, g.tcls, g.tsup,
    g.gtiers, g.gpoint, g.agroups⟩

theorem SeqFrame.entry {h h' : Heap} (g : SeqFrame h h') : EntryFrame h h' := by
  unfold SeqFrame at g
  rw [g]
  exact ⟨Nat.le_refl _, fun _ _ => rfl, fun _ _ => rfl, fun _ _ => rfl, rfl, rfl, rfl, rfl, rfl, rfl⟩

theorem map_span_congr {h h' : Heap} (f : EntryFrame h h') (l : List Ref) (ho : ∀ x ∈ l, x < h.nE) :
    l.map h'.span = l.map h.span := List.map_congr_left fun x hx => f.span x (ho x hx)

theorem GoodTier.entry {h h' : Heap} {t} (f : EntryFrame h h') (e : h'.tseq t = h.tseq t) (g : GoodTier h t) :
    GoodTier h' t where
  interval := by rw [f.ct, f.tcls]; exact g.interval
  ecls := by rw [e, f.tcls]; exact g.ecls
  sup := by rw [f.tsup]; exact g.sup
  old := by rw [e]; exact fun x hx => Nat.lt_of_lt_of_le (g.old x hx) f.nE
  cls := by rw [e, f.tcls]; exact fun x hx => (f.cls x (g.old x hx)).trans (g.cls x hx)
  label := by rw [e]; exact fun x hx => by rw [f.label x (g.old x hx)]; exact g.label x hx
  laid := by rw [e, map_span_congr f _ g.old]; exact g.laid

/-- a new blank entry of the heap `h'`, not one of `h` -/
structure NewBlank (h h' : Heap) (c : CRef) (s e : Time) (r : Ref) : Prop where
  fresh : h.nE ≤ r
  inHeap : r < h'.nE
  cls : h'.cls r = c
  span : h'.span r = (s, e)
  label : h'.label r = ""

theorem padGroup_ok (h : Heap) (g : GRef) (s e : Time) (hnd : (h.gtiers g).Nodup)
    (hg : ∀ t ∈ h.gtiers g, GoodTier h t)
    (hs : ∀ t ∈ h.gtiers g, ∀ y ∈ (h.tseq t).vals, h.start y ≠ s) :
    ∃ h', padGroup g s e h = .ok () h' ∧ EntryFrame h h' ∧
      (∀ t ∈ h.gtiers g, ∃ r, NewBlank h h' (h.tcls t) s e r ∧
        h'.tseq t = ⟨slSort h' ((h.tseq t).vals ++ [r]), some (h.tcls t)⟩) ∧
      ∀ u, u ∉ h.gtiers g → h'.tseq u = h.tseq u := by
  obtain ⟨rs, h1, hr1, g1, hl1, hm1, hb1⟩ := newBlanks_ok s e (h.gtiers g) h (fun t ht => (hg t ht).interval)
  have hfst : ((h.gtiers g).zip rs).map Prod.fst = h.gtiers g := List.map_fst_zip (by omega)
  have hmem : ∀ p ∈ (h.gtiers g).zip rs, p.1 ∈ h.gtiers g ∧ p.2 ∈ rs := fun p hp => by
    have := List.of_mem_zip (a := p.1) (b := p.2) hp
    exact this
  obtain ⟨h2, hr2, f2, q2, o2⟩ := blankAppends_ok 999 s e ((h.gtiers g).zip rs) h1 (by rw [hfst]; exact hnd)
    (fun p hp => (hg p.1 (hmem p hp).1).entry g1.entry (by rw [g1.tseq]))
    (fun p hp => by rw [g1.tcls]; exact hb1 p hp)
    (fun p hp hc => by
      rw [g1.tseq] at hc
      exact absurd ((hg p.1 (hmem p hp).1).old _ hc) (Nat.not_lt_of_le (hm1 p.2 (hmem p hp).2).1))
    (fun p hp y hy => by
      rw [g1.tseq] at hy
      rw [g1.start y ((hg p.1 (hmem p hp).1).old _ hy)]
      exact hs p.1 (hmem p hp).1 y hy)
  refine ⟨h2, ?_, g1.entry.trans f2.entry, ?_, ?_⟩
  · unfold padGroup
    mstep M.get_apply h
    mstep hr1
    exact hr2
  · intro t ht
    rw [← hfst] at ht
    obtain ⟨p, hp, rfl⟩ := List.mem_map.mp ht
    have b : Blank h2 (h.tcls p.1) s e p.2 := (hb1 p hp).frame f2
    refine ⟨p.2, ⟨(hm1 _ (hmem p hp).2).1, ?_, b.cls, ?_, b.label⟩, ?_⟩
    · exact Nat.lt_of_lt_of_le (hm1 _ (hmem p hp).2).2 f2.entry.nE
    · unfold Heap.span; rw [b.start, b.stop]
    · rw [q2 p hp, g1.tseq, g1.tcls, slSort_congr h1 h2]
      rw [f2]
  · intro u hu
    rw [o2 u (by rw [hfst]; exact hu), g1.tseq]

/-- padding on the left -/
theorem padGroup_left (h : Heap) (g : GRef) (s e : Time) (hnd : (h.gtiers g).Nodup)
    (hg : ∀ t ∈ h.gtiers g, GoodTier h t)
    (hs : ∀ t ∈ h.gtiers g, ∀ y ∈ (h.tseq t).vals, s < h.start y) :
    ∃ h', padGroup g s e h = .ok () h' ∧ EntryFrame h h' ∧
      (∀ t ∈ h.gtiers g, ∃ r, NewBlank h h' (h.tcls t) s e r ∧
        h'.tseq t = ⟨r :: (h.tseq t).vals, some (h.tcls t)⟩) ∧
      ∀ u, u ∉ h.gtiers g → h'.tseq u = h.tseq u := by
  obtain ⟨h', hr, f, q, o⟩ := padGroup_ok h g s e hnd hg (fun t ht y hy eq => by
    have := hs t ht y hy; grind)
  refine ⟨h', hr, f, ?_, o⟩
  intro t ht
  obtain ⟨r, nb, hq⟩ := q t ht
  refine ⟨r, nb, ?_⟩
  rw [hq]
  congr 1
  have hst : ∀ y ∈ (h.tseq t).vals, h'.start y = h.start y := fun y hy =>
    congrArg Prod.fst (f.span y ((hg t ht).old y hy))
  have hrs : h'.start r = s := congrArg Prod.fst nb.span
  refine sorted_perm_unique h'.start _ _ ?_ (slSort_sorted h' _) ?_ ?_
  · exact (slSort_perm h' _).trans (List.perm_append_singleton r _)
  · rw [List.pairwise_cons]
    refine ⟨fun y hy => ?_, ?_⟩
    · have := hs t ht y hy
      rw [hst y hy, hrs]; grind
    · exact (hg t ht).sorted.imp_of_mem fun {a b} ha hb hab => by rw [hst a ha, hst b hb]; exact hab
  · have hlt : (r :: (h.tseq t).vals).Pairwise fun a b => h'.start a < h'.start b := by
      rw [List.pairwise_cons]
      refine ⟨fun y hy => by rw [hst y hy, hrs]; exact hs t ht y hy, ?_⟩
      have := (hg t ht).laid.sorted
      rw [List.pairwise_map] at this
      exact this.imp_of_mem fun {a b} ha hb hab => by rw [hst a ha, hst b hb]; exact hab
    have hm : ∀ x, x ∈ slSort h' ((h.tseq t).vals ++ [r]) → x ∈ r :: (h.tseq t).vals := fun x hx =>
      ((slSort_perm h' _).trans (List.perm_append_singleton r _)).mem_iff.mp hx
    intro x hx y hy exy
    rcases pairwise_trich hlt (hm x hx) (hm y hy) with e | e | e
    · exact e
    · rw [exy] at e; exact absurd e (by grind)
    · rw [exy] at e; exact absurd e (by grind)

/-- padding on the right -/
theorem padGroup_right (h : Heap) (g : GRef) (s e : Time) (hnd : (h.gtiers g).Nodup)
    (hg : ∀ t ∈ h.gtiers g, GoodTier h t)
    (hs : ∀ t ∈ h.gtiers g, ∀ y ∈ (h.tseq t).vals, h.start y < s) :
    ∃ h', padGroup g s e h = .ok () h' ∧ EntryFrame h h' ∧
      (∀ t ∈ h.gtiers g, ∃ r, NewBlank h h' (h.tcls t) s e r ∧
        h'.tseq t = ⟨(h.tseq t).vals ++ [r], some (h.tcls t)⟩) ∧
      ∀ u, u ∉ h.gtiers g → h'.tseq u = h.tseq u := by
  obtain ⟨h', hr, f, q, o⟩ := padGroup_ok h g s e hnd hg (fun t ht y hy eq => by
    have := hs t ht y hy; grind)
  refine ⟨h', hr, f, ?_, o⟩
  intro t ht
  obtain ⟨r, nb, hq⟩ := q t ht
  refine ⟨r, nb, ?_⟩
  rw [hq]
  congr 1
  have hst : ∀ y ∈ (h.tseq t).vals, h'.start y = h.start y := fun y hy =>
    congrArg Prod.fst (f.span y ((hg t ht).old y hy))
  have hrs : h'.start r = s := congrArg Prod.fst nb.span
  refine slSort_of_sorted h' _ ?_
  unfold SortedByStart
  rw [List.pairwise_append]
  refine ⟨(hg t ht).sorted.imp_of_mem fun {a b} ha hb hab => by rw [hst a ha, hst b hb]; exact hab, by simp, ?_⟩
  intro y hy z hz
  rw [List.mem_singleton.mp hz, hst y hy, hrs]
  have := hs t ht y hy
  grind

end ATG
