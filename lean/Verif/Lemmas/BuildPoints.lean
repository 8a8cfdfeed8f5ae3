import Verif.Lemmas.BuildGroup
import Verif.Lemmas.Points
/-!
# The point tiers of an imported textgrid
-/
namespace ATG

/-- new entries, tiers and groups have been added; nothing old has changed -/
structure Expanded (h h' : Heap) : Prop where
  ct : h'.ct = h.ct
  nE : h.nE ≤ h'.nE
  nT : h.nT ≤ h'.nT
  nG : h.nG ≤ h'.nG
  fresh : ∀ r, h.nE ≤ r → r < h'.nE → (h'.subs r).vals = [] ∧ h'.sup r = none
  old : ∀ r, r < h.nE ∨ h'.nE ≤ r → h'.cls r = h.cls r ∧ h'.start r = h.start r ∧ h'.stop r = h.stop r ∧
    h'.label r = h.label r ∧ h'.fol r = h.fol r ∧ h'.prev r = h.prev r ∧ h'.subs r = h.subs r ∧
    h'.sup r = h.sup r ∧ h'.within r = h.within r ∧ h'.cont r = h.cont r
  other : ∀ u, u < h.nT → h'.tseq u = h.tseq u ∧ h'.tname u = h.tname u ∧ h'.tcls u = h.tcls u ∧
    h'.tsup u = h.tsup u ∧ h'.tsub u = h.tsub u ∧ h'.twithin u = h.twithin u
  group : ∀ g, g < h.nG → h'.gtiers g = h.gtiers g ∧ h'.gcont g = h.gcont g ∧ h'.gpoint g = h.gpoint g
  atg : h'.nA = h.nA ∧ h'.agroups = h.agroups ∧ h'.acont = h.acont ∧ h'.acloned = h.acloned
  intier : ∀ r, r < h.nE → h'.intier r = h.intier r

theorem Expanded.refl (h : Heap) : Expanded h h :=
  ⟨rfl, Nat.le_refl _, Nat.le_refl _, Nat.le_refl _, fun _ h1 h2 => absurd h2 (Nat.not_lt.mpr h1),
    fun _ _ => ⟨rfl, rfl, rfl, rfl, rfl, rfl, rfl, rfl, rfl, rfl⟩, fun _ _ => ⟨rfl, rfl, rfl, rfl, rfl, rfl⟩,
    fun _ _ => ⟨rfl, rfl, rfl⟩, ⟨rfl, rfl, rfl, rfl⟩, fun _ _ => rfl⟩

theorem Expanded.trans {h h1 h2 : Heap} (a : Expanded h h1) (b : Expanded h1 h2) : Expanded h h2 := by
  refine ⟨b.ct.trans a.ct, Nat.le_trans a.nE b.nE, Nat.le_trans a.nT b.nT, Nat.le_trans a.nG b.nG, ?_, ?_, ?_, ?_, ?_,
    fun r hr => (b.intier r (Nat.lt_of_lt_of_le hr a.nE)).trans (a.intier r hr)⟩
  · intro r q1 q2
    by_cases hr : r < h1.nE
    · obtain ⟨a1, a2⟩ := a.fresh r q1 hr
      obtain ⟨-, -, -, -, -, -, b7, b8, -⟩ := b.old r (Or.inl hr)
      rw [b7, b8]
      exact ⟨a1, a2⟩
    · exact b.fresh r (Nat.le_of_not_lt hr) q2
  · intro r hr
    have := a.nE
    have := b.nE
    obtain ⟨a1, a2, a3, a4, a5, a6, a7, a8, a9, a10⟩ := a.old r (by romega)
    obtain ⟨b1, b2, b3, b4, b5, b6, b7, b8, b9, b10⟩ := b.old r (by romega)
    exact ⟨b1.trans a1, b2.trans a2, b3.trans a3, b4.trans a4, b5.trans a5, b6.trans a6, b7.trans a7, b8.trans a8,
      b9.trans a9, b10.trans a10⟩
  · intro u hu
    obtain ⟨a1, a2, a3, a4, a5, a6⟩ := a.other u hu
    obtain ⟨b1, b2, b3, b4, b5, b6⟩ := b.other u (Nat.lt_of_lt_of_le hu a.nT)
    exact ⟨b1.trans a1, b2.trans a2, b3.trans a3, b4.trans a4, b5.trans a5, b6.trans a6⟩
  · intro g hg
    obtain ⟨a1, a2, a3⟩ := a.group g hg
    obtain ⟨b1, b2, b3⟩ := b.group g (Nat.lt_of_lt_of_le hg a.nG)
    exact ⟨b1.trans a1, b2.trans a2, b3.trans a3⟩
  · obtain ⟨a1, a2, a3, a4⟩ := a.atg
    obtain ⟨b1, b2, b3, b4⟩ := b.atg
    exact ⟨b1.trans a1, b2.trans a2, b3.trans a3, b4.trans a4⟩

theorem Expanded.unmoved {h h' : Heap} (b : Expanded h h') {us : List TRef} (hu : ∀ t ∈ us, t < h.nT)
    (ho : ∀ t ∈ us, ∀ x ∈ (h.tseq t).vals, x < h.nE) : Unmoved h h' us := by
  refine ⟨fun t ht => (b.other t (hu t ht)).1, fun t ht => (b.other t (hu t ht)).2.2.1,
    fun t ht => (b.other t (hu t ht)).2.1, ?_, ?_⟩
  · intro t ht x hxm
    obtain ⟨a1, a2, a3, a4, -⟩ := b.old x (Or.inl (ho t ht x hxm))
    exact ⟨a2, a3, a4, a1⟩
  · intro t ht x hxm
    obtain ⟨a1, a2, a3, a4, a5, a6, a7, a8, a9, a10⟩ := b.old x (Or.inl (ho t ht x hxm))
    exact ⟨by rw [a7], a8, a9, a10, a5, a6⟩

theorem Expanded.tidy {h h' : Heap} (b : Expanded h h') (td : Tidy h) (ac : Allocated h) :
    Tidy h' ∧ Allocated h' := by
  have hsub : ∀ v x, x ∈ (h'.subs v).vals → x ∈ (h.subs v).vals ∧ v < h.nE ∧ x < h.nE := by
    intro v x hm
    by_cases hv : h.nE ≤ v ∧ v < h'.nE
    · rw [(b.fresh v hv.1 hv.2).1] at hm; cases hm
    · have hv : v < h.nE ∨ h'.nE ≤ v := by romega
      rw [(b.old v hv).2.2.2.2.2.2.1] at hm
      exact ⟨hm, ac v x hm⟩
  have hsub' : ∀ v, ∀ x ∈ (h'.subs v).vals, x ∈ (h.subs v).vals ∧ h'.start x = h.start x ∧ h'.stop x = h.stop x ∧
      h'.label x = h.label x ∧ h'.cls x = h.cls x := by
    intro v x hm
    obtain ⟨m, -, q⟩ := hsub v x hm
    obtain ⟨a1, a2, a3, a4, -⟩ := b.old x (Or.inl q)
    exact ⟨m, a2, a3, a4, a1⟩
  refine ⟨⟨?_, ?_, ?_, ?_, ?_⟩, ?_⟩
  · intro v x
    constructor
    · intro hm
      obtain ⟨m, -, q⟩ := hsub v x hm
      rw [(b.old x (Or.inl q)).2.2.2.2.2.2.2.1]
      exact (td.agree v x).mp m
    · intro hs
      by_cases hxr : h.nE ≤ x ∧ x < h'.nE
      · rw [(b.fresh x hxr.1 hxr.2).2] at hs; cases hs
      · rw [(b.old x (by romega)).2.2.2.2.2.2.2.1] at hs
        have m := (td.agree v x).mpr hs
        rw [(b.old v (Or.inl (ac v x m).1)).2.2.2.2.2.2.1]
        exact m
  · intro v
    by_cases hv : h.nE ≤ v ∧ v < h'.nE
    · rw [(b.fresh v hv.1 hv.2).1]; exact List.nodup_nil
    · rw [(b.old v (by romega)).2.2.2.2.2.2.1]; exact td.nodup v
  · intro v x hxm y hym sv
    obtain ⟨m1, a1, a2, a3, a4⟩ := hsub' v x hxm
    obtain ⟨m2, b1, b2, b3, b4⟩ := hsub' v y hym
    refine td.distinct v x m1 y m2 ?_
    unfold SameValue Heap.isPoint at sv ⊢
    rw [a1, a2, a3, a4, b1, b2, b3, b4, b.ct] at sv
    exact sv
  · intro v x hxm y hym
    obtain ⟨m1, a1, a2, a3, a4⟩ := hsub' v x hxm
    obtain ⟨m2, b1, b2, b3, b4⟩ := hsub' v y hym
    rw [a4, b4]; exact td.cls v x m1 y m2
  · intro v x hxm
    obtain ⟨m1, a1, a2, a3, a4⟩ := hsub' v x hxm
    rw [a3]; exact td.label v x m1
  · intro v x hm
    obtain ⟨-, l1, l2⟩ := hsub v x hm
    exact ⟨Nat.lt_of_lt_of_le l1 b.nE, Nat.lt_of_lt_of_le l2 b.nE⟩

theorem Expanded.room {h h' : Heap} (b : Expanded h h') {gs : List GRef} (rm : Room h gs) : Room h' gs := by
  have gr := rm.grid
  have hgt : ∀ g ∈ gs, h'.gtiers g = h.gtiers g := fun g hg => (b.group g (rm.groups g hg)).1
  obtain ⟨td, ac⟩ := b.tidy gr.tidy gr.alloc
  have hum : ∀ g ∈ gs, Unmoved h h' (h.gtiers g) := fun g hg =>
    b.unmoved (rm.tiers g hg) fun t ht => ((gr.groups g hg).tiers t ht).old
  have hon : ∀ g ∈ gs, ∀ x, OnTiers h' (h.gtiers g) x ↔ OnTiers h (h.gtiers g) x := by
    intro g hg x
    constructor
    · rintro ⟨t, ht, hx⟩
      rw [(hum g hg).tseq t ht] at hx
      exact ⟨t, ht, hx⟩
    · rintro ⟨t, ht, hx⟩
      exact ⟨t, ht, by rw [(hum g hg).tseq t ht]; exact hx⟩
  refine ⟨⟨gr.nodup, by rw [flatMap_congr_left hgt]; exact gr.tiers, ?_, ?_, ?_, ?_, td, ac⟩, ?_, ?_, ?_, ?_⟩
  · intro k hk k2 hk2 hne t ht x hx t' ht' hx'
    rw [hgt k hk] at ht
    rw [hgt k2 hk2] at ht'
    rw [(hum k hk).tseq t ht] at hx
    rw [(hum k2 hk2).tseq t' ht'] at hx'
    exact gr.separate k hk k2 hk2 hne t ht x hx t' ht' hx'
  · intro g hg
    rw [hgt g hg]
    obtain ⟨g1, g2, g3⟩ := b.group g (rm.groups g hg)
    refine (gr.groups g hg).kept (hum g hg) b.ct b.nE ?_ g1 g2 g3
    intro t ht
    obtain ⟨-, -, -, o4, o5, o6⟩ := b.other t (rm.tiers g hg t ht)
    exact ⟨o4, o5, o6⟩
  · intro g hg t ht
    rw [hgt g hg] at ht
    rw [b.ct, (hum g hg).tcls t ht]
    exact gr.interval g hg t ht
  · intro g hg v x hs
    rw [hgt g hg, hon g hg, hon g hg]
    have hx : x ∈ (h'.subs v).vals := (td.agree v x).mpr hs
    have hx' : x ∈ (h.subs v).vals := by
      by_cases hv : h.nE ≤ v ∧ v < h'.nE
      · rw [(b.fresh v hv.1 hv.2).1] at hx; cases hx
      · rw [(b.old v (by romega)).2.2.2.2.2.2.1] at hx
        exact hx
    exact gr.closed g hg v x ((gr.tidy.agree v x).mp hx')
  · exact fun g hg => Nat.lt_of_lt_of_le (rm.groups g hg) b.nG
  · intro g hg t ht
    rw [hgt g hg] at ht
    exact Nat.lt_of_lt_of_le (rm.tiers g hg t ht) b.nT
  · intro g hg
    rw [hgt g hg]
    refine (rm.homely g hg).unmoved (hum g hg) (fun t ht => (b.other t (rm.tiers g hg t ht)).2.2.2.1) ?_
      ((rm.homely g hg).fresh.congr b.ct fun t ht => by
        have o := b.other t (rm.tiers g hg t ht)
        exact ⟨o.2.2.1, o.2.2.2.1, o.2.2.2.2.1⟩)
    rintro x ⟨t, ht, hx⟩
    have q := ((gr.groups g hg).tiers t ht).old x hx
    exact ⟨b.intier x q, by rw [(b.old x (Or.inl q)).2.2.2.2.2.2.1]⟩
  · intro g hg
    rw [hgt g hg]
    exact (rm.rooted g hg).unmoved (hum g hg)

/-- the heap after a new point tier -/
structure PointsNew (h h' : Heap) (c : CRef) (name : String) (raw : List (Time × Time × String)) : Prop where
  ex : Expanded h h'
  nT : h'.nT = h.nT + 1
  nG : h'.nG = h.nG
  vals : (h'.tseq h.nT).vals = List.range' h.nE raw.length
  nE : h'.nE = h.nE + raw.length
  values : (h'.tseq h.nT).vals.map (fun r => (h'.start r, h'.stop r, h'.label r)) = raw
  tname : h'.tname h.nT = name
  tcls : h'.tcls h.nT = c
  linked : DoublyLinked h' (h'.tseq h.nT).vals
  cls : ∀ x ∈ (h'.tseq h.nT).vals, h'.cls x = c
  seat : ∀ x ∈ (h'.tseq h.nT).vals, h'.intier x = some h.nT

theorem newPoints_run (raw : List (Time × Time × String)) (c : CRef) (name : String) (h : Heap)
    (hci : h.ct.isSub c cPoint = true) (hlab : ∀ p ∈ raw, p.2.2 ≠ "#") (hsorted : raw.Pairwise fun a b => a.1 < b.1) :
    ∃ rs h1 h', newEntries c raw h = .ok rs h1 ∧ newPointTier rs c name h1 = .ok h.nT h' ∧ PointsNew h h' c name raw := by
  obtain ⟨rs, h2, e2, hrs, hn2, hmap, hnew, hold, hfr⟩ := newEntries_ok c raw h
  have helse := newEntries_else c raw h rs h2 e2
  have hct : h2.ct = h.ct := by rw [hfr]
  have hnd : rs.Nodup := by rw [hrs]; exact List.nodup_range'
  let h1 : Heap := { h2 with
    nT := h2.nT + 1
    tseq := upd h2.tseq h2.nT SL.empty
    tcont := upd h2.tcont h2.nT .unset
    twithin := upd h2.twithin h2.nT none }
  have hnT : h2.nT = h.nT := by rw [hfr]
  have e3 := pointTierInit_ok h2.nT rs c name h1 (upd_same _ _ _) (by rw [show h1.ct = h.ct from hct]; exact hci)
    (by
      intro x hx
      show h1.ct.isSub (h1.cls x) cPoint = true
      rw [show h1.ct = h.ct from hct, show h1.cls x = c from (hnew x hx).1]
      exact hci)
    (by
      intro x hx
      have := List.mem_map_of_mem (f := fun r => (h2.start r, h2.stop r, h2.label r)) hx
      rw [hmap] at this
      exact hlab _ this)
  have hlt : rs.Pairwise fun a b => h1.start a < h1.start b := by
    have : (rs.map fun r => (h2.start r, h2.stop r, h2.label r)).Pairwise fun a b => a.1 < b.1 := by
      rw [hmap]; exact hsorted
    rw [List.pairwise_map] at this
    exact this
  have hpv : pointVals h1 (sortBy h1.start rs) [] = rs := by
    obtain ⟨s1, s2, s3, s4, s5⟩ := pointVals_spec h1 (sortBy h1.start rs) []
      (sortBy_sorted _ _) (by simp [SortedByStart]) (by simp) (by simp)
    have hmem : ∀ x, x ∈ sortBy h1.start rs ↔ x ∈ rs := fun x => (sortBy_perm _ _).mem_iff
    generalize pointVals h1 (sortBy h1.start rs) [] = L at *
    have inj : ∀ a ∈ rs, ∀ b ∈ rs, h1.start a = h1.start b → a = b := by
      intro a ha b hb e
      rcases pairwise_trich hlt ha hb with q | q | q
      · exact q
      · grind
      · grind
    have hsub : ∀ y ∈ L, y ∈ rs := fun y hy => (hmem y).mp ((s3 y hy).resolve_left (by simp))
    have hperm : L.Perm rs := by
      rw [List.perm_ext_iff_of_nodup (nodup_of_distinct h1 L s2) hnd]
      intro x
      refine ⟨hsub x, fun hx => ?_⟩
      rcases s5 x ((hmem x).mpr hx) with hm | ⟨y, hy, s⟩
      · exact hm
      · have : y = x := inj y (hsub y hy) x hx s.2.1
        exact this ▸ hy
    refine List.Perm.eq_of_pairwise (le := fun a b => h1.start a ≤ h1.start b) ?_ s1
      (hlt.imp fun {a b} (q : h1.start a < h1.start b) => by grind) hperm
    intro a b ha hb q1 q2
    exact inj a (hsub a ha) b hb (by grind)
  rw [hpv] at e3
  let h' := pointTierBuilt h1 h2.nT rs rs c name
  have hts : h'.tseq h.nT = ⟨rs, if rs = [] then none else some c⟩ := by
    rw [← hnT]; exact upd_same _ _ _
  have run : newPointTier rs c name h2 = .ok h.nT h' := by
    unfold newPointTier
    mstep (show newTierObj h2 = .ok h2.nT h1 from rfl)
    mstep e3
    exact congrArg (Res.ok · h') hnT
  refine ⟨rs, h2, h', e2, run, ⟨hct, ?_, ?_, ?_, ?_, ?_, ?_, ?_, ?_, ?_⟩, ?_, ?_, ?_, hn2, ?_, ?_, ?_, ?_, ?_, ?_⟩
  · show h.nE ≤ h2.nE
    rw [hn2]; exact Nat.le_add_right _ _
  · show h.nT ≤ h2.nT + 1
    rw [hnT]; exact Nat.le_succ _
  · show h.nG ≤ h2.nG
    rw [hfr]; exact Nat.le_refl _
  · intro r q1 q2
    have q2 : r < h2.nE := q2
    have hr : r ∈ rs := by rw [hrs, List.mem_range'_1, ← hn2]; exact ⟨q1, q2⟩
    obtain ⟨-, a2, a3, -⟩ := hnew r hr
    exact ⟨by show (h2.subs r).vals = []; rw [a2]; rfl, a3⟩
  · intro r hr
    have hr' : r ∉ rs := by
      rw [hrs, List.mem_range'_1, ← hn2]
      intro q
      have hr : r < h.nE ∨ h2.nE ≤ r := hr
      romega
    obtain ⟨a1, a2, a3, a4, a5, a6, a7, a8, a9, a10, a11⟩ := helse r hr'
    refine ⟨(if_neg hr').trans a1, a2, a3, a4, ?_, ?_, a7, a8, (if_neg hr').trans a10, a11⟩
    · show folOf rs h2.fol r = h.fol r
      rw [folOf_notMem rs _ r hr']; exact a5
    · show prevOf none rs h2.prev r = h.prev r
      rw [prevOf_notMem _ _ _ r hr']; exact a6
  · intro u hu
    have hu : u ≠ h2.nT := by rw [hnT]; exact Nat.ne_of_lt hu
    have hq : h2.tseq u = h.tseq u ∧ h2.tname u = h.tname u ∧ h2.tcls u = h.tcls u ∧ h2.tsup u = h.tsup u ∧
        h2.tsub u = h.tsub u ∧ h2.twithin u = h.twithin u := by
      rw [hfr]
      exact ⟨rfl, rfl, rfl, rfl, rfl, rfl⟩
    obtain ⟨q1, q2, q3, q4, q5, q6⟩ := hq
    exact ⟨((upd_ne _ _ _ _ hu).trans (upd_ne _ _ _ _ hu)).trans q1, (upd_ne _ _ _ _ hu).trans q2,
      (upd_ne _ _ _ _ hu).trans q3, q4, q5, (upd_ne _ _ _ _ hu).trans q6⟩
  · intro g _
    show h2.gtiers g = h.gtiers g ∧ h2.gcont g = h.gcont g ∧ h2.gpoint g = h.gpoint g
    rw [hfr]
    exact ⟨rfl, rfl, rfl⟩
  · show h2.nA = h.nA ∧ h2.agroups = h.agroups ∧ h2.acont = h.acont ∧ h2.acloned = h.acloned
    rw [hfr]
    exact ⟨rfl, rfl, rfl, rfl⟩
  · intro r hr
    have hr' : r ∉ rs := by
      rw [hrs, List.mem_range'_1]
      exact fun q => absurd hr (Nat.not_lt.mpr q.1)
    obtain ⟨a1, a2, a3, a4, a5, a6, a7, a8, a9, a10, a11⟩ := helse r hr'
    exact (if_neg hr').trans a9
  · show h2.nT + 1 = _
    rw [hnT]
  · show h2.nG = h.nG
    rw [hfr]
  · rw [hts]; exact hrs
  · rw [hts]; exact hmap
  · rw [← hnT]; exact upd_same _ _ _
  · rw [← hnT]; exact upd_same _ _ _
  · rw [hts]
    exact linked_of h' rs hnd _ _ rfl rfl
  · rw [hts]
    exact fun x hx => if_pos hx
  · rw [hts, ← hnT]
    exact fun x hx => if_pos hx

/-- point tiers of an imported textgrid -/
structure PointsBuilt (h h' : Heap) (l : List (PTier × CRef)) : Prop where
  ex : Expanded h h'
  nT : h'.nT = h.nT + l.length
  nG : h'.nG = h.nG
  tier : ∀ (i : Nat) p c, l[i]? = some (p, c) → h'.ptier (h.nT + i) = p ∧ h'.tcls (h.nT + i) = c ∧
    DoublyLinked h' (h'.tseq (h.nT + i)).vals ∧ ∀ x ∈ (h'.tseq (h.nT + i)).vals, x < h'.nE ∧ h'.cls x = c ∧ h'.intier x = some (h.nT + i)

theorem Unmoved.ptier {h h' : Heap} {us : List TRef} (u : Unmoved h h' us) {t : TRef} (ht : t ∈ us) :
    h'.ptier t = h.ptier t := by
  unfold Heap.ptier
  rw [u.tname t ht, u.tseq t ht]
  congr 1
  apply List.map_congr_left
  intro x hx
  obtain ⟨q1, q2, q3, -⟩ := u.value t ht x hx
  rw [q1, q2, q3]

theorem Unmoved.linked {h h' : Heap} {us : List TRef} (u : Unmoved h h' us) {t : TRef} (ht : t ∈ us)
    (d : DoublyLinked h (h.tseq t).vals) : DoublyLinked h' (h'.tseq t).vals := by
  rw [u.tseq t ht]
  have fp : ∀ x ∈ (h.tseq t).vals, h'.fol x = h.fol x ∧ h'.prev x = h.prev x := by
    intro x hx
    obtain ⟨-, -, -, -, f, p⟩ := u.relation t ht x hx
    exact ⟨f, p⟩
  refine ⟨?_, ?_, ?_⟩
  · intro i x y hx hy
    rw [(fp x (List.mem_of_getElem? hx)).1, (fp y (List.mem_of_getElem? hy)).2]
    exact d.next i x y hx hy
  · intro x hx
    rw [(fp x (List.mem_of_head? hx)).2]
    exact d.first x hx
  · intro x hx
    rw [(fp x (List.mem_of_getLast? hx)).1]
    exact d.last x hx

theorem buildPoints_run : ∀ (l : List (PTier × CRef)) (h : Heap),
    (∀ q ∈ l, h.ct.isSub q.2 cPoint = true ∧ (∀ p ∈ q.1.2, p.2.2 ≠ "#") ∧ (q.1.2.Pairwise fun a b => a.1 < b.1) ∧
      ∀ p ∈ q.1.2, p.1 = p.2.1) →
    ∃ h', buildTiers l h = .ok ([], List.range' h.nT l.length) h' ∧ PointsBuilt h h' l
  | [], h, _ => ⟨h, rfl, .refl h, rfl, rfl, by intro i p c hi; simp at hi⟩
  | ((name, raw), c) :: l, h, hl => by
    obtain ⟨hp, hlab, hsort, hpt⟩ := hl ((name, raw), c) (by simp)
    obtain ⟨rs, h0, h1, e0, e1, n⟩ := newPoints_run raw c name h hp hlab hsort
    obtain ⟨h2, e2, b⟩ := buildPoints_run l h1 (by rw [n.ex.ct]; exact fun q hq => hl q (by simp [hq]))
    have hu : Unmoved h1 h2 [h.nT] := b.ex.unmoved
      (by intro t ht; rw [n.nT, show t = h.nT by simpa using ht]; exact Nat.lt_succ_self _)
      (by
        intro t ht x hx
        rw [show t = h.nT by simpa using ht, n.vals, List.mem_range'_1] at hx
        rw [n.nE]; exact hx.2)
    refine ⟨h2, ?_, n.ex.trans b.ex, ?_, b.nG.trans n.nG, ?_⟩
    · unfold buildTiers
      mstep M.get_apply h
      rw [if_pos hp, if_pos (by
        unfold ofKind
        apply List.all_eq_true.mpr
        intro p hq
        simp [hpt p hq])]
      mstep e0
      mstep e1
      mstep e2
      rw [n.nT, List.length_cons, List.range'_succ]
      rfl
    · rw [b.nT, n.nT, List.length_cons]
      omega
    · intro i p d hi
      cases i with
      | zero =>
        simp only [List.getElem?_cons_zero, Option.some.injEq, Prod.mk.injEq] at hi
        obtain ⟨rfl, rfl⟩ := hi
        refine ⟨(hu.ptier (by simp)).trans ?_, (hu.tcls _ (by simp)).trans n.tcls, hu.linked (by simp) n.linked, ?_⟩
        · show h1.ptier h.nT = _
          unfold Heap.ptier
          rw [n.tname, n.values]
        · rw [Nat.add_zero, hu.tseq _ (by simp), n.vals]
          intro x hx
          have hc : h2.cls x = c := ((hu.value h.nT (by simp) x (by rw [n.vals]; exact hx)).2.2.2).trans
            (n.cls x (by rw [n.vals]; exact hx))
          have hs := n.seat x (by rw [n.vals]; exact hx)
          rw [List.mem_range'_1, ← n.nE] at hx
          exact ⟨Nat.lt_of_lt_of_le hx.2 b.ex.nE, hc, (b.ex.intier x hx.2).trans hs⟩
      | succ i =>
        have := b.tier i p d (by simpa using hi)
        rw [n.nT, Nat.add_assoc, Nat.add_comm 1 i] at this
        exact this

theorem setTwithin_run (g : GRef) : ∀ (ts : List TRef) (h : Heap), ∃ h',
    M.forL ts (fun t => M.modify fun h => { h with twithin := upd h.twithin t (some g) }) h = .ok () h' ∧
      h' = { h with twithin := h'.twithin } ∧ (∀ t ∈ ts, h'.twithin t = some g) ∧ ∀ t, t ∉ ts → h'.twithin t = h.twithin t
  | [], h => ⟨h, rfl, rfl, by simp, fun _ _ => rfl⟩
  | t :: ts, h => by
    obtain ⟨h', e, f, q1, q2⟩ := setTwithin_run g ts { h with twithin := upd h.twithin t (some g) }
    refine ⟨h', ?_, ?_, ?_, ?_⟩
    · rw [M.forL_cons, M.modify_apply]
      exact e
    · rw [f]
    · intro k hk
      by_cases hm : k ∈ ts
      · exact q1 k hm
      · rcases List.mem_cons.mp hk with rfl | hk
        · rw [q2 k hm]; exact upd_same _ _ _
        · exact absurd hk hm
    · intro k hk
      rw [q2 k fun q => hk (by simp [q])]
      exact upd_ne _ _ _ _ fun e => hk (by simp [e])

theorem newPointsGroup_run (us : List TRef) (h : Heap) : ∃ h', newPointsGroup us h = .ok h.nG h' ∧
    h' = { h with
      nG := h.nG + 1
      gtiers := upd (upd h.gtiers h.nG []) h.nG us
      gcont := upd (upd h.gcont h.nG none) h.nG (some us)
      gpoint := upd h.gpoint h.nG true
      gwithin := upd h.gwithin h.nG none
      twithin := h'.twithin } ∧
    (∀ t ∈ us, h'.twithin t = some h.nG) ∧ ∀ t, t ∉ us → h'.twithin t = h.twithin t := by
  obtain ⟨h', e, f, w1, w2⟩ := setTwithin_run h.nG us { h with
    nG := h.nG + 1
    gtiers := upd (upd h.gtiers h.nG []) h.nG us
    gcont := upd (upd h.gcont h.nG none) h.nG (some us)
    gpoint := upd h.gpoint h.nG true
    gwithin := upd h.gwithin h.nG none }
  refine ⟨h', ?_, f, w1, w2⟩
  unfold newPointsGroup
  mstep (show newGroupObj true h = .ok h.nG _ from rfl)
  have q : pointsGroupInit h.nG us { h with
      nG := h.nG + 1
      gtiers := upd h.gtiers h.nG []
      gcont := upd h.gcont h.nG none
      gpoint := upd h.gpoint h.nG true
      gwithin := upd h.gwithin h.nG none } = .ok () h' := by
    unfold pointsGroupInit setContainsGroup
    mstep M.modify_apply _ _
    mstep M.modify_apply _ _
    exact e
  mstep q
  rfl

/-- a points group with the given tiers, for the given classes -/
structure PointsMade (h : Heap) (g : GRef) (ts : List PTier) (cs : List CRef) : Prop where
  settled : Settled h g
  point : h.gpoint g = true
  tiers : (h.gtiers g).map h.ptier = ts
  classes : (h.gtiers g).map h.tcls = cs
  linked : ∀ t ∈ h.gtiers g, h.twithin t = some g ∧ DoublyLinked h (h.tseq t).vals ∧
    ∀ x ∈ (h.tseq t).vals, h.cls x = h.tcls t ∧ h.intier x = some t

theorem buildPointsGroup_run {h : Heap} {ts : List PTier} {cs : List CRef} (hlen : ts.length = cs.length) (hne : ts ≠ [])
    (hp : ∀ c ∈ cs, h.ct.isSub c cPoint = true)
    (good : ∀ t ∈ ts, (∀ p ∈ t.2, p.2.2 ≠ "#") ∧ (t.2.Pairwise fun a b => a.1 < b.1) ∧ ∀ p ∈ t.2, p.1 = p.2.1) :
    ∃ h', buildGroup ts cs h = .ok [h.nG] h' ∧ Expanded h h' ∧ h'.nG = h.nG + 1 ∧ PointsMade h' h.nG ts cs := by
  have hll : (ts.zip cs).length = ts.length := by rw [List.length_zip, ← hlen, Nat.min_self]
  obtain ⟨h1, e1, b⟩ := buildPoints_run (ts.zip cs) h (by
    intro q hq
    obtain ⟨q1, q2⟩ := List.of_mem_zip hq
    exact ⟨hp _ q2, good _ q1⟩)
  rw [hll] at e1
  have hnT1 : h1.nT = h.nT + ts.length := by rw [b.nT, hll]
  have hus : List.range' h.nT ts.length ≠ [] := by
    intro e
    have := congrArg List.length e
    rw [List.length_range'] at this
    exact hne (List.length_eq_zero_iff.mp this)
  obtain ⟨h2, e2, f2, w1, w2⟩ := newPointsGroup_run (List.range' h.nT ts.length) h1
  have hmu : ∀ t, t ∈ List.range' h.nT ts.length ↔ h.nT ≤ t ∧ t < h.nT + ts.length := fun t => List.mem_range'_1
  have hgn : h2.gtiers h.nG = List.range' h.nT ts.length := by rw [f2, ← b.nG]; exact upd_same _ _ _
  have hseq : h2.tseq = h1.tseq := by rw [f2]
  have hpt : h2.ptier = h1.ptier := by rw [f2]; rfl
  have htc : h2.tcls = h1.tcls := by rw [f2]
  have hE : h2.nE = h1.nE := by rw [f2]
  have hT : h2.nT = h1.nT := by rw [f2]
  have hG : h2.nG = h.nG + 1 := by rw [f2, ← b.nG]
  have run : buildGroup ts cs h = .ok [h.nG] h2 := by
    unfold buildGroup
    mstep e1
    mstep (show (if ([] : List TRef).length > 0 then _ else pure [] : M (List GRef)) h1 = .ok [] h1 from rfl)
    have hpos : (List.range' h.nT ts.length).length > 0 := List.length_pos_iff.mpr hus
    have e4 : (if (List.range' h.nT ts.length).length > 0 then (do
        let g ← newPointsGroup (List.range' h.nT ts.length)
        pure [g]) else pure [] : M (List GRef)) h1 = .ok [h1.nG] h2 := by
      rw [if_pos hpos]
      mstep e2
      rfl
    mstep e4
    rw [b.nG]
    rfl
  have ex : Expanded h h2 := by
    refine ⟨by rw [f2]; exact b.ex.ct, by rw [hE]; exact b.ex.nE, by rw [hT]; exact b.ex.nT,
      by rw [hG]; exact Nat.le_succ _, ?_, ?_, ?_, ?_, by rw [f2]; exact b.ex.atg,
      by rw [f2]; exact b.ex.intier⟩
    · intro r q1 q2
      rw [hE] at q2
      rw [f2]
      exact b.ex.fresh r q1 q2
    · intro r q
      rw [hE] at q
      rw [f2]
      exact b.ex.old r q
    · intro u hu
      obtain ⟨o1, o2, o3, o4, o5, o6⟩ := b.ex.other u hu
      have hw := w2 u fun q => absurd ((hmu u).mp q).1 (Nat.not_le.mpr hu)
      rw [hw]
      rw [f2]
      exact ⟨o1, o2, o3, o4, o5, o6⟩
    · intro g q
      have hg : g ≠ h1.nG := by rw [b.nG]; exact Nat.ne_of_lt q
      obtain ⟨o1, o2, o3⟩ := b.ex.group g q
      rw [f2]
      exact ⟨((upd_ne _ _ _ _ hg).trans (upd_ne _ _ _ _ hg)).trans o1,
        ((upd_ne _ _ _ _ hg).trans (upd_ne _ _ _ _ hg)).trans o2, (upd_ne _ _ _ _ hg).trans o3⟩
  have key : ∀ i, i < ts.length → ∃ p c, ts[i]? = some p ∧ cs[i]? = some c ∧ h1.ptier (h.nT + i) = p ∧
      h1.tcls (h.nT + i) = c ∧ DoublyLinked h1 (h1.tseq (h.nT + i)).vals ∧
      ∀ x ∈ (h1.tseq (h.nT + i)).vals, x < h1.nE ∧ h1.cls x = c ∧ h1.intier x = some (h.nT + i) := by
    intro i hi
    have hi2 : i < cs.length := hlen ▸ hi
    refine ⟨ts[i], cs[i], List.getElem?_eq_getElem hi, List.getElem?_eq_getElem hi2, ?_⟩
    exact b.tier i _ _ (List.getElem?_zip_eq_some.mpr ⟨List.getElem?_eq_getElem hi, List.getElem?_eq_getElem hi2⟩)
  have at_ : ∀ t ∈ List.range' h.nT ts.length, DoublyLinked h1 (h1.tseq t).vals ∧
      ∀ x ∈ (h1.tseq t).vals, x < h1.nE ∧ h1.cls x = h1.tcls t ∧ h1.intier x = some t := by
    intro t ht
    obtain ⟨q1, q2⟩ := (hmu t).mp ht
    obtain ⟨p, c, -, -, -, qc, q⟩ := key (t - h.nT) (by romega)
    rw [show h.nT + (t - h.nT) = t by romega] at q qc
    rw [qc]
    exact q
  refine ⟨h2, run, ex, hG, ⟨by rw [hG]; exact Nat.lt_succ_self _, ?_⟩, ?_, ?_, ?_, ?_⟩
  · rw [hgn]
    intro t ht
    rw [hT, hE, hseq, hnT1]
    exact ⟨((hmu t).mp ht).2, fun x hx => ((at_ t ht).2 x hx).1⟩
  · rw [f2, ← b.nG]; exact upd_same _ _ _
  · rw [hgn, hpt]
    apply List.ext_getElem? 
    intro i
    by_cases hi : i < ts.length
    · obtain ⟨p, c, q1, q2, q3, q4, -⟩ := key i hi
      rw [q1, List.getElem?_map, List.getElem?_range' hi]
      simp only [Nat.one_mul, Option.map_some]
      rw [q3]
    · rw [List.getElem?_eq_none (by simpa using hi), List.getElem?_eq_none (by simpa using hi)]
  · rw [hgn, htc]
    apply List.ext_getElem?
    intro i
    by_cases hi : i < ts.length
    · obtain ⟨p, c, q1, q2, q3, q4, -⟩ := key i hi
      rw [q2, List.getElem?_map, List.getElem?_range' hi]
      simp only [Nat.one_mul, Option.map_some]
      rw [q4]
    · rw [List.getElem?_eq_none (by simpa using hi), List.getElem?_eq_none (by rw [← hlen]; simpa using hi)]
  · rw [hgn, hseq]
    intro t ht
    obtain ⟨d, d2⟩ := at_ t ht
    refine ⟨(w1 t ht).trans (by rw [b.nG]), ⟨?_, ?_, ?_⟩, fun x hx => ?_⟩
    · rw [f2]; exact d.next
    · rw [f2]; exact d.first
    · rw [f2]; exact d.last
    · rw [f2]; exact (d2 x hx).2

end ATG
