import Verif.Model.Compose
import Verif.Lemmas.TierInit
import Verif.Lemmas.SeqList
import Verif.Lemmas.RelateChain
import Verif.Lemmas.Pad
import Verif.Lemmas.GroupAligned
import Verif.Spec.Add
/-!
# Adding tiers: the resulting heap
-/
namespace ATG

/-- the heap with a new empty tier object -/
def withTier (h : Heap) : Heap :=
  { h with
    nT := h.nT + 1
    tseq := upd h.tseq h.nT SL.empty
    tcont := upd h.tcont h.nT .unset
    twithin := upd h.twithin h.nT none }

theorem newTier_ok (entries : List Ref) (c s : CRef) (h : Heap) (hne : entries ≠ [])
    (hci : h.ct.isSub c cPoint = false) (hs : h.ct.sup c = some s)
    (hcls : ∀ x ∈ entries, h.cls x = c) (hnd : entries.Nodup) (hl : ∀ x ∈ entries, h.label x ≠ "#") :
    newTier entries none h =
      .ok h.nT (tierBuilt (withTier h) h.nT (slSort h entries) c s (h.ct.name c)) := by
  cases entries with
  | nil => exact absurd rfl hne
  | cons x xs =>
    unfold newTier
    mstep (show newTierObj h = .ok h.nT (withTier h) from rfl)
    mstep M.get_apply _
    have hx : h.cls x = c := hcls x (by simp)
    have e := tierInit_ok h.nT (x :: xs) c s (h.ct.name c) (withTier h) (by simp [withTier]) hci hs
      (fun y hy => by
        have : h.cls y = c := hcls y hy
        show h.ct.isSub (h.cls y) cPoint = false
        rw [this, hci]) hnd hl
    have e' : tierInit h.nT (x :: xs) ((withTier h).cls x) ((withTier h).ct.name ((withTier h).cls x))
        (withTier h) = .ok () (tierBuilt (withTier h) h.nT (slSort h (x :: xs)) c s (h.ct.name c)) := by
      show tierInit h.nT (x :: xs) (h.cls x) (h.ct.name (h.cls x)) (withTier h) = _
      rw [hx]
      exact e
    mstep e'
    rfl

theorem tierAdd_ok (t u : TRef) (c s : CRef) (h : Heap) (htc : h.tcls t = c) (huc : h.tcls u = c)
    (hci : h.ct.isSub c cPoint = false) (hs : h.ct.sup c = some s) (hec : (h.tseq t).ecls = some c)
    (hne : (h.tseq t).vals ≠ [])
    (hcls : ∀ x, x ∈ (h.tseq t).vals ∨ x ∈ (h.tseq u).vals → h.cls x = c)
    (hnd : ((h.tseq t).vals ++ newOf h (h.tseq t).vals (h.tseq u).vals).Nodup)
    (hl : ∀ x, x ∈ (h.tseq t).vals ∨ x ∈ (h.tseq u).vals → h.label x ≠ "#") (so : SortedByStart h (h.tseq t).vals) :
    tierAdd t u h = .ok h.nT (tierBuilt (withTier h) h.nT
      (slSort h ((h.tseq t).vals ++ newOf h (h.tseq t).vals (h.tseq u).vals)) c s (h.ct.name c)) := by
  have hnew : ∀ x ∈ newOf h (h.tseq t).vals (h.tseq u).vals, x ∈ (h.tseq u).vals := fun x hx =>
    (List.mem_filter.mp hx).1
  have hpt : h.isPointTier t = false := by unfold Heap.isPointTier; rw [htc, hci]
  have hpu : h.isPointTier u = false := by unfold Heap.isPointTier; rw [huc, hci]
  unfold tierAdd
  mstep M.get_apply h
  rw [if_neg (by simp [hpt, hpu]), if_pos (by simp [htc, huc, isSub_refl])]
  have add : slAdd (putSeq t) (h.tseq t) (h.tseq u).vals h =
      .ok ⟨slSort h ((h.tseq t).vals ++ newOf h (h.tseq t).vals (h.tseq u).vals), some c⟩ h := by
    by_cases hn : newOf h (h.tseq t).vals (h.tseq u).vals = []
    · rw [slAdd_none_new _ _ _ _ hn, hn, List.append_nil]
      have : slSort h (h.tseq t).vals = (h.tseq t).vals := slSort_of_sorted h _ so
      rw [this, ← hec]
    · rw [slAdd_ok (putSeq t) (h.tseq t) (h.tseq u).vals h c c hn hec (fun x hx => hcls x (Or.inr (hnew x hx)))
        (by simp [isSub_refl]) (fun x hx => by
          show _ = h.ct.isSub (h.cls x) cPoint
          rw [hcls x]
          rcases List.mem_append.mp hx with hx | hx
          · exact Or.inl hx
          · exact Or.inr (hnew x hx))]
      rw [castAll_same h _ c (fun x hx => by
          rcases List.mem_append.mp hx with hx | hx
          · exact hcls x (Or.inl hx)
          · exact hcls x (Or.inr (hnew x hx)))]
  mstep add
  simp only [hpt]
  rw [if_neg (by simp)]
  have hperm := slSort_perm h ((h.tseq t).vals ++ newOf h (h.tseq t).vals (h.tseq u).vals)
  have hmem : ∀ x ∈ slSort h ((h.tseq t).vals ++ newOf h (h.tseq t).vals (h.tseq u).vals),
      x ∈ (h.tseq t).vals ∨ x ∈ (h.tseq u).vals := by
    intro x hx
    rcases List.mem_append.mp (hperm.mem_iff.mp hx) with hx | hx
    · exact Or.inl hx
    · exact Or.inr (hnew x hx)
  rw [newTier_ok _ c s h (by
      intro e
      have := hperm.length_eq
      rw [e] at this
      simp only [List.length_nil, List.length_append] at this
      exact hne (List.length_eq_zero_iff.mp (by omega))) hci hs (fun x hx => hcls x (hmem x hx)) (hperm.nodup_iff.mpr hnd)
    (fun x hx => hl x (hmem x hx))]
  rw [slSort_of_sorted h (slSort h _) (slSort_sorted h _)]

theorem Addable.nodup {h : Heap} {t u : TRef} {c : CRef} (a : Addable h t u c) :
    ((h.tseq t).vals ++ newOf h (h.tseq t).vals (h.tseq u).vals).Nodup := by
  rw [List.nodup_append]
  refine ⟨a.once.1, a.once.2.filter _, ?_⟩
  rintro x hx y hy rfl
  exact ((mem_newOf _ _ _ _).mp hy).2 (Or.inl hx)

/-- what a sum of tiers leaves alone -/
structure TierSums (h h' : Heap) : Prop where
  start : h'.start = h.start
  stop : h'.stop = h.stop
  label : h'.label = h.label
  cls : h'.cls = h.cls
  subs : h'.subs = h.subs
  sup : h'.sup = h.sup
  ct : h'.ct = h.ct
  nE : h'.nE = h.nE
  nG : h'.nG = h.nG
  gtiers : h'.gtiers = h.gtiers
  gpoint : h'.gpoint = h.gpoint
  more : h.nT ≤ h'.nT
  old : ∀ t, t < h.nT → h'.tseq t = h.tseq t ∧ h'.tcls t = h.tcls t ∧ h'.tsup t = h.tsup t ∧
    h'.tsub t = h.tsub t

theorem TierSums.refl (h : Heap) : TierSums h h :=
  ⟨rfl, rfl, rfl, rfl, rfl, rfl, rfl, rfl, rfl, rfl, rfl, Nat.le_refl _, fun _ _ => ⟨rfl, rfl, rfl, rfl⟩⟩

theorem TierSums.trans {h h' h'' : Heap} (a : TierSums h h') (b : TierSums h' h'') : TierSums h h'' where
  start := b.start.trans a.start
  stop := b.stop.trans a.stop
  label := b.label.trans a.label
  cls := b.cls.trans a.cls
  subs := b.subs.trans a.subs
  sup := b.sup.trans a.sup
  ct := b.ct.trans a.ct
  nE := b.nE.trans a.nE
  nG := b.nG.trans a.nG
  gtiers := b.gtiers.trans a.gtiers
  gpoint := b.gpoint.trans a.gpoint
  more := Nat.le_trans a.more b.more
  old := fun t ht => by
    obtain ⟨a1, a2, a3, a4⟩ := a.old t ht
    obtain ⟨b1, b2, b3, b4⟩ := b.old t (Nat.lt_of_lt_of_le ht a.more)
    exact ⟨b1.trans a1, b2.trans a2, b3.trans a3, b4.trans a4⟩

/-- one sum -/
theorem Addable.run {h : Heap} {t u : TRef} {c : CRef} (a : Addable h t u c) :
    ∃ h', tierAdd t u h = .ok h.nT h' ∧ TierSums h h' ∧ h'.nT = h.nT + 1 ∧
      (h'.tseq h.nT).vals = slSort h ((h.tseq t).vals ++ newOf h (h.tseq t).vals (h.tseq u).vals) ∧
      h'.tcls h.nT = c ∧ h'.tsup h.nT = h.ct.sup c ∧ h'.tsub h.nT = h.ct.sub c ∧
      DoublyLinked h' (h'.tseq h.nT).vals ∧
      (∀ x ∈ (h'.tseq h.nT).vals, h'.intier x = some h.nT) ∧
      ∀ x, x ∉ (h'.tseq h.nT).vals →
        h'.fol x = h.fol x ∧ h'.prev x = h.prev x ∧ h'.intier x = h.intier x := by
  obtain ⟨s, hs⟩ := a.sup
  have e := tierAdd_ok t u c s h a.tcls.1 a.tcls.2 a.interval hs a.ecls a.ne a.cls
    a.nodup a.label a.sorted
  have hp := slSort_perm h ((h.tseq t).vals ++ newOf h (h.tseq t).vals (h.tseq u).vals)
  have hmem : ∀ x, x ∈ slSort h ((h.tseq t).vals ++ newOf h (h.tseq t).vals (h.tseq u).vals) ↔
      x ∈ (h.tseq t).vals ∨ x ∈ newOf h (h.tseq t).vals (h.tseq u).vals := fun x => by
    rw [hp.mem_iff, List.mem_append]
  refine ⟨_, e, ?_, rfl, by simp [tierBuilt], by simp [tierBuilt], by simp [tierBuilt, hs],
    by simp [tierBuilt, withTier], ?_, ?_, ?_⟩
  · constructor <;> try rfl
    · show (fun r => if r ∈ slSort h ((h.tseq t).vals ++ newOf h (h.tseq t).vals (h.tseq u).vals) then c else h.cls r) = h.cls
      funext r
      split
      · rename_i hr; exact (a.cls r (((hmem r).mp hr).imp id fun hh => ((mem_newOf _ _ _ _).mp hh).1)).symm
      · rfl
    · exact Nat.le_succ _
    · intro t' ht'
      have : t' ≠ h.nT := Nat.ne_of_lt ht'
      simp [tierBuilt, withTier, upd_ne _ _ _ _ this]
  · have : (tierBuilt (withTier h) h.nT (slSort h ((h.tseq t).vals ++ newOf h (h.tseq t).vals (h.tseq u).vals)) c s
        (h.ct.name c)).tseq h.nT = ⟨slSort h ((h.tseq t).vals ++ newOf h (h.tseq t).vals (h.tseq u).vals),
        if slSort h ((h.tseq t).vals ++ newOf h (h.tseq t).vals (h.tseq u).vals) = [] then none else some c⟩ := by simp [tierBuilt]
    rw [this]
    exact linked_of _ _ (hp.nodup_iff.mpr a.nodup) h.fol h.prev rfl rfl
  · intro x hx
    have hx' : x ∈ slSort h ((h.tseq t).vals ++ newOf h (h.tseq t).vals (h.tseq u).vals) := by
      simpa [tierBuilt] using hx
    simp [tierBuilt, hx']
  · intro x h1
    have : x ∉ slSort h ((h.tseq t).vals ++ newOf h (h.tseq t).vals (h.tseq u).vals) := by
      simpa [tierBuilt] using h1
    exact ⟨by simp [tierBuilt, folOf, this, withTier], by simp [tierBuilt, prevOf, this, withTier],
      by simp [tierBuilt, this, withTier]⟩

theorem Addable.congr {h h' : Heap} {t u : TRef} {c : CRef} (a : Addable h t u c) (s : TierSums h h') :
    Addable h' t u c := by
  obtain ⟨t1, t2, -, -⟩ := s.old t a.old.1
  obtain ⟨u1, u2, -, -⟩ := s.old u a.old.2
  constructor
  · exact ⟨Nat.lt_of_lt_of_le a.old.1 s.more, Nat.lt_of_lt_of_le a.old.2 s.more⟩
  · rw [t2, u2]; exact a.tcls
  · rw [s.ct]; exact a.interval
  · rw [s.ct]; exact a.sup
  · rw [t1]; exact a.ecls
  · rw [t1]; exact a.ne
  · rw [t1, u1, s.cls]; exact a.cls
  · rw [t1, u1, s.label]; exact a.label
  · rw [t1, u1]; exact a.once
  · rw [t1]; unfold SortedByStart; rw [s.start]; exact a.sorted

theorem TierSums.newOf {h h' : Heap} (s : TierSums h h') (a b : List Ref) : newOf h' a b = newOf h a b := by
  unfold ATG.newOf
  apply List.filter_congr
  intro x _
  congr 1
  rw [Bool.eq_iff_iff, slContains_iff, slContains_iff]
  unfold Listed SameValue Heap.isPoint
  rw [s.start, s.stop, s.label, s.cls, s.ct]

/-- several sums -/
theorem addTiers_ok : ∀ (ps : List (TRef × TRef)) (h : Heap), (∀ p ∈ ps, ∃ c, Addable h p.1 p.2 c) →
    ∃ ns h', addTiers ps h = .ok ns h' ∧ TierSums h h' ∧ ns = (List.range ps.length).map (h.nT + ·) ∧
      (∀ (i : Nat) p, ps[i]? = some p →
        (h'.tseq (h.nT + i)).vals = slSort h ((h.tseq p.1).vals ++ newOf h (h.tseq p.1).vals (h.tseq p.2).vals) ∧
        h'.tcls (h.nT + i) = h.tcls p.1 ∧ h'.tsup (h.nT + i) = h.ct.sup (h.tcls p.1) ∧
        h'.tsub (h.nT + i) = h.ct.sub (h.tcls p.1)) ∧ h'.nT = h.nT + ps.length
  | [], h, _ => ⟨[], h, rfl, TierSums.refl h, rfl, by simp, rfl⟩
  | p :: ps, h, ha => by
    obtain ⟨c, a⟩ := ha p (by simp)
    obtain ⟨h1, e1, s1, n1, v1, c1, su1, sb1, -⟩ := a.run
    obtain ⟨ns, h2, e2, s2, en, r2, n2⟩ := addTiers_ok ps h1 (fun q hq => by
      obtain ⟨d, b⟩ := ha q (by simp [hq])
      exact ⟨d, b.congr s1⟩)
    refine ⟨h.nT :: ns, h2, ?_, s1.trans s2, ?_, ?_, ?_⟩
    · unfold addTiers
      mstep e1
      mstep e2
      rfl
    · rw [en, n1, List.length_cons, List.range_succ_eq_map]
      simp only [List.map_cons, Nat.add_zero, List.map_map]
      congr 1
      apply List.map_congr_left
      intro i _
      simp only [Function.comp]
      omega
    · intro i q hq
      cases i with
      | zero =>
        simp at hq; subst hq
        obtain ⟨o1, o2, o3, o4⟩ := s2.old h.nT (by rw [n1]; exact Nat.lt_succ_self _)
        simp only [Nat.add_zero]
        rw [o1, o2, o3, o4, v1, c1, su1, sb1, a.tcls.1]
        exact ⟨rfl, rfl, rfl, rfl⟩
      | succ i =>
        have hq' : ps[i]? = some q := by simpa using hq
        obtain ⟨d, b⟩ := ha q (by simp [List.mem_of_getElem? hq'])
        obtain ⟨r1, r2, r3, r4⟩ := r2 i q hq'
        obtain ⟨o1, o2, -, -⟩ := s1.old q.1 b.old.1
        obtain ⟨q1, -, -, -⟩ := s1.old q.2 b.old.2
        rw [n1, Nat.add_assoc, Nat.add_comm 1 i] at r1 r2 r3 r4
        rw [r1, r2, r3, r4, o1, o2, q1, s1.ct, s1.newOf, slSort_congr h1 h _ s1.start]
        exact ⟨rfl, rfl, rfl, rfl⟩
    · rw [n2, n1, List.length_cons]; omega

end ATG
