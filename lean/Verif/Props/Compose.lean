import Verif.Lemmas.AddGroups
import Verif.Props.Group
import Verif.Lemmas.Points
/-!
# Adding tiers and groups: C65, C66
-/
namespace ATG

/-! ## C65: the sum of two tiers -/

/-- C65: `t + u` is a new tier of the class of both. It lists the entries of `t` and those entries of `u` of
    which `t` has no equal, each once, in order, linked, and they know it as their tier. No time, label,
    class or hierarchy link changes, and the old tiers list what they listed. `_partial`: the
    entries of the operands now belong to the sum (`C65_operands_violated`), and two empty tiers
    (`C65_empty_violated`) are left out; point tiers are in `C65_points_partial`. -/
theorem C65_sum_partial {h : Heap} {t u : TRef} {c : CRef} (a : Addable h t u c) :
    ∃ n h', tierAdd t u h = .ok n h' ∧ h.nT ≤ n ∧ h'.tcls n = c ∧
      (∀ x, x ∈ (h'.tseq n).vals ↔ x ∈ (h.tseq t).vals ∨ x ∈ (h.tseq u).vals ∧ ¬ Listed h (h.tseq t).vals x) ∧
      (h'.tseq n).vals.Nodup ∧ SortedByStart h' (h'.tseq n).vals ∧ DoublyLinked h' (h'.tseq n).vals ∧
      (∀ x ∈ (h'.tseq n).vals, h'.intier x = some n) ∧
      (h'.start = h.start ∧ h'.stop = h.stop ∧ h'.label = h.label ∧ h'.cls = h.cls ∧ h'.subs = h.subs ∧
        h'.sup = h.sup) ∧
      ∀ t' < h.nT, h'.tseq t' = h.tseq t' ∧ h'.tcls t' = h.tcls t' := by
  obtain ⟨h', e, s, -, v, tc, -, -, dl, it, -⟩ := a.run
  have hp := slSort_perm h ((h.tseq t).vals ++ newOf h (h.tseq t).vals (h.tseq u).vals)
  refine ⟨h.nT, h', e, Nat.le_refl _, tc, ?_, ?_, ?_, dl, it, ⟨s.start, s.stop, s.label, s.cls, s.subs, s.sup⟩,
    fun t' ht' => ⟨(s.old t' ht').1, (s.old t' ht').2.1⟩⟩
  · intro x
    rw [v, hp.mem_iff, List.mem_append, mem_newOf]
  · rw [v]; exact hp.nodup_iff.mpr a.nodup
  · rw [v]; unfold SortedByStart; rw [s.start]; exact slSort_sorted h _

/-- C65 with an empty tier on the left: the sum lists the entries of `u`, in order. The list of `t` gets an
    entry class, but stays empty. -/
theorem C65_empty_left (h : Heap) (t u : TRef) (c s : CRef) (ht : t < h.nT)
    (hc : h.tcls t = c ∧ h.tcls u = c) (hi : h.ct.isSub c cPoint = false) (hs : h.ct.sup c = some s)
    (h0 : h.tseq t = SL.empty) (hne : (h.tseq u).vals ≠ [])
    (hcls : ∀ x ∈ (h.tseq u).vals, h.cls x = c) (hl : ∀ x ∈ (h.tseq u).vals, h.label x ≠ "#")
    (hnd : (h.tseq u).vals.Nodup) (so : SortedByStart h (h.tseq u).vals) :
    ∃ n h', tierAdd t u h = .ok n h' ∧ h'.tcls n = c ∧ (h'.tseq n).vals = (h.tseq u).vals ∧
      DoublyLinked h' (h.tseq u).vals ∧ (∀ x ∈ (h.tseq u).vals, h'.intier x = some n) ∧
      (h'.tseq t).vals = [] ∧ h'.start = h.start ∧ h'.stop = h.stop ∧ h'.label = h.label := by
  have hpt : h.isPointTier t = false := by unfold Heap.isPointTier; rw [hc.1, hi]
  have hpu : h.isPointTier u = false := by unfold Heap.isPointTier; rw [hc.2, hi]
  obtain ⟨x, xs, hx⟩ : ∃ x xs, (h.tseq u).vals = x :: xs := by
    cases e : (h.tseq u).vals with
    | nil => exact absurd e hne
    | cons x xs => exact ⟨x, xs, rfl⟩
  let f : SL → Heap → Heap := fun sl h => { h with tseq := upd h.tseq t sl }
  have add := slAdd_ok_empty (putSeq t) f (fun _ _ => rfl) (fun _ _ => ⟨rfl, rfl⟩) (h.tseq u).vals h c x xs hx hcls
  rw [slSort_of_sorted h _ so] at add
  have nt := newTier_ok (h.tseq u).vals c s (f ⟨[], some c⟩ h) hne hi hs hcls hnd hl
  rw [slSort_of_sorted _ _ (show SortedByStart (f ⟨[], some c⟩ h) _ from so)] at nt
  refine ⟨h.nT, tierBuilt (withTier (f ⟨[], some c⟩ h)) h.nT (h.tseq u).vals c s (h.ct.name c), ?_, ?_, ?_, ?_, ?_, ?_,
    rfl, rfl, rfl⟩
  · unfold tierAdd
    mstep M.get_apply h
    rw [if_neg (by simp [hpt, hpu]), if_pos (by simp [hc.1, hc.2, isSub_refl]), h0]
    mstep add
    simp only [hpt]
    rw [if_neg (by simp)]
    exact nt
  · simp [tierBuilt, f]
  · simp [tierBuilt, f]
  · exact linked_of _ _ hnd h.fol h.prev rfl rfl
  · intro y hy
    simp [tierBuilt, f, hy]
  · have : t ≠ h.nT := Nat.ne_of_lt ht
    simp [tierBuilt, f, withTier, upd_ne _ _ _ _ this]

/-- C65, errors: a point tier and an interval tier cannot be added, nor tiers of unrelated classes; nothing
    changes then. -/
theorem C65_rejects (h : Heap) (t u : TRef)
    (hh : h.isPointTier t ≠ h.isPointTier u ∨
      h.ct.isSub (h.tcls t) (h.tcls u) = false ∧ h.ct.isSub (h.tcls u) (h.tcls t) = false) :
    tierAdd t u h = .err .valueError h := by
  unfold tierAdd
  mstep M.get_apply h
  by_cases hk : h.isPointTier t ≠ h.isPointTier u
  · rw [if_pos hk]; rfl
  · rcases hh with hh | ⟨h1, h2⟩
    · exact absurd hh hk
    · rw [if_neg hk, if_neg (by simp [h1, h2])]; rfl

/-- C65 does not leave the operands alone: every entry of `t` afterwards belongs to the sum, so its `intier`
    is not `t`, and the last entry of `t` may have a `fol`. -/
theorem C65_operands_violated {h : Heap} {t u : TRef} {c : CRef} (a : Addable h t u c) :
    ∃ n h', tierAdd t u h = .ok n h' ∧ (h'.tseq t).vals ≠ [] ∧
      ∀ x ∈ (h'.tseq t).vals, h'.intier x ≠ some t := by
  obtain ⟨h', e, s, -, v, -, -, -, -, it, -⟩ := a.run
  refine ⟨h.nT, h', e, ?_, ?_⟩
  · rw [(s.old t a.old.1).1]; exact a.ne
  · intro x hx
    rw [(s.old t a.old.1).1] at hx
    rw [it x (by
      rw [v, (slSort_perm h _).mem_iff]
      exact List.mem_append_left _ hx)]
    simp only [ne_eq, Option.some.injEq]
    exact fun e => Nat.lt_irrefl _ (e ▸ a.old.1)

/-- tier 0: words `a`, `c`; tier 1: words `b`, and `c` again; tiers 2, 3: empty word tiers; tier 4: phones -/
def exAddTiers : Heap := run0 (do
  let _ ← newTierFrom [(0, 1, "a"), (2, 3, "c")] cWord "Word"
  let _ ← newTierFrom [(1, 2, "b"), (2, 3, "c")] cWord "Word"
  let _ ← newTierFrom [] cWord "Word"
  let _ ← newTierFrom [] cWord "Word"
  let _ ← newTierFrom [(0, 1, "p")] cPhone "Phone")

/-- C65 fails for two empty tiers: the sum of two empty word tiers is a tier of plain intervals. -/
theorem C65_empty_violated : ∃ h t u, h.tcls t = h.tcls u ∧ (tierAdd t u h).out = .ok 5 ∧
    (tierAdd t u h).heap.tcls 5 ≠ h.tcls t :=
  ⟨exAddTiers, 2, 3, by decide +kernel, by decide +kernel, by decide +kernel⟩

theorem exAddTiers_addable : Addable exAddTiers 0 1 cWord where
  old := by decide +kernel
  tcls := by decide +kernel
  interval := by decide +kernel
  sup := ⟨7, by decide +kernel⟩
  ecls := by decide +kernel
  ne := by decide +kernel
  cls := by
    have : ∀ x ∈ (exAddTiers.tseq 0).vals ++ (exAddTiers.tseq 1).vals, exAddTiers.cls x = cWord := by
      decide +kernel
    intro x hx; exact this x (List.mem_append.mpr hx)
  label := by
    have : ∀ x ∈ (exAddTiers.tseq 0).vals ++ (exAddTiers.tseq 1).vals, exAddTiers.label x ≠ "#" := by
      decide +kernel
    intro x hx; exact this x (List.mem_append.mpr hx)
  once := by decide +kernel
  sorted := by unfold SortedByStart; decide +kernel

-- the hypotheses of C65 hold for tiers 0 and 1; the sum is a, b, c
example : Addable exAddTiers 0 1 cWord ∧
    ((tierAdd 0 1 exAddTiers).heap.tseq 5).vals = [0, 2, 1] ∧
    (tierAdd 0 1 exAddTiers).heap.fol 0 = some (.obj 2) := ⟨exAddTiers_addable, by decide +kernel, by decide +kernel⟩
-- an empty tier on the left
example : ((tierAdd 2 1 exAddTiers).heap.tseq 5).vals = [2, 3] ∧ exAddTiers.tseq 2 = SL.empty := by decide +kernel
-- words and phones do not add
example : exAddTiers.ct.isSub cWord cPhone = false ∧ exAddTiers.ct.isSub cPhone cWord = false ∧
    (tierAdd 0 4 exAddTiers).out = .error .valueError := by decide +kernel

/-- C65 for point tiers: the sum lists points of both tiers, in order of time, no two of them equal, and
    each point of either tier is listed or equals one that is. They know the sum as their tier. Unlike sums of interval
    tiers, two equal points of one tier count once. `_partial`: `t` is not empty, and the points of the operands now belong to the
    sum. -/
theorem C65_points_partial (h : Heap) (t u : TRef) (c : CRef) (hc : h.tcls t = c ∧ h.tcls u = c)
    (hci : h.ct.isSub c cPoint = true) (hne : (h.tseq t).vals ≠ []) (hec : (h.tseq t).ecls = some c)
    (so : SortedByStart h (h.tseq t).vals)
    (hcls : ∀ x, x ∈ (h.tseq t).vals ∨ x ∈ (h.tseq u).vals → h.cls x = c ∧ h.label x ≠ "#") :
    ∃ n h', tierAdd t u h = .ok n h' ∧ h.nT ≤ n ∧ h'.tcls n = c ∧
      (∀ x ∈ (h'.tseq n).vals, x ∈ (h.tseq t).vals ∨ x ∈ (h.tseq u).vals ∧ ¬ Listed h (h.tseq t).vals x) ∧
      (∀ x, x ∈ (h.tseq t).vals ∨ x ∈ (h.tseq u).vals → Listed h (h'.tseq n).vals x) ∧
      ((h'.tseq n).vals.Pairwise fun x y => ¬ SameValue h x y) ∧
      SortedByStart h (h'.tseq n).vals ∧ DoublyLinked h' (h'.tseq n).vals ∧
      (∀ x ∈ (h'.tseq n).vals, h'.intier x = some n ∧ h'.within x = some (.tier n)) ∧
      (h'.start = h.start ∧ h'.stop = h.stop ∧ h'.label = h.label ∧ h'.cls = h.cls ∧ h'.subs = h.subs ∧
        h'.sup = h.sup) ∧
      ∀ t' < h.nT, h'.tseq t' = h.tseq t' ∧ h'.tcls t' = h.tcls t' := by
  have hpt : h.isPointTier t = true := by unfold Heap.isPointTier; rw [hc.1, hci]
  have hpu : h.isPointTier u = true := by unfold Heap.isPointTier; rw [hc.2, hci]
  obtain ⟨l, hl⟩ : ∃ l, l = slSort h ((h.tseq t).vals ++ newOf h (h.tseq t).vals (h.tseq u).vals) := ⟨_, rfl⟩
  have hmem : ∀ x, x ∈ l ↔ x ∈ (h.tseq t).vals ∨ x ∈ (h.tseq u).vals ∧ ¬ Listed h (h.tseq t).vals x := by
    intro x
    rw [hl, (slSort_perm h _).mem_iff, List.mem_append, mem_newOf]
  have hall : ∀ x ∈ (h.tseq t).vals ++ newOf h (h.tseq t).vals (h.tseq u).vals, h.cls x = c := by
    intro x hx
    rcases List.mem_append.mp hx with hx | hx
    · exact (hcls x (Or.inl hx)).1
    · exact (hcls x (Or.inr ((mem_newOf _ _ _ _).mp hx).1)).1
  have hlc : ∀ x ∈ l, h.cls x = c ∧ h.label x ≠ "#" := fun x hx =>
    hcls x (((hmem x).mp hx).imp id And.left)
  have add : slAdd (putSeq t) (h.tseq t) (h.tseq u).vals h = .ok ⟨l, some c⟩ h := by
    by_cases hn : newOf h (h.tseq t).vals (h.tseq u).vals = []
    · rw [slAdd_none_new _ _ _ _ hn, hl, hn, List.append_nil, slSort_of_sorted h _ so, ← hec]
    · rw [slAdd_ok (putSeq t) (h.tseq t) (h.tseq u).vals h c c hn hec
        (fun x hx => hall x (List.mem_append_right _ hx)) (by simp [isSub_refl])
        (fun x hx => by show _ = h.ct.isSub (h.cls x) cPoint; rw [hall x hx]), castAll_same h _ c hall, hl]
  have lne : l ≠ [] := by
    obtain ⟨x, hx⟩ := List.exists_mem_of_ne_nil _ hne
    exact List.ne_nil_of_mem ((hmem x).mpr (Or.inl hx))
  have lsort : SortedByStart h l := hl ▸ slSort_sorted h _
  obtain ⟨s1, s2, s3, -, s5⟩ := pointVals_spec h (sortBy h.start l) []
    (sortBy_sorted _ _) (by simp [SortedByStart]) (by simp) (by simp)
  have pmem : ∀ x, x ∈ sortBy h.start l ↔ x ∈ l := fun x => (sortBy_perm _ _).mem_iff
  have hsub : ∀ y ∈ pointVals h (sortBy h.start l) [], y ∈ l := fun y hy =>
    (pmem y).mp ((s3 y hy).resolve_left (by simp))
  have np : newPointTier l c (h.ct.name c) h = .ok h.nT (pointTierBuilt { h with
    nT := h.nT + 1
    tseq := upd h.tseq h.nT SL.empty
    tcont := upd h.tcont h.nT .unset
    twithin := upd h.twithin h.nT none } h.nT l (pointVals h (sortBy h.start l) []) c (h.ct.name c)) := by
    unfold newPointTier
    mstep (show newTierObj h = .ok h.nT _ from rfl)
    mstep pointTierInit_ok h.nT l c (h.ct.name c) { h with
      nT := h.nT + 1
      tseq := upd h.tseq h.nT SL.empty
      tcont := upd h.tcont h.nT .unset
      twithin := upd h.twithin h.nT none } (by simp) hci
      (fun x hx => by show h.ct.isSub (h.cls x) cPoint = true; rw [(hlc x hx).1, hci]) (fun x hx => (hlc x hx).2)
    rfl
  have run : tierAdd t u h = newPointTier l c (h.ct.name c) h := by
    unfold tierAdd
    mstep M.get_apply h
    rw [if_neg (by simp [hpt, hpu]), if_pos (by simp [hc.1, hc.2, isSub_refl])]
    mstep add
    rw [if_pos hpt]
    mstep M.get_apply h
    clear add np hmem hl lsort s1 s2 s3 s5 pmem hsub
    cases l with
    | nil => exact absurd rfl lne
    | cons x xs =>
      show newPointTier (x :: xs) (h.cls x) (h.ct.name (h.cls x)) h = _
      rw [(hlc x (by simp)).1]
  rw [np] at run
  refine ⟨h.nT, _, run, Nat.le_refl _, ?_⟩
  · clear run
    generalize pointVals h (sortBy h.start l) [] = L at *
    have hL : ∀ x ∈ l, Listed h L x := fun x hx => s5 x ((pmem x).mpr hx)
    refine ⟨by simp [pointTierBuilt], ?_, ?_, ?_, ?_, ?_, ?_, ⟨rfl, rfl, rfl, ?_, rfl, rfl⟩, ?_⟩
    · intro x hx
      simp only [pointTierBuilt, upd_same] at hx
      exact (hmem x).mp (hsub x hx)
    · intro x hx
      simp only [pointTierBuilt, upd_same]
      by_cases hx' : x ∈ l
      · exact hL x hx'
      · have hnt : x ∉ (h.tseq t).vals := fun q => hx' ((hmem x).mpr (Or.inl q))
        have hxu := hx.resolve_left hnt
        by_cases hli : Listed h (h.tseq t).vals x
        · obtain ⟨y, hy, sv⟩ := hli.resolve_left hnt
          rcases hL y ((hmem y).mpr (Or.inl hy)) with hz | ⟨z, hz, sz⟩
          · exact Or.inr ⟨y, hz, sv⟩
          · exact Or.inr ⟨z, hz, sz.1.trans sv.1, sz.2.1.trans sv.2.1, sz.2.2.1.trans sv.2.2.1, sz.2.2.2.trans sv.2.2.2⟩
        · exact absurd ((hmem x).mpr (Or.inr ⟨hxu, hli⟩)) hx'
    · simp only [pointTierBuilt, upd_same]; exact s2
    · simp only [pointTierBuilt, upd_same]; exact s1
    · simp only [pointTierBuilt, upd_same]
      exact linked_of _ _ (nodup_of_distinct h L s2) h.fol h.prev rfl rfl
    · intro x hx
      simp only [pointTierBuilt, upd_same] at hx ⊢
      simp [hx]
    · show (fun r => if r ∈ l then c else h.cls r) = h.cls
      funext r
      split
      · rename_i hr; exact (hlc r hr).1.symm
      · rfl
    · intro t' ht'
      have : t' ≠ h.nT := Nat.ne_of_lt ht'
      simp [pointTierBuilt, upd_ne _ _ _ _ this]

/-- tier 0: points `a` at 0 and `c` at 2; tier 1: points `b` at 1, and `c` at 2 again -/
def exAddPoints : Heap := run0 (do
  let a ← newEntry cPoint 0 0 "a"
  let c ← newEntry cPoint 2 2 "c"
  let _ ← newPointTier [a, c] cPoint "p"
  let b ← newEntry cPoint 1 1 "b"
  let d ← newEntry cPoint 2 2 "c"
  let _ ← newPointTier [b, d] cPoint "q"
  pure ())

-- the hypotheses of C65_points_partial hold; the sum is a, b, c
example : (exAddPoints.tcls 0 = cPoint ∧ exAddPoints.tcls 1 = cPoint) ∧
    exAddPoints.ct.isSub cPoint cPoint = true ∧ (exAddPoints.tseq 0).vals ≠ [] ∧ (exAddPoints.tseq 0).ecls = some cPoint ∧
    SortedByStart exAddPoints (exAddPoints.tseq 0).vals ∧
    (∀ x ∈ (exAddPoints.tseq 0).vals ++ (exAddPoints.tseq 1).vals, exAddPoints.cls x = cPoint ∧ exAddPoints.label x ≠ "#") ∧
    ((tierAdd 0 1 exAddPoints).heap.tseq 2).vals = [0, 2, 1] ∧
    (tierAdd 0 1 exAddPoints).heap.fol 0 = some (.obj 2) ∧
    (tierAdd 0 1 exAddPoints).heap.intier 3 = some 1 := by unfold SortedByStart; decide +kernel

/-! ## C66: the sum of two groups -/

/-- C66: the sum of two groups of aligned tiers, the second later than the first, is a new group of new
    tiers: each lists the entries of the first group's tier and then those of the second's, and the tiers of
    the new group are related by containment. No time, label or class changes. `_partial`: it fails for groups
    at the same time (`C66_overlap_violated`). Missing: other orders of the two groups. -/
theorem C66_sum_partial (h : Heap) (g g' : GRef) (hg : h.gpoint g = false) (hne : h.gtiers g ≠ [])
    (p : PlainTiers h (h.gtiers g)) (q : PlainTiers h (h.gtiers g'))
    (cs : Consecutive h (h.gtiers g) (h.gtiers g')) (ch : ClassChain h (h.gtiers g))
    (al : AlignedTiers h (h.gtiers g)) (al' : AlignedTiers h (h.gtiers g')) (td : Tidy h) :
    ∃ n h', groupAdd g g' h = .ok n h' ∧ (h'.gtiers n).length = (h.gtiers g).length ∧
      (∀ t ∈ h'.gtiers n, h.nT ≤ t) ∧
      (∀ (i : Nat) t u v, (h.gtiers g)[i]? = some t → (h.gtiers g')[i]? = some u → (h'.gtiers n)[i]? = some v →
        (h'.tseq v).vals = (h.tseq t).vals ++ (h.tseq u).vals ∧ h'.tcls v = h.tcls t) ∧
      RelatedByContainment h' (h'.gtiers n) ∧
      (h'.start = h.start ∧ h'.stop = h.stop ∧ h'.label = h.label ∧ h'.cls = h.cls ∧ h'.nE = h.nE) ∧
      ∀ t < h.nT, h'.tseq t = h.tseq t := by
  obtain ⟨ns, h1, e1, s, ln, -, hn, r, ch1, al1, td1⟩ := addTiers_consecutive p q cs ch al al' td
  have nne : ns ≠ [] := by
    intro e; rw [e] at ln
    exact hne (List.length_eq_zero_iff.mp ln.symm)
  obtain ⟨n, h2, e2, g2, r2, s2⟩ := C24_construct ns ns h1 ch1 (List.Perm.refl _) nne al1 (td1.on _)
  refine ⟨n, h2, ?_, by rw [g2, ln], by rw [g2]; exact hn, ?_, by rw [g2]; exact r2, ⟨?_, ?_, ?_, ?_, ?_⟩, ?_⟩
  · unfold groupAdd
    mstep M.get_apply h
    rw [if_pos cs.classCheck]
    mstep e1
    rw [if_neg (by simp [hg])]
    exact e2
  · intro i t u v ht hu hv
    rw [g2] at hv
    rw [s2.tseq, s2.tcls]
    exact r i t u v ht hu hv
  · rw [s2.start, s.start]
  · rw [s2.stop, s.stop]
  · rw [s2.label, s.label]
  · rw [s2.cls, s.cls]
  · rw [s2.nE, s.nE]
  · intro t ht
    rw [s2.tseq]
    exact (s.old t ht).1

/-- C66, errors: groups with different class names do not add. -/
theorem C66_rejects (h : Heap) (g g' : GRef)
    (hh : (h.gtiers g).map (fun t => h.ct.name (h.tcls t)) ≠ (h.gtiers g').map (fun t => h.ct.name (h.tcls t))) :
    groupAdd g g' h = .err .valueError h := by
  unfold groupAdd
  mstep M.get_apply h
  rw [if_neg (by
    unfold classCheck
    simp only [Bool.and_eq_true, beq_iff_eq, not_and]
    intro _; exact hh)]
  rfl

/-- two groups of a word and two phones each, from 0 to 2 and from 2 to 4 -/
def exAddGroups : Heap :=
  { heap0 with
    nE := 6
    cls := fun r => if r < 2 then cWord else cPhone
    start := fun r => [0, 2, 0, 1, 2, 3].getD r 0
    stop := fun r => [2, 4, 1, 2, 3, 4].getD r 0
    label := fun r => ["ab", "cd", "a", "b", "c", "d"].getD r ""
    nT := 4
    tseq := fun t => [⟨[0], some cWord⟩, ⟨[2, 3], some cPhone⟩, ⟨[1], some cWord⟩,
      ⟨[4, 5], some cPhone⟩].getD t SL.empty
    tcls := fun t => if t % 2 = 0 then cWord else cPhone
    tsup := fun t => if t % 2 = 0 then some 7 else some cWord
    tsub := fun t => if t % 2 = 0 then some cPhone else some 8
    nG := 2
    gtiers := fun g => if g = 0 then [0, 1] else [2, 3] }

theorem exAddGroups_aligned (g : GRef) (hg : g = 0 ∨ g = 1) :
    PlainTiers exAddGroups (exAddGroups.gtiers g) ∧ AlignedTiers exAddGroups (exAddGroups.gtiers g) := by
  rcases hg with rfl | rfl
  · refine ⟨⟨by decide, by decide +kernel, by decide +kernel, by decide +kernel, ?_, by decide +kernel, by decide,
      by decide +kernel, by decide +kernel⟩, ⟨by decide, by decide, by decide, ?_, ?_⟩⟩
    · intro t ht
      have : t = 0 ∨ t = 1 := by simpa [exAddGroups] using ht
      rcases this with rfl | rfl
      · exact ⟨7, by decide +kernel⟩
      · exact ⟨cWord, by decide +kernel⟩
    · intro i t t' h1 h2
      match i with
      | 0 => cases h1; cases h2; decide +kernel
      | i + 1 => simp [exAddGroups] at h2
    · intro i t t' h1 h2
      match i with
      | 0 =>
        cases h1; cases h2
        exact ⟨by decide +kernel, by decide +kernel, by decide +kernel, by decide +kernel⟩
      | i + 1 => simp [exAddGroups] at h2
  · refine ⟨⟨by decide, by decide +kernel, by decide +kernel, by decide +kernel, ?_, by decide +kernel, by decide,
      by decide +kernel, by decide +kernel⟩, ⟨by decide, by decide, by decide, ?_, ?_⟩⟩
    · intro t ht
      have : t = 2 ∨ t = 3 := by simpa [exAddGroups] using ht
      rcases this with rfl | rfl
      · exact ⟨7, by decide +kernel⟩
      · exact ⟨cWord, by decide +kernel⟩
    · intro i t t' h1 h2
      match i with
      | 0 => cases h1; cases h2; decide +kernel
      | i + 1 => simp [exAddGroups] at h2
    · intro i t t' h1 h2
      match i with
      | 0 =>
        cases h1; cases h2
        exact ⟨by decide +kernel, by decide +kernel, by decide +kernel, by decide +kernel⟩
      | i + 1 => simp [exAddGroups] at h2

theorem exAddGroups_chain : ClassChain exAddGroups (exAddGroups.gtiers 0) where
  distinct := by decide
  down := by
    intro i t t' h1 h2
    match i with
    | 0 => cases h1; cases h2; decide
    | i + 1 => simp [exAddGroups] at h2
  inner := by
    intro i t t' h1 h2
    match i with
    | 0 => cases h1; cases h2; decide +kernel
    | i + 1 => simp [exAddGroups] at h2
  top := by intro t h1; cases h1; exact ⟨7, by decide, Or.inl (by decide +kernel)⟩
  bottom := by intro t h1; cases h1; exact ⟨8, by decide, Or.inl (by decide +kernel)⟩

theorem exAddGroups_consecutive : Consecutive exAddGroups (exAddGroups.gtiers 0) (exAddGroups.gtiers 1) where
  length := by decide
  tcls := by
    intro i t u h1 h2
    match i with
    | 0 => cases h1; cases h2; decide
    | 1 => cases h1; cases h2; decide
    | i + 2 => simp [exAddGroups] at h2
  after := by decide +kernel
  apart := by decide +kernel

-- a case meeting the hypotheses of C66
example : ∃ n h', groupAdd 0 1 exAddGroups = .ok n h' ∧ RelatedByContainment h' (h'.gtiers n) := by
  obtain ⟨n, h', e, -, -, -, r, -⟩ := C66_sum_partial exAddGroups 0 1 (by decide) (by decide)
    (exAddGroups_aligned 0 (Or.inl rfl)).1 (exAddGroups_aligned 1 (Or.inr rfl)).1 exAddGroups_consecutive
    exAddGroups_chain (exAddGroups_aligned 0 (Or.inl rfl)).2 (exAddGroups_aligned 1 (Or.inr rfl)).2
    ⟨by intro v x; simp [exAddGroups, heap0, SL.empty], by intro v; simp [exAddGroups, heap0, SL.empty],
     by intro v; simp [exAddGroups, heap0, SL.empty], by intro v; simp [exAddGroups, heap0, SL.empty],
     by intro v; simp [exAddGroups, heap0, SL.empty]⟩
  exact ⟨n, h', e, r⟩

-- and what comes out: two words with their own phones
example : (groupAdd 0 1 exAddGroups).out = .ok 2 ∧ (groupAdd 0 1 exAddGroups).heap.gtiers 2 = [4, 5] ∧
    ((groupAdd 0 1 exAddGroups).heap.tseq 5).vals = [2, 3, 4, 5] ∧
    ((groupAdd 0 1 exAddGroups).heap.subs 1).vals = [4, 5] := by decide +kernel

/-- one interval lies inside only one of several that do not overlap -/
theorem inside_unique {h : Heap} {us : List Ref} (hd : us.Pairwise fun u v => h.stop u ≤ h.start v) {u v x : Ref}
    (hu : u ∈ us) (hv : v ∈ us) (iu : Inside h u x) (iv : Inside h v x) (hx : h.start x < h.stop x) : u = v := by
  obtain ⟨i, hi, rfl⟩ := List.mem_iff_getElem.mp hu
  obtain ⟨j, hj, rfl⟩ := List.mem_iff_getElem.mp hv
  have p := List.pairwise_iff_getElem.mp hd
  unfold Inside at iu iv
  rcases Nat.lt_trichotomy i j with hij | hij | hij
  · have := p i j hi hj hij; grind
  · subst hij; rfl
  · have := p j i hj hi hij; grind

/-- C66: if the tiers of the two groups were related by containment before, no interval of either group
    changes its superset. `_partial` as `C66_sum_partial`. -/
theorem C66_kept_partial (h : Heap) (g g' : GRef) (hg : h.gpoint g = false) (hne : h.gtiers g ≠ [])
    (p : PlainTiers h (h.gtiers g)) (q : PlainTiers h (h.gtiers g'))
    (cs : Consecutive h (h.gtiers g) (h.gtiers g')) (ch : ClassChain h (h.gtiers g))
    (al : AlignedTiers h (h.gtiers g)) (al' : AlignedTiers h (h.gtiers g')) (td : Tidy h)
    (rl : RelatedByContainment h (h.gtiers g)) (rl' : RelatedByContainment h (h.gtiers g')) :
    ∃ n h', groupAdd g g' h = .ok n h' ∧
      ∀ t, t ∈ h.gtiers g ∨ t ∈ h.gtiers g' → ∀ x ∈ (h.tseq t).vals, h'.sup x = h.sup x := by
  obtain ⟨n, h', e, len, -, vals, r, ⟨es, et, -⟩, -⟩ := C66_sum_partial h g g' hg hne p q cs ch al al' td
  refine ⟨n, h', e, ?_⟩
  have nth : ∀ (i : Nat), i < (h.gtiers g).length → ∃ t u v, (h.gtiers g)[i]? = some t ∧
      (h.gtiers g')[i]? = some u ∧ (h'.gtiers n)[i]? = some v := fun i hi =>
    ⟨_, _, _, List.getElem?_eq_getElem hi, List.getElem?_eq_getElem (by rw [cs.length]; exact hi),
      List.getElem?_eq_getElem (by rw [len]; exact hi)⟩
  -- the superset of an entry `x` of the new tier `i + 1`
  have main : ∀ (i : Nat) x u, i + 1 < (h.gtiers g).length → ∀ t s v', (h.gtiers g)[i]? = some t →
      (h.gtiers g')[i]? = some s → (h'.gtiers n)[i + 1]? = some v' → x ∈ (h'.tseq v').vals →
      (u ∈ (h.tseq t).vals ∨ u ∈ (h.tseq s).vals) → Inside h u x → h.start x < h.stop x →
      h'.sup x = some u := by
    intro i x u hi t s v' ht hs hv' hx hu iu dx
    obtain ⟨-, -, v, -, -, hv⟩ := nth i (by omega)
    obtain ⟨w, hw, hxw⟩ := r.covered i v v' hv hv' x hx
    rw [(r.sup i v v' hv hv' w hw x hxw).1]
    rw [(r.subs i v v' hv hv' w hw).1, List.mem_filter] at hxw
    have hvv := (vals i t s v ht hs hv).1
    have iw : Inside h w x := by
      have := hxw.2
      simp only [Inside, es, et, decide_eq_true_eq] at this
      exact this
    congr 1
    rw [hvv] at hw
    have mt := List.mem_of_getElem? ht
    have ms := List.mem_of_getElem? hs
    exact inside_unique (List.pairwise_append.mpr ⟨p.disjoint t mt, q.disjoint s ms,
      fun a ha b hb => cs.after t mt a ha s ms b hb⟩) hw (List.mem_append.mpr hu) iw iu dx
  intro t ht x hx
  rcases ht with ht | ht
  · obtain ⟨i, hi⟩ := List.mem_iff_getElem?.mp ht
    have il := getElem?_lt hi
    obtain ⟨-, u, v, -, hu, hv⟩ := nth i il
    cases i with
    | zero =>
      rw [r.top v hv x (by rw [(vals 0 t u v hi hu hv).1]; exact List.mem_append_left _ hx), rl.top t hi x hx]
    | succ i =>
      obtain ⟨t0, s0, -, ht0, hs0, -⟩ := nth i (by omega)
      obtain ⟨w, hw, hxw⟩ := rl.covered i t0 t ht0 hi x hx
      rw [(rl.sup i t0 t ht0 hi w hw x hxw).1]
      rw [(rl.subs i t0 t ht0 hi w hw).1, List.mem_filter, decide_eq_true_eq] at hxw
      exact main i x w il t0 s0 v ht0 hs0 hv
        (by rw [(vals (i + 1) t u v hi hu hv).1]; exact List.mem_append_left _ hx) (Or.inl hw) hxw.2
        (p.dur t ht x hx)
  · obtain ⟨i, hi⟩ := List.mem_iff_getElem?.mp ht
    have il : i < (h.gtiers g).length := by rw [← cs.length]; exact getElem?_lt hi
    obtain ⟨u, -, v, hu, -, hv⟩ := nth i il
    cases i with
    | zero =>
      rw [r.top v hv x (by rw [(vals 0 u t v hu hi hv).1]; exact List.mem_append_right _ hx), rl'.top t hi x hx]
    | succ i =>
      obtain ⟨t0, s0, -, ht0, hs0, -⟩ := nth i (by omega)
      obtain ⟨w, hw, hxw⟩ := rl'.covered i s0 t hs0 hi x hx
      rw [(rl'.sup i s0 t hs0 hi w hw x hxw).1]
      rw [(rl'.subs i s0 t hs0 hi w hw).1, List.mem_filter, decide_eq_true_eq] at hxw
      exact main i x w il t0 s0 v ht0 hs0 hv
        (by rw [(vals (i + 1) u t v hu hi hv).1]; exact List.mem_append_right _ hx) (Or.inr hw) hxw.2
        (q.dur t ht x hx)

/-- the groups of `exAddGroups` with their phones related to their words -/
def exAddRelated : Heap :=
  { exAddGroups with
    subs := fun r => if r = 0 then ⟨[2, 3], some cPhone⟩ else if r = 1 then ⟨[4, 5], some cPhone⟩ else SL.empty
    sup := fun r => if r = 2 ∨ r = 3 then some 0 else if r = 4 ∨ r = 5 then some 1 else none
    within := fun r => if r = 2 ∨ r = 3 then some (.ival 0) else if r = 4 ∨ r = 5 then some (.ival 1) else none
    cont := fun _ => .alias
    fol := fun r => if r = 2 ∨ r = 4 then some (.obj (r + 1)) else some .bumper
    prev := fun r => if r = 3 ∨ r = 5 then some (.obj (r - 1)) else some .bumper }

theorem exAddRelated_tidy : Tidy exAddRelated := by
  have cases3 : ∀ v : Ref, v = 0 ∨ v = 1 ∨ (v ≠ 0 ∧ v ≠ 1) := fun v => by unfold Ref at *; omega
  have e0 : exAddRelated.subs 0 = ⟨[2, 3], some cPhone⟩ := rfl
  have e1 : exAddRelated.subs 1 = ⟨[4, 5], some cPhone⟩ := rfl
  have e2 : ∀ v : Ref, v ≠ 0 ∧ v ≠ 1 → exAddRelated.subs v = SL.empty := fun v hv => by
    simp [exAddRelated, hv.1, hv.2]
  constructor
  · intro v x
    rcases cases3 v with rfl | rfl | hv
    · rw [e0]; simp only [exAddRelated]; grind
    · rw [e1]; simp only [exAddRelated]; grind
    · rw [e2 v hv]; simp only [exAddRelated, SL.empty]; grind
  all_goals
    intro v
    rcases cases3 v with rfl | rfl | hv
    · rw [e0]; decide +kernel
    · rw [e1]; decide +kernel
    · rw [e2 v hv]; simp [SL.empty]

theorem exAddRelated_related (g : GRef) (hg : g = 0 ∨ g = 1) :
    RelatedByContainment exAddRelated (exAddRelated.gtiers g) := by
  have linked2 : ∀ x y : Ref, exAddRelated.fol x = some (.obj y) ∧ exAddRelated.prev y = some (.obj x) ∧
      exAddRelated.prev x = some .bumper ∧ exAddRelated.fol y = some .bumper → DoublyLinked exAddRelated [x, y] := by
    rintro x y ⟨h1, h2, h3, h4⟩
    refine ⟨?_, ?_, ?_⟩
    · intro i a b ha hb
      match i with
      | 0 => cases ha; cases hb; exact ⟨h1, h2⟩
      | i + 1 => simp at hb
    · intro a ha; cases ha; exact h3
    · intro a ha; cases ha; exact h4
  rcases hg with rfl | rfl
  all_goals
    constructor
    case top => intro t ht; cases ht; decide +kernel
    all_goals
      intro i t t' h1 h2
      match i with
      | 0 =>
        cases h1; cases h2
        first
          | decide +kernel
          | (intro u hu
             have hu' := List.mem_singleton.mp hu
             subst hu'
             exact linked2 _ _ (by decide +kernel))
      | i + 1 => simp [exAddRelated, exAddGroups] at h2

-- a case meeting the hypotheses of C66_kept_partial
example : ∃ n h', groupAdd 0 1 exAddRelated = .ok n h' ∧ h'.sup 5 = some 1 := by
  have a := fun g hg => (exAddGroups_aligned g hg).1
  have b := fun g hg => (exAddGroups_aligned g hg).2
  obtain ⟨n, h', e, r⟩ := C66_kept_partial exAddRelated 0 1 (by decide) (by decide)
    ⟨(a 0 (Or.inl rfl)).old, (a 0 (Or.inl rfl)).interval, (a 0 (Or.inl rfl)).tsup, (a 0 (Or.inl rfl)).tsub,
      (a 0 (Or.inl rfl)).sup, (a 0 (Or.inl rfl)).ecls, (a 0 (Or.inl rfl)).ne, (a 0 (Or.inl rfl)).dur,
      (a 0 (Or.inl rfl)).disjoint⟩
    ⟨(a 1 (Or.inr rfl)).old, (a 1 (Or.inr rfl)).interval, (a 1 (Or.inr rfl)).tsup, (a 1 (Or.inr rfl)).tsub,
      (a 1 (Or.inr rfl)).sup, (a 1 (Or.inr rfl)).ecls, (a 1 (Or.inr rfl)).ne, (a 1 (Or.inr rfl)).dur,
      (a 1 (Or.inr rfl)).disjoint⟩
    ⟨exAddGroups_consecutive.length, exAddGroups_consecutive.tcls, exAddGroups_consecutive.after,
      exAddGroups_consecutive.apart⟩
    (exAddGroups_chain.congr rfl rfl rfl rfl) ((b 0 (Or.inl rfl)).congr rfl rfl rfl rfl rfl rfl rfl)
    ((b 1 (Or.inr rfl)).congr rfl rfl rfl rfl rfl rfl rfl) exAddRelated_tidy
    (exAddRelated_related 0 (Or.inl rfl)) (exAddRelated_related 1 (Or.inr rfl))
  exact ⟨n, h', e, r 3 (Or.inr (by decide)) 5 (by decide)⟩

/-- two groups of a word and two phones each, both from 0 to 2 -/
def exAddOverlap : Heap := run0 (do
  let _ ← newTierFrom [(0, 2, "ab")] cWord "Word"
  let _ ← newTierFrom [(0, 1, "a"), (1, 2, "b")] cPhone "Phone"
  let _ ← newTierFrom [(0, 2, "cd")] cWord "Word"
  let _ ← newTierFrom [(0, 1, "c"), (1, 2, "d")] cPhone "Phone"
  let _ ← newGroup [0, 1]
  newGroup [2, 3])

/-- C66 fails for groups at the same time: the phone `c` (4) of the word `cd` (3) becomes one of the word
    `ab` (0), and `cd` is left with a phone that was not there before. -/
theorem C66_overlap_violated : ∃ h g g' x, h.sup x = some 3 ∧ (groupAdd g g' h).out = .ok 2 ∧
    (groupAdd g g' h).heap.sup x = some 0 ∧ ((groupAdd g g' h).heap.subs 3).vals = [8] ∧ h.nE < 8 :=
  ⟨exAddOverlap, 0, 1, 4, by decide +kernel, by decide +kernel, by decide +kernel, by decide +kernel,
    by decide +kernel⟩

end ATG
