import Verif.Model.Compose
import Verif.Props.Group
/-!
# Appending a tier to a group: C67
-/
namespace ATG

theorem classChain_some {h : Heap} {ts : List TRef} (ch : ClassChain h ts) :
    ∀ t ∈ ts, (h.tsub t).isSome ∧ (h.tsup t).isSome := by
  intro t ht
  obtain ⟨i, hi⟩ := List.mem_iff_getElem?.mp ht
  have il := getElem?_lt hi
  constructor
  · by_cases hl : i + 1 < ts.length
    · rw [(ch.down i t _ hi (List.getElem?_eq_getElem hl)).1]; rfl
    · have : i = ts.length - 1 := by omega
      subst this
      obtain ⟨c, hc, -⟩ := ch.bottom t hi
      rw [hc]; rfl
  · cases i with
    | zero =>
      obtain ⟨c, hc, -⟩ := ch.top t hi
      rw [hc]; rfl
    | succ i =>
      rw [(ch.down i _ t (List.getElem?_eq_getElem (by omega)) hi).2]; rfl

/-- the tests of `append` pass for the missing tier of a chain -/
theorem groupFits_ok {h : Heap} {g : GRef} {t : TRef} {ts : List TRef} (hg : h.gpoint g = false)
    (hne : h.gtiers g ≠ []) (ch : ClassChain h ts) (hp : (h.gtiers g ++ [t]).Perm ts)
    (hnew : ∀ t' ∈ h.gtiers g, h.ct.isSub (h.tcls t') (h.tcls t) = false ∧ h.ct.isSub (h.tcls t) (h.tcls t') = false) :
    groupFits h g (h.tcls t) = .ok () := by
  have hsome := classChain_some ch
  have hmem : ∀ t' ∈ h.gtiers g, t' ∈ ts := fun t' ht' => hp.mem_iff.mp (List.mem_append_left _ ht')
  have ht : t ∈ ts := hp.mem_iff.mp (List.mem_append_right _ (by simp))
  have other : ∀ t' ∈ ts, t' ≠ t → t' ∈ h.gtiers g := by
    intro t' h1 h2
    rcases List.mem_append.mp (hp.mem_iff.mpr h1) with h3 | h3
    · exact h3
    · exact absurd (List.mem_singleton.mp h3) h2
  unfold groupFits
  rw [if_neg (by
    rw [Bool.not_eq_true, List.any_eq_false]
    intro d hd
    obtain ⟨t', ht', rfl⟩ := List.mem_map.mp hd
    simp [related2, hnew t' ht'])]
  rw [if_neg (by simp [hg, hne])]
  rw [if_neg (by
    rw [Bool.not_eq_true, List.any_eq_false]
    intro d hd
    obtain ⟨t', ht', h1⟩ := List.mem_flatMap.mp hd
    obtain ⟨s1, s2⟩ := hsome t' (hmem t' ht')
    simp only [List.mem_cons, List.not_mem_nil, or_false] at h1
    rcases h1 with rfl | rfl
    · intro e; rw [Option.isNone_iff_eq_none.mp e] at s1; cases s1
    · intro e; rw [Option.isNone_iff_eq_none.mp e] at s2; cases s2)]
  rw [if_pos]
  -- a neighbour of `t` in the chain
  have hlen : 2 ≤ ts.length := by
    rw [← hp.length_eq, List.length_append]
    have := List.length_pos_iff.mpr hne
    simp only [List.length_singleton]; omega
  have dist : ∀ (i j : Nat) (x y : TRef), ts[i]? = some x → ts[j]? = some y → i ≠ j → x ≠ y := by
    rintro i j x y hx hy hij rfl
    have := ch.distinct
    apply hij
    have hnd : ts.Nodup := List.Pairwise.of_map _ (fun _ _ hab e => hab (e ▸ rfl)) this
    exact (List.getElem_inj hnd).mp (by
      rw [(List.getElem?_eq_some_iff.mp hx).2, (List.getElem?_eq_some_iff.mp hy).2] :
        ts[i]'(getElem?_lt hx) = ts[j]'(getElem?_lt hy))
  obtain ⟨i, hi⟩ := List.mem_iff_getElem?.mp ht
  have il := getElem?_lt hi
  rw [List.any_eq_true]
  cases i with
  | zero =>
    have h1 : ts[1]? = some (ts[1]'(by omega)) := List.getElem?_eq_getElem _
    have dn := (ch.down 0 t _ hi h1).2
    refine ⟨some (h.tcls t), List.mem_flatMap.mpr ⟨ts[1]'(by omega), other _ (List.getElem_mem _)
      (dist 1 0 _ _ h1 hi (by omega)), by simp [dn]⟩, by simp [related2, isSub_refl]⟩
  | succ i =>
    have h1 : ts[i]? = some (ts[i]'(by omega)) := List.getElem?_eq_getElem _
    have dn := (ch.down i _ t h1 hi).1
    refine ⟨some (h.tcls t), List.mem_flatMap.mpr ⟨ts[i]'(by omega), other _ (List.getElem_mem _)
      (dist i (i + 1) _ _ h1 hi (by omega)), by simp [dn]⟩, by simp [related2, isSub_refl]⟩

/-- C67: appending an interval tier to a group that is in no textgrid, where the tiers with the new one form a
    chain of classes and are aligned, gives the group of all these tiers from top to bottom, related by
    containment, whatever the place of the new tier in the chain. No time, label, class or tier
    changes. `_partial`: it fails for classes that are clones (`C67_dropped_violated`) and for point tiers in a
    textgrid (`C67_points_violated`); groups in a textgrid are in `C67_textgrid_partial`. -/
theorem C67_append_partial (g : GRef) (t : TRef) (built : List Ref) (ts : List TRef) (h : Heap) (hg : h.gpoint g = false)
    (ht : h.isPointTier t = false) (hw : h.gwithin g = none) (hne : h.gtiers g ≠ [])
    (ch : ClassChain h ts) (hp : (h.gtiers g ++ [t]).Perm ts)
    (hnew : ∀ t' ∈ h.gtiers g, h.ct.isSub (h.tcls t') (h.tcls t) = false ∧ h.ct.isSub (h.tcls t) (h.tcls t') = false)
    (al : AlignedTiers h ts) (td : TidyOn (OnTiers h ts) h) :
    ∃ h', groupAppend g t built h = .ok () h' ∧ h'.gtiers g = ts ∧ RelatedByContainment h' ts ∧
      SameContents h h' := by
  have tsne : ts ≠ [] := by
    intro e
    rw [e] at hp
    have := hp.length_eq
    simp at this
  let h1 : Heap := { h with
    gcont := upd h.gcont g (if h.gcont g = some (h.gtiers g) then some (h.gtiers g ++ [t]) else h.gcont g)
    gtiers := upd h.gtiers g (h.gtiers g ++ [t]) }
  obtain ⟨h', e, g1, r, s, -⟩ := C24_aligned g (h.gtiers g ++ [t]) ts false h1 (ch.congr rfl rfl rfl rfl) hp tsne
    (al.congr rfl rfl rfl rfl rfl rfl rfl) (td.congr rfl rfl rfl rfl rfl rfl rfl)
  refine ⟨h', ?_, g1, r, ⟨s.start, s.stop, s.label, s.cls, s.nE, s.tseq, s.tcls, s.tname, s.ct⟩⟩
  unfold groupAppend
  mstep M.get_apply h
  rw [if_neg (by simp [hg, ht])]
  have e0 : textgridOf h g = none := by unfold textgridOf; rw [hw]
  rw [e0]
  mstep M.pure_apply () h
  mstep M.get_apply h
  mstep (show liftE (groupFits h g (h.tcls t)) h = .ok () h by
    rw [groupFits_ok hg hne ch hp hnew]; rfl)
  mstep (show M.modify _ h = .ok () h1 from rfl)
  rw [if_neg (by simp [hg])]
  exact e

/-- C67, errors: a tier of the other kind is rejected and nothing changes. -/
theorem C67_rejects_kind (g : GRef) (t : TRef) (built : List Ref) (h : Heap) (hk : h.gpoint g ≠ h.isPointTier t) :
    groupAppend g t built h = .err .valueError h := by
  unfold groupAppend
  mstep M.get_apply h
  rw [if_pos hk]; rfl

/-- C67, errors: for a group in no textgrid, a tier is rejected, and nothing changes, if its class is a
    subclass or superclass of that of a tier there, or (for interval tiers) of no class next to one there. -/
theorem C67_rejects (g : GRef) (t : TRef) (built : List Ref) (h : Heap) (hk : h.gpoint g = h.isPointTier t)
    (hw : h.gwithin g = none)
    (hh : (∃ t' ∈ h.gtiers g, h.ct.isSub (h.tcls t') (h.tcls t) = true ∨ h.ct.isSub (h.tcls t) (h.tcls t') = true) ∨
      (h.gpoint g = false ∧ h.gtiers g ≠ [] ∧ ∀ t' ∈ h.gtiers g, ∃ c d, h.tsub t' = some c ∧ h.tsup t' = some d ∧
        (h.ct.isSub c (h.tcls t) = false ∧ h.ct.isSub (h.tcls t) c = false) ∧
        h.ct.isSub d (h.tcls t) = false ∧ h.ct.isSub (h.tcls t) d = false)) :
    groupAppend g t built h = .err .valueError h := by
  have fits : groupFits h g (h.tcls t) = .error .valueError := by
    unfold groupFits
    by_cases ha : (((h.gtiers g).map h.tcls).any fun d => related2 h.ct d (h.tcls t)) = true
    · rw [if_pos ha]
    · rw [if_neg ha]
      rcases hh with ⟨t', ht', h1⟩ | ⟨h1, h2, h3⟩
      · exfalso
        apply ha
        rw [List.any_eq_true]
        exact ⟨_, List.mem_map.mpr ⟨t', ht', rfl⟩, by unfold related2; rcases h1 with h1 | h1 <;> simp [h1]⟩
      · rw [if_neg (by simp [h1, h2])]
        rw [if_neg (by
          rw [Bool.not_eq_true, List.any_eq_false]
          intro d hd
          obtain ⟨t', ht', e⟩ := List.mem_flatMap.mp hd
          obtain ⟨c, d', e1, e2, -⟩ := h3 t' ht'
          rw [e1, e2] at e
          simp only [List.mem_cons, List.not_mem_nil, or_false] at e
          rcases e with rfl | rfl <;> simp)]
        rw [if_neg (by
          rw [Bool.not_eq_true, List.any_eq_false]
          intro d hd
          obtain ⟨t', ht', e⟩ := List.mem_flatMap.mp hd
          obtain ⟨c, d', e1, e2, e3, e4⟩ := h3 t' ht'
          rw [e1, e2] at e
          simp only [List.mem_cons, List.not_mem_nil, or_false] at e
          rcases e with rfl | rfl
          · simp [related2, e3]
          · simp [related2, e4])]
  unfold groupAppend
  mstep M.get_apply h
  rw [if_neg (by simp [hk])]
  have e0 : textgridOf h g = none := by unfold textgridOf; rw [hw]
  rw [e0]
  mstep M.pure_apply () h
  mstep M.get_apply h
  rw [fits]
  rfl

/-- group 0 has a word tier (0), tier 1 is a phone tier in no group; group 1 of words and phones (tiers 2, 3)
    is in a textgrid; tier 4 has plain intervals, tier 5 points -/
def exGroupAppend : Heap := run0 (do
  let _ ← newTierFrom [(0, 2, "ab")] cWord "Word"
  let _ ← newTierFrom [(0, 1, "a"), (1, 2, "b")] cPhone "Phone"
  let _ ← newGroup [0]
  let _ ← newTierFrom [(0, 2, "cd")] cWord "Word"
  let _ ← newTierFrom [(0, 1, "c"), (1, 2, "d")] cPhone "Phone"
  let _ ← newGroup [2, 3]
  let _ ← newAtgOf [1]
  let _ ← newTierFrom [(0, 2, "x")] cInterval "Other"
  let _ ← newPointTier [] cPoint "P")

-- the phones find their place; a tier that does not fit, one that is there already, and points are rejected
example : (groupAppend 0 1 [] exGroupAppend).out = .ok () ∧ (groupAppend 0 1 [] exGroupAppend).heap.gtiers 0 = [0, 1] ∧
    ((groupAppend 0 1 [] exGroupAppend).heap.subs 0).vals = [1, 2] ∧
    (groupAppend 0 4 [] exGroupAppend).out = .error .valueError ∧
    (groupAppend 0 0 [] exGroupAppend).out = .error .valueError ∧
    (groupAppend 0 5 [] exGroupAppend).out = .error .valueError := by decide +kernel

-- the hypotheses of C67_append_partial: words below which the phones of `exAligned` are missing, and the other way
example : ∃ h', groupAppend 0 1 [] { exAligned with gtiers := fun _ => [0] } = .ok () h' ∧
    h'.gtiers 0 = [0, 1] ∧ RelatedByContainment h' [0, 1] := by
  obtain ⟨h', e, g, r, -⟩ := C67_append_partial 0 1 [] [0, 1] { exAligned with gtiers := fun _ => [0] } (by decide)
    (by decide +kernel) (by decide) (by decide) (exAligned_chain.congr rfl rfl rfl rfl) (by decide) (by decide +kernel)
    (exAligned_aligned.congr rfl rfl rfl rfl rfl rfl rfl) ((exAligned_tidy.on _).congr rfl rfl rfl rfl rfl rfl rfl)
  exact ⟨h', e, g, r⟩
example : ∃ h', groupAppend 0 0 [] { exAligned with gtiers := fun _ => [1] } = .ok () h' ∧
    h'.gtiers 0 = [0, 1] ∧ RelatedByContainment h' [0, 1] := by
  obtain ⟨h', e, g, r, -⟩ := C67_append_partial 0 0 [] [0, 1] { exAligned with gtiers := fun _ => [1] } (by decide)
    (by decide +kernel) (by decide) (by decide) (exAligned_chain.congr rfl rfl rfl rfl) (by decide) (by decide +kernel)
    (exAligned_aligned.congr rfl rfl rfl rfl rfl rfl rfl) ((exAligned_tidy.on _).congr rfl rfl rfl rfl rfl rfl rfl)
  exact ⟨h', e, g, r⟩

/-- C67 fails for a phone tier of a textgrid: its class is a clone, a subclass of `Phone`, which passes both
    tests; the tier is then dropped without notice, because it is not the subset class of `Word`. -/
theorem C67_dropped_violated : ∃ h g t, (groupAppend g t [] h).out = .ok () ∧
    t ∉ (groupAppend g t [] h).heap.gtiers g :=
  ⟨exGroupAppend, 0, 3, by decide +kernel, by decide +kernel⟩

/-- Two classes of points; a group of one tier (0) in a textgrid, and a tier (1) of the other class, built
    without points, to which the point `q` (1) was appended. -/
def exPointAppend : Heap := run0 (do
  let cs ← liftC fun ct => customClasses ct ["P", "Q"] [0, 1]
  let p ← newEntry (cs.getD 0 0) 1 1 "p"
  let _ ← newPointTier [p] (cs.getD 0 0) "P"
  let g ← newPointsGroup [0]
  let _ ← newAtgOf [g]
  let q ← newEntry (cs.getD 1 0) 2 2 "q"
  let _ ← newPointTier [] (cs.getD 1 0) "Q"
  tierAppend 1 q)

/-- C67 fails for point tiers in a textgrid: the tier is built again from the points it was first built
    from, so a point appended since is lost. -/
theorem C67_points_violated : ∃ h g t, (h.tseq t).vals = [1] ∧ (groupAppend g t [] h).out = .ok () ∧
    ((groupAppend g t [] h).heap.tseq t).vals = [] ∧ (groupAppend g t [] h).heap.gtiers g = [0, 1] :=
  ⟨exPointAppend, 0, 1, by decide +kernel, by decide +kernel, by decide +kernel, by decide +kernel⟩

end ATG
