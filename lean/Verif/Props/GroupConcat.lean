import Verif.Lemmas.GroupConcat
import Verif.Props.Extent
import Verif.Props.TgGroups
/-!
# C82: appending an interval with its parts, and joining groups (`mixins/tiermixins.py:54-125, 284-305`)
-/
namespace ATG

/-- a group of a textgrid, with all its tiers, is a related group -/
theorem GapGrid.relatedGroup {h : Heap} {gs : List GRef} (gr : GapGrid h gs) {g : GRef} (hg : g ∈ gs)
    (low : ToBottom h (h.gtiers g)) : RelatedGroup h g (h.gtiers g) :=
  have gg := gr.groups g hg
  ⟨rfl, gg.gcont low, gg.gpoint, gg.ne, gg.chain, gg.aligned, gr.interval g hg, fun t ht => (gg.tiers t ht).ecls,
    fun t ht => (gg.tiers t ht).laid, gg.twithin low, gg.related, gr.closed g hg⟩

/-- C82 (what holds of a tier): an interval of the class of the first tier, tiled by its subset list, which is of the class
    of the second tier, and so on, and later than everything in the group, is appended to the first tier; then the tier at
    each position `i` has gained exactly the entries `i` steps below the new one, at its end; each says that it is in
    that tier; the intervals are related by containment as before, no superset or subset list differs, the
    first tier is linked throughout; nothing else changed.

    Missing: intervals that do not come last, that are not tiled, or that overlap entries of the group (times
    may then be moved, `C25`). -/
theorem C82_append_partial {h : Heap} {g : GRef} {ts : List TRef} (r : RelatedGroup h g ts) (td : Tidy h) {t : TRef}
    (ht : ts[0]? = some t) {x : Ref} (tr : Tree h (ts.map h.tcls) x) (hs : h.sup x = none)
    (hlast : ∀ t ∈ ts, ∀ y ∈ (h.tseq t).vals, h.stop y ≤ h.start x) (hlen : ts.length < 1000) :
    ∃ h', tierAppend t x h = .ok () h' ∧ RelatedGroup h' g ts ∧ Tidy h' ∧ StemAdded h h' ts x :=
  r.append td ht tr hs hlast hlen

/-- C82 (what holds of a group): `g.concat(g')` adds the entries of each tier of `g'` at the end of the tier of the same class
    of `g`, moved by the end of `g`; the joined tiers are related by containment, no superset or subset list differs,
    and nothing else changed; the end of `g` is now the sum of the two ends.

    Missing: groups whose tiers are not aligned or have points; the statement is false if times are negative
    (`C82_negative_violated`) and for groups of different textgrids (`C82_clones_violated`); the entries
    stay in the second group, too (`C82_shared_violated`). -/
theorem C82_concat_partial {h : Heap} {g g' : GRef} {ts us : List TRef} (c : CanFollow h g g' ts us) (hn : NoEmptyTier h g) :
    ∃ h' d, Greatest h.stop (groupEntries h g) d ∧ groupConcat g g' h = .ok () h' ∧ RelatedGroup h' g ts ∧ Tidy h' ∧
      Concatenated h h' ts (fun i => (us[i]?.map fun u => (h.tseq u).vals).getD []) d ∧
      (∀ m, groupXmax h g' = .ok m → groupXmax h' g = .ok (d + m)) := by
  obtain ⟨d, hd⟩ := groupXmax_ok h g c.left.gpoint hn (by rw [c.left.gtiers]; exact c.left.ne)
  obtain ⟨-, hgr⟩ := (C44_group_xmax h g d c.left.gpoint).mp hd
  have hbefore : ∀ t ∈ ts, ∀ y ∈ (h.tseq t).vals, h.stop y ≤ d := by
    intro t ht y hy
    refine hgr.2 y ?_
    unfold groupEntries
    rw [c.left.gtiers]
    exact List.mem_flatMap.mpr ⟨t, ht, hy⟩
  have j : Continues h g g' ts us d := ⟨c.left, c.right, c.tidy, c.ne, c.classes, c.separate, hbefore, c.after, c.depth⟩
  obtain ⟨h', e, rg, td, jn⟩ := j.concat hd
  refine ⟨h', d, hgr, e, rg, td, jn, ?_⟩
  intro m hm
  obtain ⟨hn', ⟨y, hy, ey⟩, hall⟩ := (C44_group_xmax h g' m c.right.gpoint).mp hm
  have elist : ∀ (i : Nat) t, ts[i]? = some t → ∃ u, us[i]? = some u ∧ (h'.tseq t).vals = (h.tseq t).vals ++ (h.tseq u).vals := by
    intro i t hi
    have hlt : i < us.length := by rw [j.length]; exact (List.getElem?_eq_some_iff.mp hi).1
    refine ⟨us[i], List.getElem?_eq_getElem hlt, ?_⟩
    rw [jn.lists i t hi, List.getElem?_eq_getElem hlt]
    rfl
  have hmov : ∀ (i : Nat) u, us[i]? = some u → ∀ z ∈ (h.tseq u).vals, h'.stop z = h.stop z + d := by
    intro i u hi z hz
    refine (jn.moved i (by rw [← j.length]; exact (List.getElem?_eq_some_iff.mp hi).1) z ?_).2
    rw [hi]
    exact hz
  have hold : ∀ t ∈ ts, ∀ z ∈ (h.tseq t).vals, h'.stop z = h.stop z := by
    intro t ht z hz
    refine (jn.kept z fun i hi q => ?_).2
    have hlt : i < us.length := by rw [j.length]; exact hi
    rw [List.getElem?_eq_getElem hlt] at q
    exact c.separate z ⟨t, ht, hz⟩ ⟨us[i], List.getElem_mem _, q⟩
  have hmpos : 0 ≤ m := by
    unfold groupEntries at hy
    rw [c.right.gtiers] at hy
    obtain ⟨u, hu, hy⟩ := List.mem_flatMap.mp hy
    have h1 := c.after u hu y hy
    have h2 := (c.right.plain hu hy).2.2
    grind
  refine (C44_group_xmax h' g (d + m) rg.gpoint).mpr ⟨?_, ⟨y, ?_, ?_⟩, ?_⟩
  · intro t ht
    rw [rg.gtiers] at ht
    obtain ⟨i, hi⟩ := List.mem_iff_getElem?.mp ht
    obtain ⟨u, hu, el⟩ := elist i t hi
    rw [el]
    have := hn t (by rw [c.left.gtiers]; exact ht)
    intro q
    exact this (List.append_eq_nil_iff.mp q).1
  · unfold groupEntries at hy ⊢
    rw [c.right.gtiers] at hy
    rw [rg.gtiers]
    obtain ⟨u, hu, hy⟩ := List.mem_flatMap.mp hy
    obtain ⟨i, hi⟩ := List.mem_iff_getElem?.mp hu
    have hlt : i < ts.length := by rw [← j.length]; exact (List.getElem?_eq_some_iff.mp hi).1
    obtain ⟨u', hu', el⟩ := elist i ts[i] (List.getElem?_eq_getElem hlt)
    rw [hi] at hu'
    injection hu' with hu'
    subst hu'
    exact List.mem_flatMap.mpr ⟨ts[i], List.getElem_mem _, by rw [el]; exact List.mem_append_right _ hy⟩
  · unfold groupEntries at hy
    rw [c.right.gtiers] at hy
    obtain ⟨u, hu, hy⟩ := List.mem_flatMap.mp hy
    obtain ⟨i, hi⟩ := List.mem_iff_getElem?.mp hu
    rw [hmov i u hi y hy, ey]
    grind
  · intro z hz
    unfold groupEntries at hz
    rw [rg.gtiers] at hz
    obtain ⟨t, ht, hz⟩ := List.mem_flatMap.mp hz
    obtain ⟨i, hi⟩ := List.mem_iff_getElem?.mp ht
    obtain ⟨u, hu, el⟩ := elist i t hi
    rw [el] at hz
    rcases List.mem_append.mp hz with hz | hz
    · rw [hold t ht z hz]
      have := hbefore t ht z hz
      grind
    · rw [hmov i u hu z hz]
      have := hall z (by
        unfold groupEntries
        rw [c.right.gtiers]
        exact List.mem_flatMap.mpr ⟨u, List.mem_of_getElem? hu, hz⟩)
      grind

/-- the hypotheses of `C82_concat_partial` are met by the two groups of the example grid -/
theorem exGridTiers_follow : ∃ h, (do let _ ← newGroup [0, 1]; newGroup [2, 3] : M GRef) exGridTiers = .ok 1 h ∧
    CanFollow h 0 1 [0, 1] [2, 3] ∧ NoEmptyTier h 0 := by
  obtain ⟨h, e, gr, -, s, g0, g1, -, u2, -⟩ := exGridTiers_grid
  have r0 := gr.relatedGroup (g := 0) (by simp)
  have r1 := gr.relatedGroup (g := 1) (by simp)
  rw [g0] at r0
  rw [g1] at r1
  have l0 : ToBottom h [0, 1] := by
    intro t ht
    cases ht
    exact ⟨8, by rw [u2]; decide, by rw [s.ct]; decide +kernel⟩
  have l1 : ToBottom h [2, 3] := by
    intro t ht
    cases ht
    exact ⟨8, by rw [u2]; decide, by rw [s.ct]; decide +kernel⟩
  refine ⟨h, e, ⟨r0 l0, r1 l1, gr.tidy, by decide, by rw [s.tcls]; decide, ?_, ?_, by decide⟩, ?_⟩
  · rintro y ⟨t, ht, hy⟩ ⟨t', ht', hy'⟩
    exact gr.separate 0 (by simp) 1 (by simp) (by decide) t (by rw [g0]; exact ht) y hy t' (by rw [g1]; exact ht') hy'
  · rw [s.tseq, s.start]
    decide +kernel
  · unfold NoEmptyTier
    rw [g0, s.tseq]
    decide

/-- the hypotheses of `C82_append_partial` are met by the second group of the example grid and the last word of the first -/
theorem exGridTiers_append : ∃ h, (do let _ ← newGroup [0, 1]; newGroup [2, 3] : M GRef) exGridTiers = .ok 1 h ∧
    RelatedGroup h 1 [2, 3] ∧ Tidy h ∧ Tree h ([2, 3].map h.tcls) 2 ∧ h.sup 2 = none ∧
    ∀ t ∈ ([2, 3] : List TRef), ∀ y ∈ (h.tseq t).vals, h.stop y ≤ h.start 2 := by
  obtain ⟨h, e, c, -⟩ := exGridTiers_follow
  obtain ⟨h2, e2, -, -, s, -⟩ := exGridTiers_grid
  rw [e] at e2
  injection e2 with _ e2
  subst e2
  have hv : (2 : Ref) ∈ (h.tseq 0).vals := by rw [s.tseq]; decide
  refine ⟨h, e, c.right, c.tidy, ?_, c.left.related.top 0 rfl 2 hv, ?_⟩
  · rw [c.classes]
    exact c.left.tree c.tidy 1 0 0 rfl rfl 2 hv
  · rw [s.tseq, s.stop, s.start]
    decide +kernel

/-- C82: joining a group with itself changes nothing. -/
theorem C82_self (h : Heap) (g : GRef) (T : Time) (hT : groupXmax h g = .ok T) : groupConcat g g h = .ok () h := by
  unfold groupConcat
  mstep M.get_apply h
  rw [if_pos (by unfold classCheck; simp), hT]
  dsimp only
  have key : ∀ l : List (TRef × TRef), (∀ p ∈ l, p.1 = p.2) → M.forL l (fun p => do
      let h ← M.get
      M.forL (h.tseq p.2).vals (fun x => do
        let h ← M.get
        if h.sup x ≠ none then pure ()
        else if (h.tseq p.1).vals.contains x then pure ()
        else do
          ivalShiftN shiftFuel x T
          tierAppend p.1 x)) h = .ok () h := by
    intro l
    induction l with
    | nil => intro _; rfl
    | cons p l ih =>
      intro hl
      obtain ⟨t, u⟩ := p
      have hp : t = u := hl (t, u) (by simp)
      subst hp
      have inner : ∀ xs : List Ref, (∀ x ∈ xs, x ∈ (h.tseq t).vals) → M.forL xs (fun x => do
          let h ← M.get
          if h.sup x ≠ none then pure ()
          else if (h.tseq t).vals.contains x then pure ()
          else do
            ivalShiftN shiftFuel x T
            tierAppend t x) h = .ok () h := by
        intro xs
        induction xs with
        | nil => intro _; rfl
        | cons x xs ihx =>
          intro hx
          rw [M.forL_cons]
          have : (do
              let h ← M.get
              if h.sup x ≠ none then pure ()
              else if (h.tseq t).vals.contains x then pure ()
              else do
                ivalShiftN shiftFuel x T
                tierAppend t x : M Unit) h = .ok () h := by
            mstep M.get_apply h
            by_cases q : h.sup x ≠ none
            · rw [if_pos q]; rfl
            · rw [if_neg q, if_pos (by simpa using hx x (by simp))]; rfl
          rw [this]
          exact ihx fun y hy => hx y (by simp [hy])
      rw [M.forL_cons]
      have : (do
          let h ← M.get
          M.forL (h.tseq t).vals (fun x => do
            let h ← M.get
            if h.sup x ≠ none then pure ()
            else if (h.tseq t).vals.contains x then pure ()
            else do
              ivalShiftN shiftFuel x T
              tierAppend t x) : M Unit) h = .ok () h := by
        mstep M.get_apply h
        exact inner _ fun _ hx => hx
      rw [this]
      exact ih fun q hq => hl q (by simp [hq])
  refine key _ ?_
  intro p hp
  obtain ⟨i, hi⟩ := List.mem_iff_getElem?.mp hp
  obtain ⟨h1, h2⟩ := List.getElem?_zip_eq_some.mp hi
  rw [h1] at h2
  injection h2

/-- C82: groups whose classes have different names, or a different number of tiers, are not joined; nor is a group with an
    empty tier. Nothing has changed then. -/
theorem C82_errors (h : Heap) (g g' : GRef) :
    ((h.gtiers g).map (fun t => h.ct.name (h.tcls t)) ≠ (h.gtiers g').map (fun t => h.ct.name (h.tcls t)) →
      groupConcat g g' h = .err .valueError h) ∧
    (∀ e, (h.gtiers g).map (fun t => h.ct.name (h.tcls t)) = (h.gtiers g').map (fun t => h.ct.name (h.tcls t)) →
      groupXmax h g = .error e → groupConcat g g' h = .err e h) := by
  constructor
  · intro hne
    unfold groupConcat
    mstep M.get_apply h
    rw [if_neg (by
      unfold classCheck
      intro q
      exact hne (by simpa using (Bool.and_eq_true_iff.mp q).2))]
    rfl
  · intro e heq hx
    unfold groupConcat
    mstep M.get_apply h
    rw [if_pos (by
      unfold classCheck
      have := congrArg List.length heq
      rw [heq]
      simpa using this), hx]
    rfl

/-- a group of words and phones -/
def exWordsPhones (a b : List (Time × Time × String)) : M GRef := do
  let t ← newTierFrom a cWord "Word"
  let u ← newTierFrom b cPhone "Phone"
  newGroup [t, u]

/-- the first of two groups to be joined -/
def exFirstGroup : M GRef := exWordsPhones [(0, 2, "w"), (2, 3, "v")] [(0, 1, "a"), (1, 2, "b"), (2, 3, "c")]

/-- C82 fails for groups of different textgrids: the classes have the same names, but are not the same. The entries
    of the second group have been moved when the error occurs. -/
theorem C82_clones_violated :
    let r := (do
      let g ← exFirstGroup
      let k ← exWordsPhones [(0, 2, "x")] [(0, 1, "y"), (1, 2, "z")]
      let _ ← newAtgOf [g]
      let _ ← newAtgOf [k]
      groupConcat g k) heap0
    r.out = .error .valueError ∧ (r.heap.tseq 0).vals = [0, 1] ∧ (r.heap.tseq 2).vals = [5] ∧
      r.heap.span 5 = (3, 5) ∧ r.heap.span 6 = (3, 4) ∧ r.heap.span 7 = (4, 5) := by decide +kernel

/-- C82 fails for negative times: the entries of the second group overlap those of the first. -/
theorem C82_negative_violated :
    let h := run0 (do
      let g ← exFirstGroup
      let k ← exWordsPhones [(-1, 2, "x")] [(-1, 1, "y"), (1, 2, "z")]
      groupConcat g k)
    (h.tseq 0).vals = [0, 1, 5] ∧ h.span 1 = (2, 3) ∧ h.span 5 = (2, 5) := by decide +kernel

/-- C82: the entries of the second group are not copied: they are in both groups afterwards, and moving the second group moves
    the end of the first. -/
theorem C82_shared_violated :
    let h := run0 (do
      let g ← exFirstGroup
      let k ← exWordsPhones [(0, 2, "x")] [(0, 1, "y"), (1, 2, "z")]
      groupConcat g k
      groupShift k 5)
    (h.tseq 0).vals = [0, 1, 5] ∧ (h.tseq 2).vals = [5] ∧ h.intier 5 = some 0 ∧ h.span 1 = (2, 3) ∧ h.span 5 = (8, 10) := by
  decide +kernel

end ATG
