import Verif.Lemmas.Points
import Verif.Lemmas.IvalCleanup
import Verif.Lemmas.GroupRun
import Verif.Props.Queries
import Verif.Model.Group
/-!
# C43, C45, C49, C53, C58: points, and positions in tiers
-/
namespace ATG

/-! ## C49 positions in a tier -/

theorem findIdx_nodup (l : List Ref) (hnd : l.Nodup) (i : Nat) (x : Ref) (hx : l[i]? = some x) :
    l.findIdx? (· == x) = some i := by
  rw [List.findIdx?_eq_some_iff_getElem]
  obtain ⟨hi, rfl⟩ := List.getElem?_eq_some_iff.mp hx
  refine ⟨hi, by simp, ?_⟩
  intro j hj
  simp only [beq_iff_eq]
  intro e
  have := (List.getElem_inj (hnd)).mp e
  omega

/-- C49: for the entry at position `i` of its tier `tier_index` is `i`, and `get_tierwise(k)` is the
    entry at position `i + k` as long as there is one. -/
theorem C49_position (h : Heap) (t : TRef) (i : Nat) (x : Ref) (hnd : (h.tseq t).vals.Nodup)
    (hin : h.intier x = some t) (hx : (h.tseq t).vals[i]? = some x) :
    tierIndex h x = .ok (some i) ∧
    ∀ (k : Int) (j : Nat) (y : Ref), (i : Int) + k = j → (h.tseq t).vals[j]? = some y →
      getTierwise h x k = .ok (some y) := by
  have hi : tierIndex h x = .ok (some i) := by
    simp only [tierIndex, hin, findIdx_nodup _ hnd i x hx]
  refine ⟨hi, ?_⟩
  intro k j y hk hy
  simp only [getTierwise, hin, hi, hk]
  simp [pyGet, hy]

/-- C49: beyond the end of the tier `get_tierwise` raises an `IndexError`, and so it does more than one
    tier length before its start. -/
theorem C49_out_of_range (h : Heap) (t : TRef) (i : Nat) (x : Ref) (hnd : (h.tseq t).vals.Nodup)
    (hin : h.intier x = some t) (hx : (h.tseq t).vals[i]? = some x) (k : Int)
    (hk : ((h.tseq t).vals.length : Int) ≤ i + k ∨ (i : Int) + k < - ((h.tseq t).vals.length : Int)) :
    getTierwise h x k = .error .indexError := by
  have hi : tierIndex h x = .ok (some i) := by
    simp only [tierIndex, hin, findIdx_nodup _ hnd i x hx]
  simp only [getTierwise, hin, hi]
  have : pyGet (h.tseq t).vals (i + k) = none := by
    unfold pyGet
    rcases hk with hk | hk
    · rw [if_pos (by omega), List.getElem?_eq_none_iff]; omega
    · rw [if_neg (by omega), if_neg (by omega)]
  rw [this]

/-- C49, a finding: going back past the start of the tier does not raise an `IndexError` (as the
    documentation of `get_tierwise` says) but continues from the end of the tier: the entry before the
    first is the last. -/
theorem C49_wraps (h : Heap) (t : TRef) (i : Nat) (x : Ref) (hnd : (h.tseq t).vals.Nodup)
    (hin : h.intier x = some t) (hx : (h.tseq t).vals[i]? = some x) (k : Int) (j : Nat) (y : Ref)
    (hk : (i : Int) + k < 0) (hj : (i : Int) + k + (h.tseq t).vals.length = j)
    (hy : (h.tseq t).vals[j]? = some y) :
    getTierwise h x k = .ok (some y) := by
  have hi : tierIndex h x = .ok (some i) := by
    simp only [tierIndex, hin, findIdx_nodup _ hnd i x hx]
  simp only [getTierwise, hin, hi]
  have : pyGet (h.tseq t).vals (i + k) = some y := by
    unfold pyGet
    rw [if_neg (by omega), if_pos (by omega), hj]; simpa using hy
  rw [this]

/-- C49: an entry in no tier has no index; one whose tier no longer lists it raises. -/
theorem C49_unlisted (h : Heap) (x : Ref) :
    (h.intier x = none → tierIndex h x = .ok none ∧ ∀ k, getTierwise h x k = .ok none) ∧
    (∀ t, h.intier x = some t → x ∉ (h.tseq t).vals →
      tierIndex h x = .error .valueError ∧ ∀ k, getTierwise h x k = .error .valueError) := by
  constructor
  · intro e; simp [tierIndex, getTierwise, e]
  · intro t e hx
    have : (h.tseq t).vals.findIdx? (· == x) = none := by
      rw [List.findIdx?_eq_none_iff]; intro y hy; simp; rintro rfl; exact hx hy
    simp [tierIndex, getTierwise, e, this]

/-- C49: every entry of a freshly built tier of intervals finds itself, and the entry `k` further. -/
theorem C49_built (t : TRef) (entries : List Ref) (c s : CRef) (name : String) (h : Heap)
    (hcont : h.tcont t = .unset) (hci : h.ct.isSub c cPoint = false) (hs : h.ct.sup c = some s)
    (hp : ∀ x ∈ entries, h.isPoint x = false) (hnd : entries.Nodup)
    (hl : ∀ x ∈ entries, h.label x ≠ "#") :
    ∃ h', tierInit t entries c name h = .ok () h' ∧ ((h'.tseq t).vals).Perm entries ∧
      ∀ (i : Nat) (x : Ref), (h'.tseq t).vals[i]? = some x →
        tierIndex h' x = .ok (some i) ∧
        ∀ (k : Int) (j : Nat) (y : Ref), (i : Int) + k = j → (h'.tseq t).vals[j]? = some y →
          getTierwise h' x k = .ok (some y) := by
  refine ⟨_, tierInit_ok t entries c s name h hcont hci hs hp hnd hl, ?_, ?_⟩
  · simp only [tierBuilt, upd_same]; exact slSort_perm h entries
  · intro i x hx
    refine C49_position _ t i x ?_ ?_ hx
    · simp only [tierBuilt, upd_same]; exact (slSort_perm h entries).nodup_iff.mpr hnd
    · simp only [tierBuilt, upd_same] at hx ⊢
      rw [if_pos (List.mem_of_getElem? hx)]

/-- three words on a tier -/
def exThreeWords : Heap := run0 (newTierFrom [(0, 1, "a"), (1, 2, "b"), (2, 3, "c")] cWord "Word")
example : tierIndex exThreeWords 1 = .ok (some 1) ∧ getTierwise exThreeWords 1 1 = .ok (some 2) ∧
    getTierwise exThreeWords 1 (-1) = .ok (some 0) ∧ getTierwise exThreeWords 1 2 = .error .indexError ∧
    getTierwise exThreeWords 1 (-2) = .ok (some 2) := by decide +kernel
example : (exThreeWords.tseq 0).vals = [0, 1, 2] ∧ exThreeWords.intier 1 = some 0 := by decide +kernel

/-! ## C45 building a point tier -/

/-- C45: a point tier built from points lists them in time order, linked to each other and to the tier;
    it lists exactly the given points unless two of them have the same time and label (of those it
    keeps one), and changes no time or label. -/
theorem C45_construct (entries : List Ref) (c : CRef) (name : String) (h : Heap)
    (hci : h.ct.isSub c cPoint = true) (hp : ∀ x ∈ entries, h.isPoint x = true)
    (hl : ∀ x ∈ entries, h.label x ≠ "#") :
    ∃ h' t, newPointTier entries c name h = .ok t h' ∧
      SortedByStart h (h'.tseq t).vals ∧ DoublyLinked h' (h'.tseq t).vals ∧
      ((h'.tseq t).vals.Pairwise fun x y => ¬ SameValue h x y) ∧
      (∀ x ∈ (h'.tseq t).vals, x ∈ entries ∧ h'.intier x = some t ∧ h'.cls x = c) ∧
      (∀ x ∈ entries, Listed h (h'.tseq t).vals x) ∧
      ((entries.Pairwise fun x y => ¬ SameValue h x y) → ((h'.tseq t).vals).Perm entries) ∧
      h'.start = h.start ∧ h'.stop = h.stop ∧ h'.label = h.label := by
  have hmem : ∀ x, x ∈ sortBy h.start entries ↔ x ∈ entries := fun x => (sortBy_perm _ _).mem_iff
  obtain ⟨s1, s2, s3, s4, s5⟩ := pointVals_spec h (sortBy h.start entries) []
    (sortBy_sorted _ _) (by simp [SortedByStart]) (by simp) (by simp)
  have hsub : ∀ y ∈ pointVals h (sortBy h.start entries) [], y ∈ entries := fun y hy =>
    (hmem y).mp ((s3 y hy).resolve_left (by simp))
  have e := pointTierInit_ok h.nT entries c name { h with
    nT := h.nT + 1
    tseq := upd h.tseq h.nT SL.empty
    tcont := upd h.tcont h.nT .unset
    twithin := upd h.twithin h.nT none } (by simp) hci hp hl
  have hrun := M.bind_ok (f := fun t => (do pointTierInit t entries c name; pure t : M TRef))
    (show newTierObj h = .ok h.nT _ from rfl)
  refine ⟨_, h.nT, hrun.trans (M.bind_ok e), ?_⟩
  have hv : pointVals { h with
        nT := h.nT + 1
        tseq := upd h.tseq h.nT SL.empty
        tcont := upd h.tcont h.nT .unset
        twithin := upd h.twithin h.nT none } (sortBy h.start entries) [] =
      pointVals h (sortBy h.start entries) [] := rfl
  simp only [pointTierBuilt, upd_same, hv]
  generalize pointVals h (sortBy h.start entries) [] = L at *
  refine ⟨s1, linked_of _ L (nodup_of_distinct h L s2) _ _ rfl rfl, s2, ?_, ?_, ?_, by simp⟩
  · intro x hx; simp [hx, hsub x hx]
  · intro x hx; exact s5 x ((hmem x).mpr hx)
  · intro hd
    rw [List.perm_ext_iff_of_nodup (nodup_of_distinct h L s2) (nodup_of_distinct h entries hd)]
    intro x
    refine ⟨hsub x, fun hx => ?_⟩
    rcases s5 x ((hmem x).mpr hx) with hm | ⟨y, hy, s⟩
    · exact hm
    · by_cases exy : y = x
      · exact exy ▸ hy
      · have hd' : ∀ a ∈ entries, ∀ b ∈ entries, a ≠ b → ¬ SameValue h a b := by
          intro a ha b hb hab
          rcases pairwise_trich hd ha hb with hr | hr | hr
          · exact absurd hr hab
          · exact hr
          · exact fun s => hr s.symm
        exact absurd s (hd' y (hsub y hy) x hx exy)

/-- C45: an interval among the points is an `AttributeError`. -/
theorem C45_interval (entries : List Ref) (c : CRef) (name : String) (h : Heap) (x : Ref)
    (hx : x ∈ entries) (hp : h.isPoint x = false) :
    (newPointTier entries c name h).out = .error .attributeError := by
  have e : entries.all h.isPoint = false := by
    rw [List.all_eq_false]; exact ⟨x, hx, by simp [hp]⟩
  have hm : ∀ (t : TRef) (h' : Heap), h'.cls = h.cls → h'.ct = h.ct →
      ∃ h'', pointTierInit t entries c name h' = .err .attributeError h'' := by
    intro t h' e1 e2
    have e3 : (fun y => h'.ct.isSub (h'.cls y) cPoint) = fun y => h.isPoint y := by
      funext y; rw [e1, e2]; rfl
    unfold pointTierInit
    refine ⟨{ h' with tcls := upd h'.tcls t c, tname := upd h'.tname t name },
      Eq.trans (M.bind_ok (M.modify_apply _ h')) (Eq.trans (M.bind_ok (M.get_apply _)) ?_)⟩
    rw [if_neg (by
      show ¬ entries.all (fun y => h'.ct.isSub (h'.cls y) cPoint) = true
      rw [e3]; simp [e])]
    rfl
  obtain ⟨h'', e'⟩ := hm h.nT { h with
    nT := h.nT + 1
    tseq := upd h.tseq h.nT SL.empty
    tcont := upd h.tcont h.nT .unset
    twithin := upd h.twithin h.nT none } rfl rfl
  unfold newPointTier
  rw [M.bind_ok (show newTierObj h = .ok h.nT _ from rfl), M.bind_err e']
  rfl

/-- points given out of order, one at time zero and two at the same time -/
def exThreePoints : Heap := run0 (do
  let a ← newEntry cPoint 2 2 "a"
  let b ← newEntry cPoint 0 0 "b"
  let c ← newEntry cPoint 1 1 "c"
  let d ← newEntry cPoint 1 1 "d"
  let _ ← newPointTier [a, b, c, d] cPoint "pts"
  pure ())
example : (exThreePoints.tseq 0).vals = [1, 2, 3, 0] ∧ exThreePoints.fol 2 = some (.obj 3) ∧
    exThreePoints.prev 1 = some .bumper := by decide +kernel

/-! ## C43 distances -/

/-- C43 (what holds): between neighbours of a sorted and linked tier `fol_distance` is the difference of
    the times and not negative, and `prev_distance` its opposite — provided the neighbour is not at time
    zero; at the two ends there is no distance.

    Missing for the full statement: neighbours at time zero, for which it is false
    (`C43_zero_violated`). -/
theorem C43_distance_partial (h : Heap) (l : List Ref) (hs : SortedByStart h l) (hl : DoublyLinked h l) :
    (∀ (i : Nat) (x y : Ref), l[i]? = some x → l[i + 1]? = some y →
      (h.start y ≠ 0 → folDistance h x = some (h.start y - h.start x) ∧ 0 ≤ h.start y - h.start x) ∧
      (h.start x ≠ 0 → prevDistance h y = some (h.start x - h.start y) ∧ h.start x - h.start y ≤ 0)) ∧
    (∀ x, l.head? = some x → prevDistance h x = none) ∧
    (∀ x, l.getLast? = some x → folDistance h x = none) := by
  refine ⟨?_, ?_, ?_⟩
  · intro i x y hx hy
    obtain ⟨h1, h2⟩ := hl.next i x y hx hy
    have hle : h.start x ≤ h.start y := by
      obtain ⟨hi, rfl⟩ := List.getElem?_eq_some_iff.mp hx
      obtain ⟨hj, rfl⟩ := List.getElem?_eq_some_iff.mp hy
      exact List.pairwise_iff_getElem.mp hs i (i + 1) hi hj (by omega)
    constructor
    · intro h0
      simp only [folDistance, h1, linkDistance, if_neg h0]
      exact ⟨trivial, by grind⟩
    · intro h0
      simp only [prevDistance, h2, linkDistance, if_neg h0]
      exact ⟨trivial, by grind⟩
  · intro x hx; simp [prevDistance, hl.first x hx, linkDistance]
  · intro x hx; simp [folDistance, hl.last x hx, linkDistance]

/-- C43 fails for every neighbour at time zero: the distance is `None` although both points exist. -/
theorem C43_zero_violated (h : Heap) (l : List Ref) (hl : DoublyLinked h l) (i : Nat) (x y : Ref)
    (hx : l[i]? = some x) (hy : l[i + 1]? = some y) :
    (h.start x = 0 → prevDistance h y = none) ∧ (h.start y = 0 → folDistance h x = none) := by
  obtain ⟨h1, h2⟩ := hl.next i x y hx hy
  constructor <;> intro h0
  · simp [prevDistance, h2, linkDistance, h0]
  · simp [folDistance, h1, linkDistance, h0]

/-- C43: on a tier just built from points. -/
theorem C43_built (entries : List Ref) (c : CRef) (name : String) (h : Heap)
    (hci : h.ct.isSub c cPoint = true) (hp : ∀ x ∈ entries, h.isPoint x = true)
    (hl : ∀ x ∈ entries, h.label x ≠ "#") :
    ∃ h' t, newPointTier entries c name h = .ok t h' ∧
      ∀ (i : Nat) (x y : Ref), (h'.tseq t).vals[i]? = some x → (h'.tseq t).vals[i + 1]? = some y →
      (h'.start y ≠ 0 → folDistance h' x = some (h'.start y - h'.start x) ∧ 0 ≤ h'.start y - h'.start x) ∧
      (h'.start x ≠ 0 → prevDistance h' y = some (h'.start x - h'.start y) ∧
        h'.start x - h'.start y ≤ 0) := by
  obtain ⟨h', t, hr, hs, hd, -, -, -, -, e, -, -⟩ := C45_construct entries c name h hci hp hl
  refine ⟨h', t, hr, (C43_distance_partial h' _ ?_ hd).1⟩
  unfold SortedByStart at hs ⊢
  rw [e]; exact hs

/-- the point at time 1 follows one at time 0: no `prev_distance`; its `fol_distance` is 1 -/
example : prevDistance exThreePoints 2 = none ∧ folDistance exThreePoints 1 = some 1 ∧
    folDistance exThreePoints 3 = some 1 ∧ prevDistance exThreePoints 0 = some (-1) := by decide +kernel

/-- C43: `distance_from` measures this point's time minus the other's; for an interval, minus its start
    and its end, and the point is inside exactly when the first is not negative and the second is
    negative. -/
theorem C43_distance_from (h : Heap) (x y : Ref) :
    (h.isPoint y = true → ∃ d, distanceFrom h x y = [d] ∧ h.start x = h.start y + d) ∧
    (h.isPoint y = false → ∃ a b, distanceFrom h x y = [a, b] ∧ h.start x = h.start y + a ∧
      h.start x = h.stop y + b ∧ (h.start y ≤ h.start x ∧ h.start x < h.stop y ↔ 0 ≤ a ∧ b < 0)) := by
  constructor
  · intro e; refine ⟨h.start x - h.start y, by simp [distanceFrom, e], by grind⟩
  · intro e
    refine ⟨h.start x - h.start y, h.start x - h.stop y, by simp [distanceFrom, e], by grind, by grind,
      by grind⟩

/-! ## C58 the interval at a point -/

/-- C58: on a tier of intervals without overlaps `get_interval_at_point` returns the interval that
    contains the point's time; when no interval contains it a non-empty tier raises a `TypeError`, and
    an empty one gives `None`. -/
theorem C58_interval_at_point (h : Heap) (x : Ref) (t : TRef)
    (hno : (h.tseq t).vals.Pairwise fun x y => ¬ Overlap (h.start x, h.stop x) (h.start y, h.stop y)) :
    (∀ y, y ∈ (h.tseq t).vals → h.start y ≤ h.start x → h.start x < h.stop y →
      intervalAtPoint h x t = .ok (some y)) ∧
    (∀ y, intervalAtPoint h x t = .ok (some y) →
      y ∈ (h.tseq t).vals ∧ h.start y ≤ h.start x ∧ h.start x < h.stop y) ∧
    ((h.tseq t).vals ≠ [] → (∀ y ∈ (h.tseq t).vals, ¬ (h.start y ≤ h.start x ∧ h.start x < h.stop y)) →
      intervalAtPoint h x t = .error .typeError) ∧
    (intervalAtPoint h x t = .ok none ↔ (h.tseq t).vals = []) := by
  obtain ⟨k1, k2⟩ := C19_interval_at h t (h.start x) hno
  by_cases hv : (h.tseq t).vals = []
  · simp [hv, intervalAtPoint]
  · have hlen : ¬ (h.tseq t).vals.length = 0 := by simp [hv]
    simp only [intervalAtPoint, if_neg hlen, hv, iff_false]
    refine ⟨?_, ?_, ?_, ?_⟩
    · intro y hy h1 h2
      obtain ⟨i, hi⟩ := List.mem_iff_getElem?.mp hy
      rw [(k1 i).mpr ⟨y, hi, h1, h2⟩]
      simp [hi]
    · intro y hy
      cases e : tierAt h t (h.start x) with
      | error e' => simp [e] at hy
      | ok o =>
        cases o with
        | none => simp [e] at hy
        | some i =>
          obtain ⟨z, hz, h1, h2⟩ := (k1 i).mp e
          simp only [e, hz, Except.ok.injEq, Option.some.injEq] at hy
          subst hy
          exact ⟨List.mem_of_getElem? hz, h1, h2⟩
    · intro _ hn; rw [k2.mpr hn]
    · cases e : tierAt h t (h.start x) with
      | error e' => simp
      | ok o =>
        cases o with
        | none => simp
        | some i =>
          obtain ⟨z, hz, -⟩ := (k1 i).mp e
          simp [hz]

/-- a point and a tier of two words -/
def exAt (time : Time) : Heap := run0 (do
  let _ ← newEntry cPoint time time "p"
  let _ ← newTierFrom [(0, 1, "a"), (1, 2, "b")] cWord "Word"
  pure ())
example : intervalAtPoint (exAt 1) 0 0 = .ok (some 2) ∧ intervalAtPoint (exAt 2) 0 0 = .error .typeError := by
  decide +kernel

/-! ## C53 appending a point -/

/-- a point tier of class `c` with at least one point, alone or in a group of point tiers -/
structure PointTier (h : Heap) (t : TRef) (c : CRef) : Prop where
  point : h.ct.isSub c cPoint = true
  tcls : h.tcls t = c
  ecls : (h.tseq t).ecls = some c
  cls : ∀ x ∈ (h.tseq t).vals, h.cls x = c
  nonempty : (h.tseq t).vals ≠ []
  group : ∀ g, h.twithin t = some g → h.gpoint g = true

/-- the heap after a point was appended to a tier of class `c`, before the group is set up again -/
def pointAppended (h : Heap) (t : TRef) (c : CRef) (p : Ref) : Heap :=
  { castAll h ((h.tseq t).vals ++ [p]) c with
    tcont := upd h.tcont t (match h.tcont t with
      | .alias => .detached (h.tseq t).vals
      | k => k)
    tseq := upd h.tseq t ⟨slSort h ((h.tseq t).vals ++ [p]), some c⟩ }

theorem pointAppend_ok (n : Nat) (h : Heap) (t : TRef) (c : CRef) (p : Ref) (pt : PointTier h t c)
    (hpp : h.isPoint p = true) (hrel : h.ct.isSub c (h.cls p) = true ∨ h.ct.isSub (h.cls p) c = true)
    (hnew : ¬ Listed h (h.tseq t).vals p) (hsub : (h.subs p).vals = []) (hsup : h.sup p = none) :
    tierAppendN (n + 1) t p h = .ok () (pointAppended h t c p) := by
  have hnp : (h.tseq t).vals.contains p = false := by
    have : p ∉ (h.tseq t).vals := fun e => hnew (Or.inl e)
    simpa using this
  have hnw : newOf h (h.tseq t).vals [p] = [p] := by
    simp [newOf, (slContains_false_iff _ _ _).mpr hnew]
  have hadd := slAdd_ok (putSeq t) (h.tseq t) [p] h c (h.cls p) (by simp [hnw]) pt.ecls
    (by simp [hnw]) (by rcases hrel with e | e <;> simp [e]) (by
      intro x hx
      rw [hnw] at hx
      rw [pt.point]
      rcases List.mem_append.mp hx with hx | hx
      · simp [Heap.isPoint, pt.cls x hx, pt.point]
      · simp only [List.mem_singleton] at hx; rw [hx, hpp])
  rw [hnw] at hadd
  rw [tierAppendN]
  mstep M.get_apply h
  rw [if_pos (by rw [pt.tcls]; rcases hrel with e | e <;> simp [e]), if_neg (by rw [hnp]; simp)]
  mstep hadd
  mstep (show tierSetSeq t _ _ = .ok () (pointAppended h t c p) by
    unfold tierSetSeq
    mstep M.get_apply _
    rw [if_pos (by simp [Heap.isPointTier, castAll, pt.tcls, pt.point])]
    rfl)
  mstep M.get_apply _
  have e1 : ((pointAppended h t c p).subs p).vals = [] := hsub
  have e2 : (pointAppended h t c p).sup p = none := hsup
  rw [if_neg (by rw [e1]; simp)]
  mstep M.pure_apply () _
  mstep M.get_apply _
  simp only [e2]
  rfl

/-- C53 (what holds): appending a new point of the tier's class (or a related one) puts it in its place
    in time order.  Nothing else happens to links: `fol`, `prev` and `intier` of every point, the new one
    included, are what they were before.

    Missing for the full statement: the links, which are never set (`C53_unlinked_violated`). -/
theorem C53_order_partial (h : Heap) (t : TRef) (c : CRef) (p : Ref) (pt : PointTier h t c)
    (hpp : h.isPoint p = true) (hrel : h.ct.isSub c (h.cls p) = true ∨ h.ct.isSub (h.cls p) c = true)
    (hnew : ¬ Listed h (h.tseq t).vals p) (hsub : (h.subs p).vals = []) (hsup : h.sup p = none) :
    ∃ h', tierAppend t p h = .ok () h' ∧
      SortedByStart h' (h'.tseq t).vals ∧ ((h'.tseq t).vals).Perm (p :: (h.tseq t).vals) ∧
      h'.start = h.start ∧ h'.fol = h.fol ∧ h'.prev = h.prev ∧ h'.intier = h.intier := by
  have hnp : (h.tseq t).vals.contains p = false := by
    have : p ∉ (h.tseq t).vals := fun e => hnew (Or.inl e)
    simpa using this
  have hs : SortedByStart h (slSort h ((h.tseq t).vals ++ [p])) := slSort_sorted h _
  have hp : (slSort h ((h.tseq t).vals ++ [p])).Perm (p :: (h.tseq t).vals) :=
    (slSort_perm h _).trans (List.perm_append_singleton p _)
  have hrun := pointAppend_ok 999 h t c p pt hpp hrel hnew hsub hsup
  cases hw : withinTruthy (pointAppended h t c p) t with
  | none =>
    refine ⟨pointAppended h t c p, ?_, ?_, ?_, rfl, rfl, rfl, rfl⟩
    · unfold tierAppend
      mstep M.get_apply h
      mstep (show tierAppendNR t p h = _ from hrun)
      rw [if_neg (by rw [hnp]; simp)]
      mstep M.get_apply _
      simp only [hw]
      rfl
    · simp only [pointAppended, upd_same]; exact hs
    · simp only [pointAppended, upd_same]; exact hp
  | some g =>
    have hg : h.gpoint g = true := by
      apply pt.group g
      unfold withinTruthy at hw
      have e : (pointAppended h t c p).twithin t = h.twithin t := rfl
      rw [e] at hw
      cases e2 : h.twithin t with
      | none => simp [e2] at hw
      | some g' => simp only [e2] at hw; split at hw <;> simp_all
    refine ⟨contained { pointAppended h t c p with
        gtiers := upd h.gtiers g (h.gtiers g) } g (h.gtiers g), ?_, ?_, ?_, rfl, rfl, rfl, rfl⟩
    · unfold tierAppend
      mstep M.get_apply h
      mstep (show tierAppendNR t p h = _ from hrun)
      rw [if_neg (by rw [hnp]; simp)]
      mstep M.get_apply _
      simp only [hw]
      unfold reRelate
      mstep M.get_apply _
      rw [if_pos (show (pointAppended h t c p).gpoint g = true from hg)]
      unfold pointsGroupInit
      mstep M.modify_apply _ _
      rw [setContainsGroup_ok]
      rfl
    · simp only [contained, pointAppended, upd_same]; exact hs
    · simp only [contained, pointAppended, upd_same]; exact hp

/-- C53 fails for every new point (its neighbours are boundaries) appended to a non-empty point tier:
    afterwards the tier is not linked, and the point does not know its tier. -/
theorem C53_unlinked_violated (h : Heap) (t : TRef) (c : CRef) (p : Ref) (pt : PointTier h t c)
    (hpp : h.isPoint p = true) (hrel : h.ct.isSub c (h.cls p) = true ∨ h.ct.isSub (h.cls p) c = true)
    (hnew : ¬ Listed h (h.tseq t).vals p) (hsub : (h.subs p).vals = []) (hsup : h.sup p = none)
    (hf : h.fol p = some .bumper) (hpr : h.prev p = some .bumper) (hi : h.intier p = none) :
    ∃ h', tierAppend t p h = .ok () h' ∧ p ∈ (h'.tseq t).vals ∧ ¬ DoublyLinked h' (h'.tseq t).vals ∧
      tierIndex h' p = .ok none := by
  obtain ⟨h', hr, -, hp, -, e1, e2, e3⟩ := C53_order_partial h t c p pt hpp hrel hnew hsub hsup
  have hpm : p ∈ (h'.tseq t).vals := hp.mem_iff.mpr (by simp)
  refine ⟨h', hr, hpm, ?_, by simp [tierIndex, e3, hi]⟩
  intro hd
  have hlen := hp.length_eq
  have hpos : 0 < (h.tseq t).vals.length := List.length_pos_iff.mpr pt.nonempty
  obtain ⟨i, hil, hip⟩ := List.mem_iff_getElem.mp hpm
  have hx : (h'.tseq t).vals[i]? = some p := by rw [List.getElem?_eq_some_iff]; exact ⟨hil, hip⟩
  simp only [List.length_cons] at hlen
  by_cases hlast : i + 1 < (h'.tseq t).vals.length
  · have := (hd.next i p _ hx (List.getElem?_eq_getElem hlast)).1
    rw [e1, hf] at this; simp at this
  · obtain ⟨j, rfl⟩ : ∃ j, i = j + 1 := ⟨i - 1, by omega⟩
    have := (hd.next j _ p (List.getElem?_eq_getElem (by omega)) hx).2
    rw [e2, hpr] at this; simp at this

/-- one more point for the tier of `exThreePoints` -/
def exPointNew : Heap := (newEntry cPoint (1/2) (1/2) "e" exThreePoints).heap
example : (((tierAppend 0 4) exPointNew).heap.tseq 0).vals = [1, 4, 2, 3, 0] ∧
    ((tierAppend 0 4) exPointNew).heap.fol 1 = some (.obj 2) := by decide +kernel
example : PointTier exPointNew 0 cPoint where
  point := by decide +kernel
  tcls := by decide +kernel
  ecls := by decide +kernel
  cls := by decide +kernel
  nonempty := by decide +kernel
  group := by
    have : exPointNew.twithin 0 = none := by decide +kernel
    simp [this]
example : exPointNew.isPoint 4 = true ∧ exPointNew.cls 4 = cPoint ∧
    ¬ Listed exPointNew (exPointNew.tseq 0).vals 4 ∧ exPointNew.fol 4 = some .bumper ∧
    exPointNew.prev 4 = some .bumper ∧ exPointNew.intier 4 = none := by decide +kernel

end ATG
