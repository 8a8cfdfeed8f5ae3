import Verif.Model.Polar
import Verif.Props.Points
import Verif.Props.Polar
/-!
# C76: levels, ranges and bands
-/
namespace ATG

/-- `x` lies in the interval `y` -/
def OnRange (h : Heap) (x y : Ref) : Prop := h.start y ≤ h.start x ∧ h.start x < h.stop y

instance (h : Heap) (x y : Ref) : Decidable (OnRange h x y) := by unfold OnRange; infer_instance

theorem ranges_fold (h : Heap) (tr : TRef) (hne : (h.tseq tr).vals ≠ [])
    (hno : (h.tseq tr).vals.Pairwise fun x y => ¬ Overlap (h.start x, h.stop x) (h.start y, h.stop y)) :
    ∀ (l : List Ref) (link : Ref → Option Ref), (∀ x ∈ l, ∃ y ∈ (h.tseq tr).vals, OnRange h x y) →
    ∃ link', l.foldlM (setRange h tr) link = .ok link' ∧
      (∀ x ∈ l, ∀ y, link' x = some y ↔ y ∈ (h.tseq tr).vals ∧ OnRange h x y) ∧ ∀ x, x ∉ l → link' x = link x := by
  intro l
  induction l with
  | nil => intro link _; exact ⟨link, rfl, by simp, by simp⟩
  | cons x l ih =>
    intro link hat
    obtain ⟨y, hy, hxy⟩ := hat x (by simp)
    obtain ⟨c1, c2, -, -⟩ := C58_interval_at_point h x tr hno
    have e := c1 y hy hxy.1 hxy.2
    obtain ⟨link', e', a, b⟩ := ih (upd link x (some y)) fun z hz => hat z (by simp [hz])
    refine ⟨link', ?_, ?_, ?_⟩
    · rw [List.foldlM_cons]
      have : setRange h tr link x = .ok (upd link x (some y)) := by
        unfold setRange
        rw [if_pos (List.length_pos_iff.mpr hne), e]
      rw [this]
      exact e'
    · intro z hz w
      by_cases hzl : z ∈ l
      · exact a z hzl w
      · have : z = x := by simpa [hzl] using hz
        subst this
        rw [b z hzl, upd_same]
        constructor
        · rintro ⟨⟩; exact ⟨hy, hxy⟩
        · rintro ⟨hw, hzw⟩
          rw [← e.symm.trans (c1 w hw hzw.1 hzw.2) |> Except.ok.inj]
    · intro z hz
      rw [List.mem_cons, not_or] at hz
      rw [b z hz.2, upd_ne _ _ _ _ hz.1]

/-- C76: if the ranges do not overlap and every level lies in one of them, relating levels and ranges gives each level
    exactly the range its time lies in, and nothing to other entries. -/
theorem C76_ranges (h : Heap) (tl tr : TRef)
    (hno : (h.tseq tr).vals.Pairwise fun x y => ¬ Overlap (h.start x, h.stop x) (h.start y, h.stop y))
    (hat : ∀ x ∈ (h.tseq tl).vals, ∃ y ∈ (h.tseq tr).vals, OnRange h x y) :
    ∃ link, relateRanges h tl tr = .ok link ∧
      (∀ x ∈ (h.tseq tl).vals, ∀ y, link x = some y ↔ y ∈ (h.tseq tr).vals ∧ OnRange h x y) ∧
      ∀ x, x ∉ (h.tseq tl).vals → link x = none := by
  unfold relateRanges
  by_cases hl : (h.tseq tl).vals = []
  · rw [if_neg (by simp [hl])]
    exact ⟨_, rfl, by simp [hl], by simp⟩
  · obtain ⟨x, hx⟩ := List.exists_mem_of_ne_nil _ hl
    obtain ⟨y, hy, -⟩ := hat x hx
    have hr : (h.tseq tr).vals ≠ [] := List.ne_nil_of_mem hy
    rw [if_pos (by
      simp only [Bool.and_eq_true, decide_eq_true_eq]
      exact ⟨List.length_pos_iff.mpr hl, List.length_pos_iff.mpr hr⟩)]
    obtain ⟨link, e, a, b⟩ := ranges_fold h tr hr hno (h.tseq tl).vals (fun _ => none) hat
    exact ⟨link, e, a, b⟩

/-- C76: a single level outside all ranges makes the whole import raise a `TypeError`, however the other levels lie
    (all levels before it being in ranges). -/
theorem C76_outside (h : Heap) (tl tr : TRef) (pre post : List Ref) (x : Ref) (hl : (h.tseq tl).vals = pre ++ x :: post)
    (hne : (h.tseq tr).vals ≠ [])
    (hno : (h.tseq tr).vals.Pairwise fun x y => ¬ Overlap (h.start x, h.stop x) (h.start y, h.stop y))
    (hat : ∀ x ∈ pre, ∃ y ∈ (h.tseq tr).vals, OnRange h x y) (hx : ∀ y ∈ (h.tseq tr).vals, ¬ OnRange h x y) :
    relateRanges h tl tr = .error .typeError := by
  unfold relateRanges
  rw [if_pos (by
    simp only [Bool.and_eq_true, decide_eq_true_eq]
    exact ⟨by rw [hl, List.length_append, List.length_cons]; omega, List.length_pos_iff.mpr hne⟩), hl, List.foldlM_append]
  obtain ⟨link, e, -, -⟩ := ranges_fold h tr hne hno pre (fun _ => none) hat
  obtain ⟨-, -, c3, -⟩ := C58_interval_at_point h x tr hno
  rw [e]
  show List.foldlM (setRange h tr) link (x :: post) = _
  rw [List.foldlM_cons]
  have : setRange h tr link x = .error .typeError := by
    unfold setRange
    rw [if_pos (List.length_pos_iff.mpr hne), c3 hne hx]
  rw [this]
  rfl

/-! ## Bands -/

/-- the `k`-th of the five bands of a range -/
def bandLow (lo hi : Time) (k : Nat) : Time := lo + (hi - lo) * (k - 1) / 5
def bandHigh (lo hi : Time) (k : Nat) : Time := lo + (hi - lo) * k / 5

/-- C76: a level from `1` to `5` in a range `lo-hi` has the band of that number: the fifth of the range from
    `lo + (k - 1) / 5 (hi - lo)` to `lo + k / 5 (hi - lo)`. -/
theorem C76_band (float : List Char → Option Time) (int : List Char → Option Int) (range label : List Char)
    (lo hi : Time) (k : Nat) (hr : rangeNums float range = [some lo, some hi])
    (hk : int (label.filter (· ≠ '?')) = some (k : Int)) (h1 : 1 ≤ k) (h5 : k ≤ 5) :
    bandOf float int (some range) label = .ok [some (bandLow lo hi k), some (bandHigh lo hi k)] := by
  unfold bandOf levelOf
  simp only [hr, bandPoints, hk]
  unfold linspace6 bandLow bandHigh
  have hs : sliceInt ((List.map (fun (i : Nat) => lo + (hi - lo) * i / 5) (List.range 6)).map some) ((k : Int) - 1) (k + 1) =
      [some (lo + (hi - lo) * ((k - 1 : Nat) : Time) / 5), some (lo + (hi - lo) * ((k : Nat) : Time) / 5)] := by
    obtain rfl | rfl | rfl | rfl | rfl : k = 1 ∨ k = 2 ∨ k = 3 ∨ k = 4 ∨ k = 5 := by omega
    all_goals rfl
  rw [hs]
  have : ((k - 1 : Nat) : Time) = (k : Time) - 1 := by
    obtain ⟨j, rfl⟩ : ∃ j, k = j + 1 := ⟨k - 1, by omega⟩
    rw [Nat.add_sub_cancel]
    grind
  rw [this]

/-- C76: in a range from `lo` to `hi` every value from `lo` on and below `hi` lies in exactly one of the five bands. -/
theorem C76_bands_tile (lo hi v : Time) (h1 : lo ≤ v) (h2 : v < hi) :
    ∃ k, (1 ≤ k ∧ k ≤ 5 ∧ bandLow lo hi k ≤ v ∧ v < bandHigh lo hi k) ∧
      ∀ j, 1 ≤ j → j ≤ 5 → bandLow lo hi j ≤ v → v < bandHigh lo hi j → j = k := by
  have hcase : v < bandHigh lo hi 1 ∨ (bandHigh lo hi 1 ≤ v ∧ v < bandHigh lo hi 2) ∨
      (bandHigh lo hi 2 ≤ v ∧ v < bandHigh lo hi 3) ∨ (bandHigh lo hi 3 ≤ v ∧ v < bandHigh lo hi 4) ∨
      bandHigh lo hi 4 ≤ v := by grind
  unfold bandLow bandHigh at *
  rcases hcase with c | c | c | c | c
  · refine ⟨1, ⟨by omega, by omega, by grind, by grind⟩, ?_⟩
    intro j j1 j5 c1 c2
    obtain rfl | rfl | rfl | rfl | rfl : j = 1 ∨ j = 2 ∨ j = 3 ∨ j = 4 ∨ j = 5 := by omega
    all_goals grind
  · refine ⟨2, ⟨by omega, by omega, by grind, by grind⟩, ?_⟩
    intro j j1 j5 c1 c2
    obtain rfl | rfl | rfl | rfl | rfl : j = 1 ∨ j = 2 ∨ j = 3 ∨ j = 4 ∨ j = 5 := by omega
    all_goals grind
  · refine ⟨3, ⟨by omega, by omega, by grind, by grind⟩, ?_⟩
    intro j j1 j5 c1 c2
    obtain rfl | rfl | rfl | rfl | rfl : j = 1 ∨ j = 2 ∨ j = 3 ∨ j = 4 ∨ j = 5 := by omega
    all_goals grind
  · refine ⟨4, ⟨by omega, by omega, by grind, by grind⟩, ?_⟩
    intro j j1 j5 c1 c2
    obtain rfl | rfl | rfl | rfl | rfl : j = 1 ∨ j = 2 ∨ j = 3 ∨ j = 4 ∨ j = 5 := by omega
    all_goals grind
  · refine ⟨5, ⟨by omega, by omega, by grind, by grind⟩, ?_⟩
    intro j j1 j5 c1 c2
    obtain rfl | rfl | rfl | rfl | rfl : j = 1 ∨ j = 2 ∨ j = 3 ∨ j = 4 ∨ j = 5 := by omega
    all_goals grind

/-! ## Examples -/

/-- three levels and two ranges -/
def exLevels (t : Time) : Heap := run0 (do
  let a ← newEntry cPoint 1 1 "3"
  let b ← newEntry cPoint 2 2 "1?"
  let c ← newEntry cPoint t t "5"
  let _ ← newPointTier [a, b, c] cPoint "Levels"
  let _ ← newTierFrom [(0, 2, "50-200"), (2, 4, "100-300")] cWord "Ranges"
  pure ())

-- the hypotheses of C76 are met, with a level on a boundary
example : (((exLevels 3).tseq 1).vals.Pairwise fun x y =>
      ¬ Overlap ((exLevels 3).start x, (exLevels 3).stop x) ((exLevels 3).start y, (exLevels 3).stop y)) ∧
    (∀ x ∈ ((exLevels 3).tseq 0).vals, ∃ y ∈ ((exLevels 3).tseq 1).vals, OnRange (exLevels 3) x y) ∧
    ((exLevels 3).tseq 0).vals = [0, 1, 2] ∧
    (match relateRanges (exLevels 3) 0 1 with | .ok l => [0, 1, 2].map l | .error _ => []) = [some 3, some 4, some 4] := by
  decide +kernel

/-- C76 fails for a level at the very end of the last range: the import raises. -/
theorem C76_end_violated : (match relateRanges (exLevels 4) 0 1 with | .ok _ => none | .error e => some e) =
    some Err.typeError := by decide +kernel

/-- a reader for the numbers of the examples -/
def exFloat (l : List Char) : Option Time :=
  if l = "50".toList then some 50 else if l = "200".toList then some 200 else none
def exInt (l : List Char) : Option Int :=
  if l = "3".toList then some 3 else if l = "0".toList then some 0 else if l = "6".toList then some 6 else none

example : rangeNums exFloat "50-200".toList = [some 50, some 200] ∧ exInt ("3?".toList.filter (· ≠ '?')) = some (3 : Nat) ∧
    (match bandOf exFloat exInt (some "50-200".toList) "3?".toList with | .ok l => l | .error _ => []) = [some 110, some 140] := by
  decide +kernel

/-- C76 fails for levels outside `1` to `5`, which have fewer than two boundaries: the level `0` has none, the level `6` one. -/
theorem C76_level_violated :
    (match bandOf exFloat exInt (some "50-200".toList) "0".toList with | .ok l => some l | .error _ => none) = some [] ∧
    (match bandOf exFloat exInt (some "50-200".toList) "6".toList with | .ok l => some l | .error _ => none) = some [some 200] := by
  decide +kernel

/-- A range label that is not a pair of numbers gives `nan` or raises an `IndexError`; a negative number is no number here. -/
theorem C76_label_violated :
    (match bandOf exFloat exInt (some "-50-200".toList) "3".toList with | .ok l => some l | .error _ => none) = some [none, none] ∧
    (match bandOf exFloat exInt (some "200".toList) "3".toList with | .ok _ => none | .error e => some e) = some Err.indexError := by
  decide +kernel

end ATG
