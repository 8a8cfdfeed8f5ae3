import Verif.Lemmas.Num
import Verif.Model.Base
import Verif.Spec.Basic
/-!
# C15, C19, C20, C42: reading intervals and tiers
-/
namespace ATG

/-! ## C15 `validate` -/

/-- `a` and `b` agree within numpy's default tolerance (relative to `b`) -/
def CloseTo (a b : Time) : Prop :=
  a - b ≤ 1 / 100000000 + max b (-b) / 100000 ∧ b - a ≤ 1 / 100000000 + max b (-b) / 100000

theorem allclose_iff (a b : Time) : allclose a b = true ↔ CloseTo a b := by
  unfold allclose CloseTo tabs
  rw [decide_eq_true_iff]
  have hm : (if 0 ≤ b then b else -b) = max b (-b) := by split <;> grind
  rw [hm]
  generalize max b (-b) = m
  split <;> grind

/-- The list is empty, or it starts and ends where `w` does and each entry starts where the one before
    it ends, all within tolerance. -/
def Snug (h : Heap) (w : Ref) (l : List Ref) : Prop :=
  (∀ x, l.head? = some x → CloseTo (h.start w) (h.start x)) ∧
  (∀ x, l.getLast? = some x → CloseTo (h.stop w) (h.stop x)) ∧
  ∀ (i : Nat) (x y : Ref), l[i]? = some x → l[i + 1]? = some y → CloseTo (h.start y) (h.stop x)

theorem tight_iff (h : Heap) (l : List Ref) : tight (l.map h.start) (l.map h.stop) = true ↔
    ∀ (i : Nat) (x y : Ref), l[i]? = some x → l[i + 1]? = some y → CloseTo (h.start y) (h.stop x) := by
  unfold tight allcloseL
  rw [List.all_eq_true]
  constructor
  · intro hall i x y hx hy
    rw [← allclose_iff]
    have := hall (h.start y, h.stop x) (by
      rw [List.mem_iff_getElem?]
      refine ⟨i, ?_⟩
      rw [List.getElem?_zip_eq_some]
      have hi : i + 1 < l.length := (List.getElem?_eq_some_iff.mp hy).1
      refine ⟨by simp [List.getElem?_tail, hy], ?_⟩
      rw [List.getElem?_dropLast, if_pos (by simp; omega)]
      simp [hx])
    exact this
  · rintro hall ⟨a, b⟩ hm
    rw [List.mem_iff_getElem?] at hm
    obtain ⟨i, hi⟩ := hm
    rw [List.getElem?_zip_eq_some] at hi
    obtain ⟨h1, h2⟩ := hi
    simp only [List.getElem?_tail, List.getElem?_map, Option.map_eq_some_iff] at h1
    rw [List.getElem?_dropLast] at h2
    split at h2
    · simp only [List.getElem?_map, Option.map_eq_some_iff] at h2
      obtain ⟨y, hy, rfl⟩ := h1
      obtain ⟨x, hx, rfl⟩ := h2
      exact (allclose_iff _ _).mpr (hall i x y hx hy)
    · cases h2

/-- C15: `validate()` is `True` exactly for snug subset lists. -/
theorem C15_validate (h : Heap) (w : Ref) : validate h w = true ↔ Snug h w (h.subs w).vals := by
  unfold validate Snug
  generalize (h.subs w).vals = l
  cases l with
  | nil => simp
  | cons x xs =>
    simp only [Bool.and_eq_true, allclose_iff, tight_iff]
    have hl : (x :: xs).getLast? = some ((x :: xs).getLast (by simp)) := List.getLast?_eq_some_getLast (by simp)
    rw [hl]
    simp only [List.head?_cons, Option.some.injEq, forall_eq', Option.getD_some]
    grind

/-- A word with two phones that fill it, and one with a gap. -/
def exSnug (mid : Time) : Heap := run0 (do
  let w ← newEntry cWord 1 4 "w"
  let p ← newEntry cPhone 1 2 "p"
  let q ← newEntry cPhone mid 4 "q"
  setSubs w [p, q])
example : validate (exSnug 2) 0 = true ∧ validate (exSnug 3) 0 = false ∧
    validate (exSnug (2 + 1/1000000)) 0 = true := by decide +kernel

/-! ## C19 `get_interval_at_time` -/

/-- C19: on a tier without overlaps, the index returned is the one of the interval that contains the
    time, and `None` is returned exactly when there is none. -/
theorem C19_interval_at (h : Heap) (t : TRef) (time : Time)
    (hno : (h.tseq t).vals.Pairwise fun x y => ¬ Overlap (h.start x, h.stop x) (h.start y, h.stop y)) :
    (∀ i, tierAt h t time = .ok (some i) ↔
      ∃ x, (h.tseq t).vals[i]? = some x ∧ h.start x ≤ time ∧ time < h.stop x) ∧
    (tierAt h t time = .ok none ↔ ∀ x ∈ (h.tseq t).vals, ¬ (h.start x ≤ time ∧ time < h.stop x)) := by
  have hmem : ∀ i, i ∈ spansAt (h.tspans t) time ↔
      ∃ x, (h.tseq t).vals[i]? = some x ∧ h.start x ≤ time ∧ time < h.stop x := by
    intro i
    rw [mem_spansAt]
    unfold Heap.tspans
    simp only [List.getElem?_map, Option.map_eq_some_iff]
    constructor
    · rintro ⟨p, ⟨x, hx, rfl⟩, h1, h2⟩; exact ⟨x, hx, h1, h2⟩
    · rintro ⟨x, hx, h1, h2⟩; exact ⟨_, ⟨x, hx, rfl⟩, h1, h2⟩
  have huniq : ∀ i j, i < j → i ∈ spansAt (h.tspans t) time → j ∈ spansAt (h.tspans t) time → False := by
    intro i j hij hi hj
    obtain ⟨x, hx, h1, h2⟩ := (hmem i).mp hi
    obtain ⟨y, hy, g1, g2⟩ := (hmem j).mp hj
    obtain ⟨hil, rfl⟩ := List.getElem?_eq_some_iff.mp hx
    obtain ⟨hjl, rfl⟩ := List.getElem?_eq_some_iff.mp hy
    exact (List.pairwise_iff_getElem.mp hno i j hil hjl hij) ⟨by grind, by grind⟩
  unfold tierAt intervalAt
  rcases pairwise_lt_cases _ (spansAt_pairwise (h.tspans t) time) with e | ⟨k, e⟩ | ⟨i, j, hij, hi, hj⟩
  · rw [e] at hmem ⊢
    simp only [List.not_mem_nil, false_iff] at hmem
    refine ⟨fun i => ⟨fun q => by simp at q, fun q => absurd q (hmem i)⟩, fun _ x hx hc => ?_, fun _ => rfl⟩
    obtain ⟨i, hi⟩ := List.mem_iff_getElem?.mp hx
    exact hmem i ⟨x, hi, hc⟩
  · rw [e] at hmem ⊢
    simp only [List.mem_singleton] at hmem
    refine ⟨fun i => ?_, fun q => by simp at q, fun q => ?_⟩
    · rw [← hmem i]; simp [eq_comm]
    · obtain ⟨x, hx, hc⟩ := (hmem k).mp rfl
      exact absurd hc (q x (List.mem_of_getElem? hx))
  · exact (huniq i j hij hi hj).elim

/-- C19: on any tier, the call raises (`TypeError`) exactly when two intervals contain the time. -/
theorem C19_interval_at_error (h : Heap) (t : TRef) (time : Time) :
    (∃ e, tierAt h t time = .error e) ↔
      ∃ (i j : Nat) (x y : Ref), i < j ∧ (h.tseq t).vals[i]? = some x ∧ (h.tseq t).vals[j]? = some y ∧
        (h.start x ≤ time ∧ time < h.stop x) ∧ (h.start y ≤ time ∧ time < h.stop y) := by
  have hmem : ∀ i, i ∈ spansAt (h.tspans t) time ↔
      ∃ x, (h.tseq t).vals[i]? = some x ∧ h.start x ≤ time ∧ time < h.stop x := by
    intro i
    rw [mem_spansAt]
    unfold Heap.tspans
    simp only [List.getElem?_map, Option.map_eq_some_iff]
    constructor
    · rintro ⟨p, ⟨x, hx, rfl⟩, h1, h2⟩; exact ⟨x, hx, h1, h2⟩
    · rintro ⟨x, hx, h1, h2⟩; exact ⟨_, ⟨x, hx, rfl⟩, h1, h2⟩
  have hp := spansAt_pairwise (h.tspans t) time
  unfold tierAt intervalAt
  generalize spansAt (h.tspans t) time = l at hmem hp ⊢
  match l, hmem, hp with
  | [], hmem, _ =>
    simp only [List.not_mem_nil, false_iff] at hmem
    constructor
    · rintro ⟨e, he⟩; cases he
    · rintro ⟨i, j, x, y, _, hx, _, hc, _⟩; exact absurd ⟨x, hx, hc⟩ (hmem i)
  | [k], hmem, _ =>
    simp only [List.mem_singleton] at hmem
    constructor
    · rintro ⟨e, he⟩; cases he
    · rintro ⟨i, j, x, y, hij, hx, hy, hc, hd⟩
      have e1 := (hmem i).mpr ⟨x, hx, hc⟩
      have e2 := (hmem j).mpr ⟨y, hy, hd⟩
      omega
  | a :: b :: r, hmem, hp =>
    constructor
    · intro _
      obtain ⟨x, hx, hc⟩ := (hmem a).mp (by simp)
      obtain ⟨y, hy, hd⟩ := (hmem b).mp (by simp)
      exact ⟨a, b, x, y, (List.pairwise_cons.mp hp).1 b (by simp), hx, hy, hc, hd⟩
    · intro _; exact ⟨_, rfl⟩

/-- a tier with three intervals and a gap -/
def exGap : Heap := run0 (do
  let a ← newEntry cWord 0 1 "a"
  let b ← newEntry cWord 1 2 "b"
  let c ← newEntry cWord 3 4 "c"
  newTier [a, b, c] none)
example : (exGap.tseq 0).vals.Pairwise (fun x y =>
    ¬ Overlap (exGap.start x, exGap.stop x) (exGap.start y, exGap.stop y)) ∧
    tierAt exGap 0 1 = .ok (some 1) ∧ tierAt exGap 0 (5/2) = .ok none ∧
    tierAt exGap 0 4 = .ok none := by decide +kernel

/-! ## C20 extent of a tier -/

/-- C20: `xmin` is the least start, `None` exactly for an empty tier. -/
theorem C20_xmin (h : Heap) (t : TRef) :
    (∀ m, tierXmin h t = some m ↔
      (∃ x ∈ (h.tseq t).vals, h.start x = m) ∧ ∀ x ∈ (h.tseq t).vals, m ≤ h.start x) ∧
    (tierXmin h t = none ↔ (h.tseq t).vals = []) := by
  unfold tierXmin Heap.tstarts
  refine ⟨fun m => ?_, by rw [minL_none]; simp⟩
  rw [minL_iff]; simp

/-- C20: `xmax` is the greatest end, `None` exactly for an empty tier. -/
theorem C20_xmax (h : Heap) (t : TRef) :
    (∀ m, tierXmax h t = some m ↔
      (∃ x ∈ (h.tseq t).vals, h.stop x = m) ∧ ∀ x ∈ (h.tseq t).vals, h.stop x ≤ m) ∧
    (tierXmax h t = none ↔ (h.tseq t).vals = []) := by
  unfold tierXmax Heap.tends
  refine ⟨fun m => ?_, by rw [maxL_none]; simp⟩
  rw [maxL_iff]; simp

/-- C20: every entry of a non-empty tier lies within `[xmin, xmax]`. -/
theorem C20_within (h : Heap) (t : TRef) (x : Ref) (hx : x ∈ (h.tseq t).vals) :
    ∃ a b, tierXmin h t = some a ∧ tierXmax h t = some b ∧ a ≤ h.start x ∧ h.stop x ≤ b := by
  have hne : (h.tseq t).vals ≠ [] := List.ne_nil_of_mem hx
  cases ha : tierXmin h t with
  | none => exact absurd ((C20_xmin h t).2.mp ha) hne
  | some a =>
    cases hb : tierXmax h t with
    | none => exact absurd ((C20_xmax h t).2.mp hb) hne
    | some b =>
      exact ⟨a, b, rfl, rfl, (((C20_xmin h t).1 a).mp ha).2 x hx, (((C20_xmax h t).1 b).mp hb).2 x hx⟩

example : tierXmin exGap 0 = some 0 ∧ tierXmax exGap 0 = some 4 ∧
    tierXmin (run0 (newTier [] none)) 0 = none := by decide +kernel

/-! ## C42 nearest point -/

/-- distance of two times -/
def dist (a b : Time) : Time := max (a - b) (b - a)

theorem tabs_sub (a b : Time) : tabs (a - b) = dist a b := by
  unfold tabs dist; split <;> grind

/-- C42: `get_nearest_point_index(t)` is `i` exactly when point `i` has the least distance to `t` and all
    earlier points are strictly farther away; it has no value exactly for an empty tier (where numpy
    raises). -/
theorem C42_nearest (times : List Time) (t : Time) :
    (∀ i, nearest times t = some i ↔
      ∃ x, times[i]? = some x ∧ (∀ y ∈ times, dist x t ≤ dist y t) ∧
        ∀ j y, j < i → times[j]? = some y → dist x t < dist y t) ∧
    (nearest times t = none ↔ times = []) := by
  refine ⟨fun i => ?_, ?_⟩
  · rw [nearest_spec]
    unfold FirstMax
    constructor
    · rintro ⟨v, hv, h1, h2⟩
      simp only [List.getElem?_map, Option.map_eq_some_iff] at hv
      obtain ⟨x, hx, rfl⟩ := hv
      refine ⟨x, hx, ?_, ?_⟩
      · intro y hy
        have := h1 (- tabs (y - t)) (List.mem_map.mpr ⟨y, hy, rfl⟩)
        rw [tabs_sub, tabs_sub] at this; grind
      · intro j y hj hy
        have := h2 j (- tabs (y - t)) hj (by simp [hy])
        rw [tabs_sub, tabs_sub] at this; grind
    · rintro ⟨x, hx, h1, h2⟩
      refine ⟨- tabs (x - t), by simp [hx], ?_, ?_⟩
      · intro v hv
        obtain ⟨y, hy, rfl⟩ := List.mem_map.mp hv
        have := h1 y hy
        rw [tabs_sub, tabs_sub]; grind
      · intro j v hj hv
        simp only [List.getElem?_map, Option.map_eq_some_iff] at hv
        obtain ⟨y, hy, rfl⟩ := hv
        have := h2 j y hj hy
        rw [tabs_sub, tabs_sub]; grind
  · unfold nearest
    cases times <;> simp

example : nearest [1, 3, 5] 4 = some 1 ∧ nearest [1, 3, 5] (41/10) = some 2 ∧ nearest [] 0 = none := by
  decide +kernel

end ATG
