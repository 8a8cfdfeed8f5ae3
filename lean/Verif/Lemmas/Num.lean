import Verif.Model.Num
/-!
# Lemmas on the numeric kernels
-/
namespace ATG

/-! ## minimum, maximum -/

theorem foldl_min_le (xs : List Time) : ∀ x : Time,
    xs.foldl min x ≤ x ∧ (∀ y ∈ xs, xs.foldl min x ≤ y) ∧ (xs.foldl min x = x ∨ xs.foldl min x ∈ xs) := by
  induction xs with
  | nil => intro x; simp
  | cons a as ih =>
    intro x
    obtain ⟨h1, h2, h3⟩ := ih (min x a)
    simp only [List.foldl_cons]
    refine ⟨by grind, ?_, ?_⟩
    · intro y hy
      rcases List.mem_cons.mp hy with rfl | hy
      · grind
      · exact h2 y hy
    · rcases h3 with h3 | h3
      · rw [h3]
        by_cases e : x ≤ a
        · left; grind
        · right; have : min x a = a := by grind
          rw [this]; simp
      · right; exact List.mem_cons_of_mem _ h3

theorem foldl_max_ge (xs : List Time) : ∀ x : Time,
    x ≤ xs.foldl max x ∧ (∀ y ∈ xs, y ≤ xs.foldl max x) ∧ (xs.foldl max x = x ∨ xs.foldl max x ∈ xs) := by
  induction xs with
  | nil => intro x; simp
  | cons a as ih =>
    intro x
    obtain ⟨h1, h2, h3⟩ := ih (max x a)
    simp only [List.foldl_cons]
    refine ⟨by grind, ?_, ?_⟩
    · intro y hy
      rcases List.mem_cons.mp hy with rfl | hy
      · grind
      · exact h2 y hy
    · rcases h3 with h3 | h3
      · rw [h3]
        by_cases e : a ≤ x
        · left; grind
        · right; have : max x a = a := by grind
          rw [this]; simp
      · right; exact List.mem_cons_of_mem _ h3

theorem minL_iff (l : List Time) (m : Time) : minL l = some m ↔ m ∈ l ∧ ∀ y ∈ l, m ≤ y := by
  cases l with
  | nil => simp [minL]
  | cons x xs =>
    obtain ⟨h1, h2, h3⟩ := foldl_min_le xs x
    simp only [minL, Option.some.injEq]
    constructor
    · rintro rfl
      refine ⟨by rcases h3 with h | h <;> simp [h], ?_⟩
      intro y hy
      rcases List.mem_cons.mp hy with rfl | hy
      · exact h1
      · exact h2 y hy
    · rintro ⟨hm, hle⟩
      apply Rat.le_antisymm
      · rcases List.mem_cons.mp hm with rfl | hm
        · exact h1
        · exact h2 m hm
      · rcases h3 with h | h
        · rw [h]; exact hle x (by simp)
        · exact hle _ (List.mem_cons_of_mem _ h)

theorem maxL_iff (l : List Time) (m : Time) : maxL l = some m ↔ m ∈ l ∧ ∀ y ∈ l, y ≤ m := by
  cases l with
  | nil => simp [maxL]
  | cons x xs =>
    obtain ⟨h1, h2, h3⟩ := foldl_max_ge xs x
    simp only [maxL, Option.some.injEq]
    constructor
    · rintro rfl
      refine ⟨by rcases h3 with h | h <;> simp [h], ?_⟩
      intro y hy
      rcases List.mem_cons.mp hy with rfl | hy
      · exact h1
      · exact h2 y hy
    · rintro ⟨hm, hle⟩
      apply Rat.le_antisymm
      · rcases h3 with h | h
        · rw [h]; exact hle x (by simp)
        · exact hle _ (List.mem_cons_of_mem _ h)
      · rcases List.mem_cons.mp hm with rfl | hm
        · exact h1
        · exact h2 m hm

theorem minL_none (l : List Time) : minL l = none ↔ l = [] := by cases l <;> simp [minL]
theorem maxL_none (l : List Time) : maxL l = none ↔ l = [] := by cases l <;> simp [maxL]

/-! ## argmax, argmin -/

theorem argmaxFrom_spec (xs : List Time) : ∀ (best : Time) (bi i : Nat),
    (argmaxFrom best bi i xs = bi ∧ ∀ x ∈ xs, x ≤ best) ∨
    (∃ j v, argmaxFrom best bi i xs = i + j ∧ xs[j]? = some v ∧ best < v ∧ (∀ x ∈ xs, x ≤ v) ∧
      ∀ j' x, j' < j → xs[j']? = some x → x < v) := by
  induction xs with
  | nil => intro best bi i; left; simp [argmaxFrom]
  | cons a as ih =>
    intro best bi i
    unfold argmaxFrom
    by_cases hlt : best < a
    · rw [if_pos hlt]
      right
      rcases ih a i (i + 1) with ⟨h1, h2⟩ | ⟨j, v, h1, h2, h3, h4, h5⟩
      · refine ⟨0, a, by simpa using h1, by simp, hlt, ?_, by intro j' x h; omega⟩
        intro x hx
        rcases List.mem_cons.mp hx with rfl | hx
        · exact Rat.le_refl
        · exact h2 x hx
      · refine ⟨j + 1, v, by rw [h1]; omega, by simpa using h2, by grind, ?_, ?_⟩
        · intro x hx
          rcases List.mem_cons.mp hx with rfl | hx
          · grind
          · exact h4 x hx
        · intro j' x hj hx
          cases j' with
          | zero => simp at hx; subst hx; exact h3
          | succ k => exact h5 k x (by omega) (by simpa using hx)
    · rw [if_neg hlt]
      rcases ih best bi (i + 1) with ⟨h1, h2⟩ | ⟨j, v, h1, h2, h3, h4, h5⟩
      · left
        refine ⟨h1, ?_⟩
        intro x hx
        rcases List.mem_cons.mp hx with rfl | hx
        · grind
        · exact h2 x hx
      · right
        refine ⟨j + 1, v, by rw [h1]; omega, by simpa using h2, h3, ?_, ?_⟩
        · intro x hx
          rcases List.mem_cons.mp hx with rfl | hx
          · grind
          · exact h4 x hx
        · intro j' x hj hx
          cases j' with
          | zero => simp at hx; subst hx; grind
          | succ k => exact h5 k x (by omega) (by simpa using hx)

/-- `i` is the first position of a greatest element. -/
def FirstMax (l : List Time) (i : Nat) : Prop :=
  ∃ v, l[i]? = some v ∧ (∀ x ∈ l, x ≤ v) ∧ ∀ j x, j < i → l[j]? = some x → x < v

theorem FirstMax.unique {l : List Time} {i j : Nat} (hi : FirstMax l i) (hj : FirstMax l j) : i = j := by
  obtain ⟨v, h1, h2, h3⟩ := hi
  obtain ⟨w, g1, g2, g3⟩ := hj
  have hv : v ≤ w := g2 v (List.mem_of_getElem? h1)
  have hw : w ≤ v := h2 w (List.mem_of_getElem? g1)
  have e : v = w := Rat.le_antisymm hv hw
  subst e
  rcases Nat.lt_trichotomy i j with h | h | h
  · have := g3 i v h h1; grind
  · exact h
  · have := h3 j v h g1; grind

theorem argmax_spec (l : List Time) (hne : l ≠ []) : FirstMax l (argmax l) := by
  cases l with
  | nil => exact absurd rfl hne
  | cons x xs =>
    show FirstMax (x :: xs) (argmaxFrom x 0 1 xs)
    rcases argmaxFrom_spec xs x 0 1 with ⟨h1, h2⟩ | ⟨j, v, h1, h2, h3, h4, h5⟩
    · rw [h1]
      refine ⟨x, by simp, ?_, by intro j y h; omega⟩
      intro y hy
      rcases List.mem_cons.mp hy with rfl | hy
      · exact Rat.le_refl
      · exact h2 y hy
    · rw [h1]
      refine ⟨v, by rw [Nat.add_comm]; simpa using h2, ?_, ?_⟩
      · intro y hy
        rcases List.mem_cons.mp hy with rfl | hy
        · grind
        · exact h4 y hy
      · intro j' y hj hy
        cases j' with
        | zero => simp at hy; subst hy; exact h3
        | succ k => exact h5 k y (by omega) (by simpa using hy)

theorem argminFrom_neg (xs : List Time) : ∀ (best : Time) (bi i : Nat),
    argminFrom best bi i xs = argmaxFrom (-best) bi i (xs.map (- ·)) := by
  induction xs with
  | nil => intro best bi i; rfl
  | cons a as ih =>
    intro best bi i
    simp only [argminFrom, List.map_cons, argmaxFrom]
    by_cases h : a < best
    · rw [if_pos h, if_pos (by grind), ih]
    · rw [if_neg h, if_neg (by grind), ih]

theorem nearest_spec (times : List Time) (t : Time) (i : Nat) :
    nearest times t = some i ↔ FirstMax (times.map fun x => - tabs (x - t)) i := by
  unfold nearest
  cases times with
  | nil =>
    simp only [List.map_nil, reduceCtorEq, false_iff]
    rintro ⟨v, h, _⟩; simp at h
  | cons a as =>
    simp only [List.map_cons, Option.some.injEq]
    rw [argminFrom_neg]
    have hs := argmax_spec ((- tabs (a - t)) :: (as.map fun x => - tabs (x - t))) (by simp)
    have he : argmax ((- tabs (a - t)) :: (as.map fun x => - tabs (x - t))) =
        argmaxFrom (-tabs (a - t)) 0 1 ((as.map fun x => tabs (x - t)).map (- ·)) := by
      simp [argmax, List.map_map, Function.comp_def]
    rw [he] at hs
    constructor
    · rintro rfl; exact hs
    · intro h; exact hs.unique h

/-! ## positions satisfying a condition -/

theorem mem_range_zip {α} (l : List α) (i : Nat) (a : α) :
    (i, a) ∈ (List.range l.length).zip l ↔ l[i]? = some a := by
  rw [List.mem_iff_getElem?]
  constructor
  · rintro ⟨k, hk⟩
    rw [List.getElem?_zip_eq_some] at hk
    obtain ⟨h1, h2⟩ := hk
    rw [List.getElem?_range (by grind)] at h1
    cases h1; exact h2
  · intro h
    refine ⟨i, ?_⟩
    rw [List.getElem?_zip_eq_some]
    refine ⟨?_, h⟩
    rw [List.getElem?_range]
    exact (List.getElem?_eq_some_iff.mp h).1

theorem range_zip_pairwise {α} (l : List α) :
    ((List.range l.length).zip l).Pairwise (fun a b => a.1 < b.1) := by
  rw [List.pairwise_iff_getElem]
  intro i j hi hj hij
  simp only [List.getElem_zip, List.getElem_range]
  exact hij

theorem mem_spansAt (spans : List (Time × Time)) (t : Time) (i : Nat) :
    i ∈ spansAt spans t ↔ ∃ p, spans[i]? = some p ∧ p.1 ≤ t ∧ t < p.2 := by
  unfold spansAt
  rw [List.mem_filterMap]
  constructor
  · rintro ⟨⟨k, p⟩, hm, hk⟩
    rw [mem_range_zip] at hm
    simp only at hk
    split at hk
    · cases hk; exact ⟨p, hm, by grind⟩
    · cases hk
  · rintro ⟨p, hp, h1, h2⟩
    exact ⟨(i, p), (mem_range_zip _ _ _).mpr hp, by simp [h1, h2]⟩

theorem spansAt_pairwise (spans : List (Time × Time)) (t : Time) :
    (spansAt spans t).Pairwise (· < ·) := by
  unfold spansAt
  rw [List.pairwise_filterMap]
  refine (range_zip_pairwise spans).imp ?_
  rintro ⟨i, p⟩ ⟨j, q⟩ hij a ha b hb
  simp only at *
  split at ha <;> split at hb <;> simp_all

theorem mem_idxWhere (p : Nat → Bool) (l : List Nat) (i : Nat) :
    i ∈ idxWhere p l ↔ ∃ k, l[i]? = some k ∧ p k = true := by
  unfold idxWhere
  rw [List.mem_filterMap]
  constructor
  · rintro ⟨⟨k, q⟩, hm, hk⟩
    rw [mem_range_zip] at hm
    simp only at hk
    split at hk
    · cases hk; exact ⟨q, hm, by assumption⟩
    · cases hk
  · rintro ⟨q, hq, h1⟩
    exact ⟨(i, q), (mem_range_zip _ _ _).mpr hq, by simp [h1]⟩

theorem idxWhere_pairwise (p : Nat → Bool) (l : List Nat) : (idxWhere p l).Pairwise (· < ·) := by
  unfold idxWhere
  rw [List.pairwise_filterMap]
  refine (range_zip_pairwise l).imp ?_
  rintro ⟨i, a⟩ ⟨j, b⟩ hij x hx y hy
  simp only at *
  split at hx <;> split at hy <;> simp_all

/-- two distinct increasing positions in a list of positions -/
theorem pairwise_lt_cases (l : List Nat) (h : l.Pairwise (· < ·)) :
    l = [] ∨ (∃ i, l = [i]) ∨ ∃ i j, i < j ∧ i ∈ l ∧ j ∈ l := by
  cases l with
  | nil => left; rfl
  | cons a as =>
    cases as with
    | nil => right; left; exact ⟨a, rfl⟩
    | cons b bs =>
      right; right
      rw [List.pairwise_cons] at h
      exact ⟨a, b, h.1 b (by simp), by simp, by simp⟩

end ATG
