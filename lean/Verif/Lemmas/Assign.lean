import Verif.Lemmas.Num
/-!
# Assigning lower intervals to upper ones
-/
namespace ATG

/-- earlier spans start and end no later -/
def SpanLe (p q : Time × Time) : Prop := p.1 ≤ q.1 ∧ p.2 ≤ q.2

/-- the overlap is supermodular -/
theorem overlap_super (l l' u u' : Time × Time) (hl : SpanLe l l') (hu : SpanLe u u') :
    overlap l u' + overlap l' u ≤ overlap l u + overlap l' u' := by
  unfold overlap SpanLe at *
  grind

theorem getElem?_lt {α} {l : List α} {i : Nat} {a : α} (h : l[i]? = some a) : i < l.length :=
  (List.getElem?_eq_some_iff.mp h).1

theorem pairwise_get? {α} {R : α → α → Prop} {l : List α} (h : l.Pairwise R) {i j : Nat} {a b : α}
    (hij : i < j) (ha : l[i]? = some a) (hb : l[j]? = some b) : R a b := by
  obtain ⟨h1, e1⟩ := List.getElem?_eq_some_iff.mp ha
  obtain ⟨h2, e2⟩ := List.getElem?_eq_some_iff.mp hb
  rw [List.pairwise_iff_getElem] at h
  rw [← e1, ← e2]; exact h i j h1 h2 hij

/-- first maxima of the overlaps with sorted uppers move to the right -/
theorem firstMax_mono (us : List (Time × Time)) (hu : us.Pairwise SpanLe) (l l' : Time × Time)
    (hl : SpanLe l l') (i j : Nat) (hi : FirstMax (us.map (overlap l)) i)
    (hj : FirstMax (us.map (overlap l')) j) : i ≤ j := by
  refine Decidable.byContradiction fun hnot => ?_
  have hlt : j < i := by omega
  obtain ⟨v, h1, h2, h3⟩ := hi
  obtain ⟨w, g1, g2, g3⟩ := hj
  rw [List.getElem?_map] at h1 g1
  cases hui : us[i]? with
  | none => simp [hui] at h1
  | some ui =>
    cases huj : us[j]? with
    | none => simp [huj] at g1
    | some uj =>
      simp only [hui, huj, Option.map_some, Option.some.injEq] at h1 g1
      have a1 := h3 j (overlap l uj) hlt (by simp [huj])
      have a2 := g2 (overlap l' ui) (List.mem_map.mpr ⟨ui, List.mem_of_getElem? hui, rfl⟩)
      have a3 := overlap_super l l' uj ui hl (pairwise_get? hu hlt huj hui)
      grind

theorem containers_length (us ls : List (Time × Time)) : (containers us ls).length = ls.length := by
  simp [containers]

theorem containers_spec (us ls : List (Time × Time)) (hne : us ≠ []) (i k : Nat) (l : Time × Time)
    (hl : ls[i]? = some l) : (containers us ls)[i]? = some k ↔ FirstMax (us.map (overlap l)) k := by
  have hs := argmax_spec (us.map (overlap l)) (by simpa using hne)
  simp only [containers, List.getElem?_map, hl, Option.map_some, Option.some.injEq]
  constructor
  · rintro rfl; exact hs
  · intro h; exact hs.unique h

theorem containers_mono (us ls : List (Time × Time)) (hne : us ≠ []) (hu : us.Pairwise SpanLe)
    (hl : ls.Pairwise SpanLe) : (containers us ls).Pairwise (· ≤ ·) := by
  unfold containers
  rw [List.pairwise_map]
  refine hl.imp ?_
  intro a b hab
  exact firstMax_mono us hu a b hab _ _ (argmax_spec _ (by simpa using hne)) (argmax_spec _ (by simpa using hne))

/-! ## slices -/

theorem sorted_ext {l l' : List Nat} (h : l.Pairwise (· < ·)) (h' : l'.Pairwise (· < ·))
    (hm : ∀ x, x ∈ l ↔ x ∈ l') : l = l' := by
  induction l generalizing l' with
  | nil =>
    cases l' with
    | nil => rfl
    | cons b bs => exact absurd ((hm b).mpr (by simp)) (by simp)
  | cons a as ih =>
    cases l' with
    | nil => exact absurd ((hm a).mp (by simp)) (by simp)
    | cons b bs =>
      rw [List.pairwise_cons] at h h'
      have hab : a = b := by
        have h1 := (hm a).mp (by simp)
        have h2 := (hm b).mpr (by simp)
        rcases List.mem_cons.mp h1 with e | e
        · exact e
        · rcases List.mem_cons.mp h2 with e2 | e2
          · exact e2.symm
          · have := h'.1 a e; have := h.1 b e2; omega
      subst hab
      congr 1
      apply ih h.2 h'.2
      intro x
      constructor
      · intro hx
        rcases List.mem_cons.mp ((hm x).mp (by simp [hx])) with e | e
        · have := h.1 x hx; omega
        · exact e
      · intro hx
        rcases List.mem_cons.mp ((hm x).mpr (by simp [hx])) with e | e
        · have := h'.1 x hx; omega
        · exact e

theorem foldl_min_range' (a n : Nat) : ∀ m, m ≤ a → (List.range' a n).foldl min m = m := by
  induction n generalizing a with
  | zero => intro m _; rfl
  | succ n ih =>
    intro m hm
    rw [List.range'_succ, List.foldl_cons, Nat.min_eq_left hm]
    exact ih (a + 1) m (by omega)

theorem foldl_max_range' (n : Nat) : ∀ a, (List.range' (a + 1) n).foldl max a = a + n := by
  induction n with
  | zero => intro a; rfl
  | succ n ih =>
    intro a
    rw [List.range'_succ, List.foldl_cons, Nat.max_eq_right (by omega), ih]
    omega

theorem idxWhere_mid (A B C : List Nat) (k : Nat) (hA : ∀ x ∈ A, x ≠ k) (hB : ∀ x ∈ B, x = k)
    (hC : ∀ x ∈ C, x ≠ k) :
    idxWhere (· == k) (A ++ B ++ C) = List.range' A.length B.length := by
  apply sorted_ext (idxWhere_pairwise _ _) List.pairwise_lt_range'
  intro i
  rw [mem_idxWhere, List.mem_range'_1]
  constructor
  · rintro ⟨x, hx, hk⟩
    have hk : x = k := by simpa using hk
    subst hk
    rcases Nat.lt_or_ge i A.length with h1 | h1
    · rw [List.append_assoc, List.getElem?_append_left h1] at hx
      exact absurd rfl (hA x (List.mem_of_getElem? hx))
    · refine ⟨h1, ?_⟩
      rcases Nat.lt_or_ge i (A.length + B.length) with h2 | h2
      · exact h2
      · rw [List.getElem?_append_right (by simpa using h2)] at hx
        exact absurd rfl (hC x (List.mem_of_getElem? hx))
  · rintro ⟨h1, h2⟩
    have hi : i - A.length < B.length := by omega
    refine ⟨B[i - A.length], ?_, ?_⟩
    · rw [List.append_assoc, List.getElem?_append_right h1, List.getElem?_append_left hi]
      simp [hi]
    · simpa using hB _ (List.getElem_mem hi)

theorem sliceBounds_mid (A B C : List Nat) (k : Nat) (hA : ∀ x ∈ A, x ≠ k) (hB : ∀ x ∈ B, x = k)
    (hC : ∀ x ∈ C, x ≠ k) :
    sliceBounds (A ++ B ++ C) k = if B = [] then none else some (A.length, A.length + B.length) := by
  unfold sliceBounds
  rw [idxWhere_mid A B C k hA hB hC]
  cases B with
  | nil => simp
  | cons b bs =>
    rw [List.length_cons, List.range'_succ]
    simp only [foldl_min_range' _ _ _ (Nat.le_succ _), foldl_max_range']
    simp; omega

theorem mono_split (asg : List Nat) (h : asg.Pairwise (· ≤ ·)) (k : Nat) :
    ∃ A B C, asg = A ++ B ++ C ∧ (∀ x ∈ A, x < k) ∧ (∀ x ∈ B, x = k) ∧ (∀ x ∈ C, k < x) := by
  induction asg with
  | nil => exact ⟨[], [], [], rfl, by simp, by simp, by simp⟩
  | cons a as ih =>
    rw [List.pairwise_cons] at h
    obtain ⟨A, B, C, e, hA, hB, hC⟩ := ih h.2
    rcases Nat.lt_trichotomy a k with hk | hk | hk
    · refine ⟨a :: A, B, C, by simp [e], ?_, hB, hC⟩
      intro x hx
      rcases List.mem_cons.mp hx with rfl | hx
      · exact hk
      · exact hA x hx
    · subst hk
      have : A = [] := by
        cases A with
        | nil => rfl
        | cons b bs =>
          have h1 := hA b (by simp)
          have h2 := h.1 b (by rw [e]; simp)
          omega
      subst this
      refine ⟨[], a :: B, C, by simp [e], by simp, ?_, hC⟩
      intro x hx
      rcases List.mem_cons.mp hx with rfl | hx
      · rfl
      · exact hB x hx
    · refine ⟨[], [], a :: as, rfl, by simp, by simp, ?_⟩
      intro x hx
      rcases List.mem_cons.mp hx with rfl | hx
      · exact hk
      · have := h.1 x hx; omega

/-- the elements assigned to `k`, in order -/
def assignedTo {α} (asg : List Nat) (lower : List α) (k : Nat) : List α :=
  ((lower.zip asg).filter fun p => p.2 == k).map (·.1)

theorem assignedTo_mid {α} (A B C : List Nat) (LA LB LC : List α) (k : Nat) (h1 : LA.length = A.length)
    (h2 : LB.length = B.length) (hA : ∀ x ∈ A, x ≠ k) (hB : ∀ x ∈ B, x = k)
    (hC : ∀ x ∈ C, x ≠ k) : assignedTo (A ++ B ++ C) (LA ++ LB ++ LC) k = LB := by
  unfold assignedTo
  rw [List.zip_append (by simp [h1, h2]), List.zip_append h1, List.filter_append, List.filter_append]
  have e1 : (LA.zip A).filter (fun p => p.2 == k) = [] := by
    rw [List.filter_eq_nil_iff]
    rintro ⟨x, y⟩ hp
    simpa using hA y (List.of_mem_zip hp).2
  have e3 : (LC.zip C).filter (fun p => p.2 == k) = [] := by
    rw [List.filter_eq_nil_iff]
    rintro ⟨x, y⟩ hp
    simpa using hC y (List.of_mem_zip hp).2
  have e2 : (LB.zip B).filter (fun p => p.2 == k) = LB.zip B := by
    rw [List.filter_eq_self]
    rintro ⟨x, y⟩ hp
    simpa using hB y (List.of_mem_zip hp).2
  rw [e1, e2, e3]
  simp only [List.nil_append, List.append_nil]
  rw [← List.unzip_fst, List.unzip_zip_left (by omega)]

theorem slice_eq {α} (asg : List Nat) (lower : List α) (hlen : asg.length = lower.length)
    (hm : asg.Pairwise (· ≤ ·)) (k : Nat) :
    (match sliceBounds asg k with
      | none => []
      | some (a, b) => pySlice lower a b) = assignedTo asg lower k := by
  obtain ⟨A, B, C, e, hA, hB, hC⟩ := mono_split asg hm k
  subst e
  have hlow : lower = lower.take A.length ++ (lower.drop A.length).take B.length ++
      (lower.drop A.length).drop B.length := by
    rw [List.append_assoc, List.take_append_drop, List.take_append_drop]
  simp only [List.length_append] at hlen
  have hA' : ∀ x ∈ A, x ≠ k := fun x hx => by have := hA x hx; omega
  have hC' : ∀ x ∈ C, x ≠ k := fun x hx => by have := hC x hx; omega
  rw [sliceBounds_mid A B C k hA' hB hC']
  conv => rhs; rw [hlow]
  rw [assignedTo_mid A B C _ _ _ k (by simp; omega) (by simp; omega) hA' hB hC']
  by_cases hb : B = []
  · subst hb; simp
  · simp [hb, pySlice]

theorem slices_eq {α} (asg : List Nat) (lower : List α) (n : Nat) (hlen : asg.length = lower.length)
    (hm : asg.Pairwise (· ≤ ·)) :
    slices asg lower n = (List.range n).map (assignedTo asg lower) := by
  unfold slices
  apply List.map_congr_left
  intro k _
  exact slice_eq asg lower hlen hm k

theorem assignedTo_flatten {α} (asg : List Nat) (lower : List α) (hlen : asg.length = lower.length)
    (hm : asg.Pairwise (· ≤ ·)) : ∀ n, (∀ k ∈ asg, k < n) →
    ((List.range n).map (assignedTo asg lower)).flatten = lower := by
  -- the elements assigned below n
  have key : ∀ n, ((List.range n).map (assignedTo asg lower)).flatten =
      ((lower.zip asg).filter fun p => decide (p.2 < n)).map (·.1) := by
    intro n
    induction n with
    | zero => simp
    | succ n ih =>
      rw [List.range_succ, List.map_append, List.flatten_append, ih]
      simp only [List.map_cons, List.map_nil, List.flatten_cons, List.flatten_nil, List.append_nil]
      obtain ⟨A, B, C, e, hA, hB, hC⟩ := mono_split asg hm n
      subst e
      have hlow : lower = lower.take A.length ++ (lower.drop A.length).take B.length ++
          (lower.drop A.length).drop B.length := by
        rw [List.append_assoc, List.take_append_drop, List.take_append_drop]
      simp only [List.length_append] at hlen
      generalize hLA : lower.take A.length = LA at hlow
      generalize hLB : (lower.drop A.length).take B.length = LB at hlow
      generalize (lower.drop A.length).drop B.length = LC at hlow
      have l1 : LA.length = A.length := by rw [← hLA]; simp; omega
      have l2 : LB.length = B.length := by rw [← hLB]; simp; omega
      subst hlow
      rw [assignedTo_mid A B C LA LB LC n l1 l2 (fun x hx => by have := hA x hx; omega) hB
        (fun x hx => by have := hC x hx; omega)]
      rw [List.zip_append (by simp [l1, l2]), List.zip_append l1]
      simp only [List.filter_append, List.map_append]
      have f1 : ∀ m, n ≤ m → (LA.zip A).filter (fun p => decide (p.2 < m)) = LA.zip A := by
        intro m hmn
        rw [List.filter_eq_self]
        rintro ⟨x, y⟩ hp
        have := hA y (List.of_mem_zip hp).2
        simp; omega
      have f2 : (LB.zip B).filter (fun p => decide (p.2 < n)) = [] := by
        rw [List.filter_eq_nil_iff]
        rintro ⟨x, y⟩ hp
        have := hB y (List.of_mem_zip hp).2
        simp; omega
      have f2' : (LB.zip B).filter (fun p => decide (p.2 < n + 1)) = LB.zip B := by
        rw [List.filter_eq_self]
        rintro ⟨x, y⟩ hp
        have := hB y (List.of_mem_zip hp).2
        simp; omega
      have f3 : ∀ m, m ≤ n + 1 → (LC.zip C).filter (fun p => decide (p.2 < m)) = [] := by
        intro m hmn
        rw [List.filter_eq_nil_iff]
        rintro ⟨x, y⟩ hp
        have := hC y (List.of_mem_zip hp).2
        simp; omega
      rw [f1 n (by omega), f1 (n + 1) (by omega), f2, f2', f3 n (by omega), f3 (n + 1) (by omega)]
      simp only [List.map_nil, List.append_nil]
      congr 1
      rw [← List.unzip_fst, List.unzip_zip_left (by omega)]
  intro n hn
  rw [key]
  have : (lower.zip asg).filter (fun p => decide (p.2 < n)) = lower.zip asg := by
    rw [List.filter_eq_self]
    rintro ⟨x, y⟩ hp
    simpa using hn y (List.of_mem_zip hp).2
  rw [this, ← List.unzip_fst, List.unzip_zip_left (by omega)]

end ATG
