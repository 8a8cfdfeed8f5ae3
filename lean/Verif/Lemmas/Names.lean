import Verif.Model.Names
/-!
# Matching blocks of two names
-/
namespace ATG

theorem commonLen_le : ∀ (a b : List Char), commonLen a b ≤ a.length ∧ commonLen a b ≤ b.length
  | [], _ => by simp [commonLen]
  | _ :: _, [] => by simp [commonLen]
  | x :: xs, y :: ys => by
    unfold commonLen
    have := commonLen_le xs ys
    split
    · simp; omega
    · simp

theorem commonLen_take : ∀ (a b : List Char), a.take (commonLen a b) = b.take (commonLen a b)
  | [], b => by simp [commonLen]
  | x :: xs, [] => by simp [commonLen]
  | x :: xs, y :: ys => by
    unfold commonLen
    split
    · rename_i e
      rw [List.take_succ_cons, List.take_succ_cons, e, commonLen_take xs ys]
    · rfl

/-- a common start is counted -/
theorem commonLen_ge : ∀ (a b : List Char) (k : Nat), k ≤ a.length → k ≤ b.length → a.take k = b.take k →
    k ≤ commonLen a b
  | _, _, 0, _, _, _ => Nat.zero_le _
  | [], _, k + 1, h, _, _ => by simp at h
  | _ :: _, [], k + 1, _, h, _ => by simp at h
  | x :: xs, y :: ys, k + 1, h1, h2, e => by
    rw [List.take_succ_cons, List.take_succ_cons] at e
    injection e with e1 e2
    unfold commonLen
    rw [if_pos e1]
    have := commonLen_ge xs ys k (by simpa using h1) (by simpa using h2) e2
    omega

theorem better_spec : ∀ (l : List (Nat × Nat × Nat)) (best : Nat × Nat × Nat),
    (better l best = best ∨ better l best ∈ l) ∧ best.2.2 ≤ (better l best).2.2 ∧
      ∀ c ∈ l, c.2.2 ≤ (better l best).2.2
  | [], best => ⟨Or.inl rfl, Nat.le_refl _, by simp⟩
  | c :: rest, best => by
    unfold better
    obtain ⟨a, b, d⟩ := better_spec rest (if best.2.2 < c.2.2 then c else best)
    split at a
    · rename_i hlt
      rw [if_pos hlt] at b d ⊢
      refine ⟨?_, by omega, ?_⟩
      · rcases a with a | a
        · exact Or.inr (by rw [a]; simp)
        · exact Or.inr (by simp [a])
      · intro x hx
        rcases List.mem_cons.mp hx with rfl | hx
        · exact b
        · exact d x hx
    · rename_i hlt
      rw [if_neg hlt] at b d ⊢
      refine ⟨?_, b, ?_⟩
      · rcases a with a | a
        · exact Or.inl a
        · exact Or.inr (by simp [a])
      · intro x hx
        rcases List.mem_cons.mp hx with rfl | hx
        · omega
        · exact d x hx

/-- `k` characters from `i` in `a` and from `j` in `b` are the same -/
def Block (a b : List Char) (i j k : Nat) : Prop :=
  i + k ≤ a.length ∧ j + k ≤ b.length ∧ (a.drop i).take k = (b.drop j).take k

theorem longestMatch_block (a b : List Char) :
    Block a b (longestMatch a b).1 (longestMatch a b).2.1 (longestMatch a b).2.2 := by
  unfold longestMatch
  obtain ⟨h, -, -⟩ := better_spec ((List.range a.length).flatMap fun i =>
    (List.range b.length).map fun j => (i, j, commonLen (a.drop i) (b.drop j))) (0, 0, 0)
  rcases h with h | h
  · rw [h]; exact ⟨by simp, by simp, rfl⟩
  · obtain ⟨i, hi, h⟩ := List.mem_flatMap.mp h
    obtain ⟨j, hj, h⟩ := List.mem_map.mp h
    rw [← h]
    have hl := commonLen_le (a.drop i) (b.drop j)
    rw [List.length_drop, List.length_drop] at hl
    have hi := List.mem_range.mp hi
    have hj := List.mem_range.mp hj
    exact ⟨by simp only; omega, by simp only; omega, commonLen_take _ _⟩

theorem longestMatch_max (a b : List Char) (i j : Nat) :
    commonLen (a.drop i) (b.drop j) ≤ (longestMatch a b).2.2 := by
  by_cases h : i < a.length ∧ j < b.length
  · unfold longestMatch
    exact (better_spec _ (0, 0, 0)).2.2 (i, j, commonLen (a.drop i) (b.drop j)) (by
      simp only [List.mem_flatMap, List.mem_range, List.mem_map]
      exact ⟨i, h.1, j, h.2, rfl⟩)
  · have := commonLen_le (a.drop i) (b.drop j)
    rw [List.length_drop, List.length_drop] at this
    omega

theorem Block.sub {a b : List Char} {i j k : Nat} {p q m n : Nat}
    (h : Block ((a.drop p).take m) ((b.drop q).take n) i j k) (hk : 0 < k) : Block a b (p + i) (q + j) k := by
  obtain ⟨h1, h2, h3⟩ := h
  simp only [List.length_take, List.length_drop] at h1 h2
  refine ⟨by omega, by omega, ?_⟩
  rw [← List.drop_drop, ← List.drop_drop]
  have e1 : (((a.drop p).take m).drop i).take k = ((a.drop p).drop i).take k := by
    rw [List.drop_take, List.take_take]; congr 1; omega
  have e2 : (((b.drop q).take n).drop j).take k = ((b.drop q).drop j).take k := by
    rw [List.drop_take, List.take_take]; congr 1; omega
  rw [← e1, ← e2, h3]

/-- all the blocks found in a part of the two strings are blocks of the strings, and lie in the part -/
theorem matchBlocksN_block {a b : List Char} : ∀ (n p q m l : Nat),
    ∀ c ∈ matchBlocksN n p q ((a.drop p).take m) ((b.drop q).take l),
      0 < c.2.2 ∧ p ≤ c.1 ∧ q ≤ c.2.1 ∧ Block a b c.1 c.2.1 c.2.2
  | 0, _, _, _, _ => by simp [matchBlocksN]
  | n + 1, p, q, m, l => by
    intro c hc
    unfold matchBlocksN at hc
    have hb := longestMatch_block ((a.drop p).take m) ((b.drop q).take l)
    revert hc hb
    generalize longestMatch ((a.drop p).take m) ((b.drop q).take l) = x
    obtain ⟨i, j, k⟩ := x
    intro hc hb
    dsimp only at hc hb
    by_cases hk : k = 0
    · rw [if_pos hk] at hc; simp at hc
    · rw [if_neg hk] at hc
      rcases List.mem_append.mp hc with hc | hc
      · rw [List.take_take, List.take_take] at hc
        exact matchBlocksN_block n p q _ _ c hc
      · rcases List.mem_cons.mp hc with rfl | hc
        · exact ⟨by dsimp only; omega, by dsimp only; omega, by dsimp only; omega, hb.sub (by omega)⟩
        · rw [List.drop_take, List.drop_take, List.drop_drop, List.drop_drop] at hc
          have e1 : p + (i + k) = p + i + k := by omega
          have e2 : q + (j + k) = q + j + k := by omega
          rw [e1, e2] at hc
          obtain ⟨h1, h2, h3, h4⟩ := matchBlocksN_block n (p + i + k) (q + j + k) _ _ c hc
          exact ⟨h1, by omega, by omega, h4⟩

theorem matchBlocksN_whole {a b : List Char} (n : Nat) :
    ∀ c ∈ matchBlocksN n 0 0 a b, 0 < c.2.2 ∧ Block a b c.1 c.2.1 c.2.2 := by
  intro c hc
  have e1 : a = (a.drop 0).take a.length := by simp
  have e2 : b = (b.drop 0).take b.length := by simp
  rw [e1, e2] at hc
  obtain ⟨h1, -, -, h4⟩ := matchBlocksN_block (a := a) (b := b) n 0 0 _ _ c hc
  exact ⟨h1, h4⟩

theorem Block.join {a b : List Char} {i j k l : Nat} (h : Block a b i j k) (h' : Block a b (i + k) (j + k) l) :
    Block a b i j (k + l) := by
  obtain ⟨h1, h2, h3⟩ := h
  obtain ⟨g1, g2, g3⟩ := h'
  refine ⟨by omega, by omega, ?_⟩
  rw [List.take_add, List.take_add, h3, List.drop_drop, List.drop_drop, g3]

theorem joinBlocks_block {a b : List Char} : ∀ (l : List (Nat × Nat × Nat)) (x : Nat × Nat × Nat),
    Block a b x.1 x.2.1 x.2.2 → (∀ c ∈ l, Block a b c.1 c.2.1 c.2.2) →
    ∀ c ∈ joinBlocks x l, 0 < c.2.2 ∧ Block a b c.1 c.2.1 c.2.2
  | [], (i, j, k), hx, _ => by
    intro c hc
    unfold joinBlocks at hc
    split at hc
    · simp at hc
    · rw [List.mem_singleton] at hc
      subst hc
      exact ⟨by dsimp only; omega, hx⟩
  | (i2, j2, k2) :: rest, (i1, j1, k1), hx, hl => by
    intro c hc
    have h2 := hl _ (List.mem_cons_self ..)
    have hr : ∀ c ∈ rest, Block a b c.1 c.2.1 c.2.2 := fun c hc => hl c (List.mem_cons_of_mem _ hc)
    unfold joinBlocks at hc
    dsimp only at hx h2
    split at hc
    · rename_i e
      rw [← e.1, ← e.2] at h2
      exact joinBlocks_block rest _ (hx.join h2) hr c hc
    · split at hc
      · exact joinBlocks_block rest _ h2 hr c hc
      · rename_i hk
        rcases List.mem_cons.mp hc with rfl | hc
        · exact ⟨by dsimp only; omega, hx⟩
        · exact joinBlocks_block rest _ h2 hr c hc

theorem joinBlocks_ne_nil : ∀ (l : List (Nat × Nat × Nat)) (x : Nat × Nat × Nat),
    0 < x.2.2 ∨ (∃ c ∈ l, 0 < c.2.2) → joinBlocks x l ≠ []
  | [], (i, j, k), h => by
    unfold joinBlocks
    rcases h with h | ⟨c, h, -⟩
    · dsimp only at h; rw [if_neg (by omega)]; simp
    · simp at h
  | (i2, j2, k2) :: rest, (i1, j1, k1), h => by
    unfold joinBlocks
    have hh : 0 < k1 ∨ 0 < k2 ∨ ∃ c ∈ rest, 0 < c.2.2 := by
      rcases h with h | ⟨c, hc, h⟩
      · exact Or.inl h
      · rcases List.mem_cons.mp hc with rfl | hc
        · exact Or.inr (Or.inl h)
        · exact Or.inr (Or.inr ⟨c, hc, h⟩)
    split
    · apply joinBlocks_ne_nil
      rcases hh with h | h | h
      · exact Or.inl (by dsimp only; omega)
      · exact Or.inl (by dsimp only; omega)
      · exact Or.inr h
    · split
      · apply joinBlocks_ne_nil
        rcases hh with h | h | h
        · omega
        · exact Or.inl h
        · exact Or.inr h
      · simp

/-- The name two tiers have in common is a block of both. -/
theorem longestName_block (a b : List Char) : ∃ i j k : Nat, Block a b i j k ∧ longestName a b = (a.drop i).take k := by
  have hall := joinBlocks_block (a := a) (b := b) (matchBlocksN (a.length + 1) 0 0 a b) (0, 0, 0)
    ⟨by simp, by simp, rfl⟩ (fun c hc => (matchBlocksN_whole _ c hc).2)
  unfold longestName matchBlocks
  generalize joinBlocks (0, 0, 0) (matchBlocksN (a.length + 1) 0 0 a b) = l at hall ⊢
  cases l with
  | nil => exact ⟨0, 0, 0, ⟨by simp, by simp, rfl⟩, by simp⟩
  | cons c rest =>
    obtain ⟨i, j, k⟩ := c
    obtain ⟨h1, h2⟩ := hall _ (List.mem_cons_self ..)
    refine ⟨i, j, k, h2, ?_⟩
    dsimp only [List.cons_append] at h1 ⊢
    rw [if_neg (by omega)]

theorem longestName_nil (a b : List Char) (h : longestName a b = []) : (longestMatch a b).2.2 = 0 := by
  apply Classical.byContradiction
  intro hne
  have hne' : joinBlocks (0, 0, 0) (matchBlocksN (a.length + 1) 0 0 a b) ≠ [] := by
    apply joinBlocks_ne_nil
    refine Or.inr ⟨(0 + (longestMatch a b).1, 0 + (longestMatch a b).2.1, (longestMatch a b).2.2), ?_, by dsimp only; omega⟩
    unfold matchBlocksN
    revert hne
    generalize longestMatch a b = x
    obtain ⟨i, j, k⟩ := x
    intro hne
    dsimp only at hne ⊢
    rw [if_neg hne]
    simp
  have hall := joinBlocks_block (a := a) (b := b) (matchBlocksN (a.length + 1) 0 0 a b) (0, 0, 0)
    ⟨by simp, by simp, rfl⟩ (fun c hc => (matchBlocksN_whole _ c hc).2)
  unfold longestName matchBlocks at h
  generalize joinBlocks (0, 0, 0) (matchBlocksN (a.length + 1) 0 0 a b) = l at hall h hne'
  cases l with
  | nil => exact hne' rfl
  | cons c rest =>
    obtain ⟨i, j, k⟩ := c
    obtain ⟨h1, h2⟩ := hall _ (List.mem_cons_self ..)
    dsimp only [List.cons_append] at h1 h h2
    rw [if_neg (by omega)] at h
    have := congrArg List.length h
    rw [List.length_take, List.length_drop] at this
    have := h2.1
    simp at *
    omega

/-- A first candidate that no other beats stays. -/
theorem better_first : ∀ (l : List (Nat × Nat × Nat)) (best : Nat × Nat × Nat),
    (∀ c ∈ l, c.2.2 ≤ best.2.2) → better l best = best
  | [], _, _ => rfl
  | c :: rest, best, h => by
    unfold better
    have := h c (List.mem_cons_self ..)
    rw [if_neg (by omega)]
    exact better_first rest best fun c hc => h c (List.mem_cons_of_mem _ hc)

/-- If no common part is longer than the common start then the common start is the longest match. -/
theorem longestMatch_start (a b : List Char) (h : ∀ i j : Nat, commonLen (a.drop i) (b.drop j) ≤ commonLen a b) :
    longestMatch a b = (0, 0, commonLen a b) := by
  unfold longestMatch
  cases a with
  | nil => rfl
  | cons x xs =>
    cases b with
    | nil =>
      have : ((List.range (x :: xs).length).flatMap fun i => (List.range ([] : List Char).length).map fun j =>
          (i, j, commonLen ((x :: xs).drop i) (([] : List Char).drop j))) = [] := by simp
      rw [this]; rfl
    | cons y ys =>
      generalize hl : ((List.range (x :: xs).length).flatMap fun i => (List.range (y :: ys).length).map fun j =>
          (i, j, commonLen ((x :: xs).drop i) ((y :: ys).drop j))) = l
      have hmem : ∀ c ∈ l, c.2.2 ≤ commonLen (x :: xs) (y :: ys) := by
        intro c hc
        rw [← hl] at hc
        obtain ⟨i, -, hc⟩ := List.mem_flatMap.mp hc
        obtain ⟨j, -, hc⟩ := List.mem_map.mp hc
        rw [← hc]
        exact h i j
      have hhead : ∃ r, l = (0, 0, commonLen (x :: xs) (y :: ys)) :: r := by
        rw [← hl, List.length_cons, List.length_cons, List.range_succ_eq_map, List.range_succ_eq_map]
        exact ⟨_, rfl⟩
      obtain ⟨r, rfl⟩ := hhead
      unfold better
      by_cases hz : 0 < commonLen (x :: xs) (y :: ys)
      · rw [if_pos hz]
        exact better_first _ _ fun c hc => hmem c (List.mem_cons_of_mem _ hc)
      · have e : commonLen (x :: xs) (y :: ys) = 0 := by omega
        rw [e] at hmem ⊢
        rw [if_neg (by simp)]
        exact better_first _ _ fun c hc => hmem c (List.mem_cons_of_mem _ hc)

theorem matchBlocksN_nil_left (n p q : Nat) (b : List Char) : matchBlocksN n p q [] b = [] := by
  cases n with
  | zero => rfl
  | succ n =>
    unfold matchBlocksN
    have : longestMatch [] b = (0, 0, 0) := rfl
    rw [this]; rfl

/-- Then it is the name in common. -/
theorem longestName_start (a b : List Char) (h : ∀ i j : Nat, commonLen (a.drop i) (b.drop j) ≤ commonLen a b) :
    longestName a b = a.take (commonLen a b) := by
  have hm := longestMatch_start a b h
  have hlen := commonLen_le a b
  by_cases hk : commonLen a b = 0
  · unfold longestName matchBlocks matchBlocksN
    rw [hm, hk]
    simp [joinBlocks]
  · have hblocks : matchBlocksN (a.length + 1) 0 0 a b = (0, 0, commonLen a b) ::
        matchBlocksN a.length (commonLen a b) (commonLen a b) (a.drop (commonLen a b)) (b.drop (commonLen a b)) := by
      rw [matchBlocksN, hm]
      dsimp only
      rw [if_neg hk, List.take_zero, List.take_zero, matchBlocksN_nil_left]
      simp
    have hrest : ∀ c ∈ matchBlocksN a.length (commonLen a b) (commonLen a b) (a.drop (commonLen a b))
        (b.drop (commonLen a b)), ¬(c.1 = commonLen a b ∧ c.2.1 = commonLen a b) := by
      intro c hc e
      have e1 : a.drop (commonLen a b) = (a.drop (commonLen a b)).take a.length := by
        rw [List.take_of_length_le (by rw [List.length_drop]; omega)]
      have e2 : b.drop (commonLen a b) = (b.drop (commonLen a b)).take b.length := by
        rw [List.take_of_length_le (by rw [List.length_drop]; omega)]
      rw [e1, e2] at hc
      obtain ⟨g1, -, -, g4⟩ := matchBlocksN_block (a := a) (b := b) _ _ _ _ _ c hc
      rw [e.1, e.2] at g4
      have h0 : Block a b 0 0 (commonLen a b) := ⟨by omega, by omega, by simpa using commonLen_take a b⟩
      have hj := h0.join (l := c.2.2) (by simpa using g4)
      have := commonLen_ge a b _ (by have := hj.1; omega) (by have := hj.2.1; omega) (by simpa using hj.2.2)
      omega
    unfold longestName matchBlocks
    rw [hblocks]
    generalize matchBlocksN a.length (commonLen a b) (commonLen a b) (a.drop (commonLen a b))
        (b.drop (commonLen a b)) = l at hrest ⊢
    rw [joinBlocks, if_pos (by simp)]
    cases l with
    | nil => simp [joinBlocks, hk]
    | cons c rest =>
      obtain ⟨i, j, k⟩ := c
      have := hrest _ (List.mem_cons_self ..)
      dsimp only at this
      rw [joinBlocks, if_neg (by omega), if_neg (by omega)]
      dsimp only [List.cons_append]
      rw [if_neg (by omega)]
      simp

end ATG
