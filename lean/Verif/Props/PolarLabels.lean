import Verif.Model.Polar
/-!
# C84: what the labels of a PoLaR annotation say
-/
namespace ATG

/-! ## Certainty -/

/-- C84: a label is uncertain exactly if there is a `?` in it, anywhere. -/
theorem C84_certain (l : List Char) : certain l = true ↔ '?' ∉ l := by
  unfold certain
  simp

/-- C84: a `?` put anywhere into the label of a level makes it uncertain and does not change the level. -/
theorem C84_level (int : List Char → Option Int) (l r : List Char) :
    certain (l ++ '?' :: r) = false ∧ levelOf int (l ++ '?' :: r) = levelOf int (l ++ r) := by
  refine ⟨?_, ?_⟩
  · unfold certain
    simp
  · unfold levelOf
    rw [show (l ++ '?' :: r).filter (· ≠ '?') = (l ++ r).filter (· ≠ '?') by simp [List.filter_append]]

example : levelOf (fun l => if l = ['3'] then some 3 else none) ['3', '?'] = .ok 3 ∧ certain ['3', '?'] = false ∧
    certain ['3'] = true := by decide

/-! ## Status -/

/-- C84: the status of a label with a `*` is `prominence`, that of any other label with a `]` is `edge`; a `?` that
    is put into such a label changes nothing.
    `_partial`: for other labels see `C84_status_violated`. -/
theorem C84_status_partial (l r : List Char) (h : '*' ∈ l ++ r ∨ ']' ∈ l ++ r) :
    ('*' ∈ l ++ r → statusOf (l ++ r) = "prominence".toList) ∧ ('*' ∉ l ++ r → statusOf (l ++ r) = "edge".toList) ∧
      statusOf (l ++ '?' :: r) = statusOf (l ++ r) := by
  have e : ∀ c, c ≠ '?' → (l ++ '?' :: r).contains c = (l ++ r).contains c := by
    intro c hc
    rw [Bool.eq_iff_iff]
    simp [List.mem_append, List.mem_cons, hc]
  refine ⟨?_, ?_, ?_⟩
  · intro hs
    unfold statusOf
    rw [if_pos (List.contains_iff_mem.mpr hs)]
  · intro hs
    unfold statusOf
    rw [if_neg (fun q => hs (List.contains_iff_mem.mp q)), if_pos (List.contains_iff_mem.mpr (h.resolve_left hs))]
  · unfold statusOf
    rw [e '*' (by decide), e ']' (by decide)]
    rcases h with h | h
    · rw [if_pos (List.contains_iff_mem.mpr h), if_pos (List.contains_iff_mem.mpr h)]
    · rw [if_pos (List.contains_iff_mem.mpr h), if_pos (List.contains_iff_mem.mpr h)]

example : statusOf "*?]".toList = "prominence".toList ∧ statusOf "?]".toList = "edge".toList := by decide

/-- C84 fails for every label with neither `*` nor `]`: the documentation promises `edge` or `prominence`, the status
    is the label itself (with a warning), so a `?` in it changes the status; and a label spelled `edge` without any
    bracket has the status of an edge. -/
theorem C84_status_violated :
    (∀ l : List Char, '*' ∉ l → ']' ∉ l → statusOf l = l) ∧
    statusOf "a".toList ≠ "prominence".toList ∧ statusOf "a".toList ≠ "edge".toList ∧
    statusOf "a?".toList ≠ statusOf "a".toList ∧ statusOf "edge".toList = statusOf "]".toList := by
  refine ⟨?_, by decide, by decide, by decide, by decide⟩
  intro l h1 h2
  unfold statusOf
  rw [if_neg (fun q => h1 (List.contains_iff_mem.mp q)), if_neg (fun q => h2 (List.contains_iff_mem.mp q))]

/-! ## Override -/

theorem splitChar_ne_nil (c : Char) (l : List Char) : splitChar c l ≠ [] := by
  cases l with
  | nil => simp [splitChar]
  | cons x xs =>
    unfold splitChar
    split
    · simp
    · split <;> simp

theorem splitChar_single (c : Char) (l : List Char) (h : c ∉ l) : splitChar c l = [l] := by
  induction l with
  | nil => rfl
  | cons x xs ih =>
    unfold splitChar
    rw [if_neg (fun e => h (by simp [e])), ih (fun q => h (List.mem_cons_of_mem _ q))]

theorem splitChar_last (c : Char) (l r : List Char) (h : c ∉ r) : (splitChar c (l ++ c :: r)).getLast? = some r := by
  induction l with
  | nil =>
    show (splitChar c (c :: r)).getLast? = some r
    unfold splitChar
    rw [if_pos rfl, splitChar_single c r h]
    rfl
  | cons x xs ih =>
    show (splitChar c (x :: (xs ++ c :: r))).getLast? = some r
    unfold splitChar
    split
    · rw [List.getLast?_cons_of_ne_nil (splitChar_ne_nil c _)]; exact ih
    · -- the first part grows, the last one stays
      cases hq : splitChar c (xs ++ c :: r) with
      | nil => exact absurd hq (splitChar_ne_nil c _)
      | cons y ys =>
        rw [hq] at ih
        cases ys with
        | nil =>
          -- there are at least two parts
          exfalso
          have : ∀ ms : List Char, (splitChar c (ms ++ c :: r)).length ≥ 2 := by
            intro ms
            induction ms with
            | nil =>
              show (splitChar c (c :: r)).length ≥ 2
              unfold splitChar
              rw [if_pos rfl, splitChar_single c r h]
              simp
            | cons m ms ihm =>
              show (splitChar c (m :: (ms ++ c :: r))).length ≥ 2
              unfold splitChar
              split
              · simp only [List.length_cons]; omega
              · cases hz : splitChar c (ms ++ c :: r) with
                | nil => exact absurd hz (splitChar_ne_nil c _)
                | cons a as => rw [hz] at ihm; simpa using ihm
          have := this xs
          rw [hq] at this
          simp at this
        | cons z zs => simpa using ih

/-- C84: the override of a turning point is what follows the last comma of its label, and there is none if that is
    `0`; without a comma it is the whole label, and there is none if that is `0`. -/
theorem C84_override (l v : List Char) (h : ',' ∉ v) :
    overrideOf (l ++ ',' :: v) = (if v = ['0'] then none else some v) ∧
    overrideOf v = (if v = ['0'] then none else some v) := by
  unfold overrideOf
  rw [splitChar_last ',' l v h, splitChar_single ',' v h]
  exact ⟨rfl, rfl⟩

example : overrideOf "0,120".toList = some "120".toList ∧ overrideOf "0".toList = none := by decide

/-- C84 fails: the label `0?`, an uncertain turning point without an override, and the empty label give overrides; and
    a label with an override of 0 gives none. -/
theorem C84_override_violated :
    overrideOf "0".toList = none ∧ overrideOf "0?".toList = some "0?".toList ∧ overrideOf [] = some [] ∧
      overrideOf "1,0".toList = none := by decide

end ATG
