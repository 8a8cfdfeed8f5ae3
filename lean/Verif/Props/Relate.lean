import Verif.Lemmas.Assign
import Verif.Model.Group
import Verif.Spec.Basic
/-!
# C23: assigning lower intervals to upper ones (`sequences/tiers.py:401-462`)
-/
namespace ATG

/-- The `i`-th lower interval is assigned to exactly one upper interval: the first among those with which
    it shares most. No assumption on the tiers except that there is an upper interval. -/
theorem C23_greatest (us ls : List (Time × Time)) (hne : us ≠ []) (i : Nat) (l : Time × Time)
    (hl : ls[i]? = some l) :
    ∃ k u, (containers us ls)[i]? = some k ∧ us[k]? = some u ∧ (∀ u' ∈ us, shared l u' ≤ shared l u) ∧
      ∀ j u', j < k → us[j]? = some u' → shared l u' < shared l u := by
  have hs := argmax_spec (us.map (overlap l)) (by simpa using hne)
  obtain ⟨v, h1, h2, h3⟩ := hs
  rw [List.getElem?_map] at h1
  cases hu : us[argmax (us.map (overlap l))]? with
  | none => simp [hu] at h1
  | some u =>
    simp only [hu, Option.map_some, Option.some.injEq] at h1
    subst h1
    refine ⟨argmax (us.map (overlap l)), u, ?_, hu, ?_, ?_⟩
    · simp [containers, hl]
    · intro u' hu'; exact h2 _ (List.mem_map.mpr ⟨u', hu', rfl⟩)
    · intro j u' hj hu'
      exact h3 j _ hj (by simp [hu', overlap, shared])

/-- With sorted boundaries on both tiers a later lower interval is never assigned to an earlier upper
    one. -/
theorem C23_monotone (us ls : List (Time × Time)) (hne : us ≠ []) (hu : SortedSpans us)
    (hl : SortedSpans ls) (i j k m : Nat) (hij : i ≤ j) (hi : (containers us ls)[i]? = some k)
    (hj : (containers us ls)[j]? = some m) : k ≤ m := by
  rcases Nat.lt_or_ge i j with h | h
  · exact pairwise_get? (containers_mono us ls hne hu hl) h hi hj
  · have : i = j := by omega
    subst this; rw [hi] at hj; cases hj; exact Nat.le_refl _

/-- So the slices partition the lower tier in order: joined they are the lower tier, there is one per upper
    interval, and the `k`-th lists the entries assigned to `k`. -/
theorem C23_partition {α} (us ls : List (Time × Time)) (lower : List α) (hne : us ≠ [])
    (hu : SortedSpans us) (hl : SortedSpans ls) (hlen : lower.length = ls.length) :
    (slices (containers us ls) lower us.length).flatten = lower ∧
    (slices (containers us ls) lower us.length).length = us.length ∧
    ∀ k, k < us.length → (slices (containers us ls) lower us.length)[k]? =
      some (((lower.zip (containers us ls)).filter fun p => p.2 == k).map (·.1)) := by
  have hm := containers_mono us ls hne hu hl
  have hlen' : (containers us ls).length = lower.length := by rw [containers_length, hlen]
  rw [slices_eq _ lower _ hlen' hm]
  refine ⟨assignedTo_flatten _ lower hlen' hm _ ?_, by simp, ?_⟩
  · intro k hk
    unfold containers at hk
    obtain ⟨l, _, rfl⟩ := List.mem_map.mp hk
    obtain ⟨v, h1, _⟩ := argmax_spec (us.map (overlap l)) (by simpa using hne)
    have := getElem?_lt h1
    simpa using this
  · intro k hk
    simp [hk, assignedTo]

/-- three words, seven phones, one of which straddles a word boundary -/
def exUs : List (Time × Time) := [(0, 3), (3, 5), (5, 9)]
/-- see `exUs` -/
def exLs : List (Time × Time) := [(0, 1), (1, 2), (2, 7/2), (7/2, 5), (5, 6), (6, 7), (7, 9)]

example : exUs ≠ [] ∧ SortedSpans exUs ∧ SortedSpans exLs ∧ containers exUs exLs = [0, 0, 0, 1, 2, 2, 2] ∧
    slices (containers exUs exLs) [10, 11, 12, 13, 14, 15, 16] 3 = [[10, 11, 12], [13], [14, 15, 16]] := by
  decide +kernel

/-- When only the starts are sorted (a long lower interval encloses later ones), a lower interval can be
    put into two slices: the code takes everything between the first and the last assigned index. -/
theorem C23_enclosed_violated : ∃ (us ls : List (Time × Time)), us ≠ [] ∧ SortedSpans us ∧
    ls.Pairwise (fun p q => p.1 ≤ q.1) ∧
    slices (containers us ls) [10, 11, 12] us.length = [[10, 11, 12], [11]] :=
  ⟨[(0, 2), (2, 10)], [(0, 1), (0, 10), (1, 2)], by decide +kernel⟩

end ATG
