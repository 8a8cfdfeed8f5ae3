import Verif.Spec.Basic
/-!
# Positions in flattened lists
-/
namespace ATG

/-- what holds for all pairs of elements at the same place of two lists of lists of the same shape holds after flattening -/
theorem flat_at {α β} {R : α → β → Prop} : ∀ (as : List (List α)) (bs : List (List β)), as.map List.length = bs.map List.length →
    (∀ (i : Nat) (x : List α) (y : List β), as[i]? = some x → bs[i]? = some y →
      ∀ (j : Nat) (a : α) (b : β), x[j]? = some a → y[j]? = some b → R a b) →
    ∀ (n : Nat) (a : α) (b : β), as.flatten[n]? = some a → bs.flatten[n]? = some b → R a b := by
  intro as
  induction as with
  | nil => intro bs _ _ n a b e; cases e
  | cons x as ih =>
    intro bs hl hr n a b ha hb
    cases bs with
    | nil => cases hb
    | cons y bs =>
      rw [List.map_cons, List.map_cons, List.cons.injEq] at hl
      rw [List.flatten_cons] at ha hb
      by_cases hn : n < x.length
      · rw [List.getElem?_append_left hn] at ha
        rw [List.getElem?_append_left (hl.1 ▸ hn)] at hb
        exact hr 0 x y rfl rfl n a b ha hb
      · rw [List.getElem?_append_right (by omega)] at ha
        rw [List.getElem?_append_right (by omega), ← hl.1] at hb
        exact ih bs hl.2 (fun i u v hu hv => hr (i + 1) u v hu hv) _ a b ha hb

/-- the last element with a property -/
theorem filter_getLast {α} (p : α → Bool) : ∀ (l : List α) (i : Nat) (a : α), l[i]? = some a → p a = true →
    (∀ (j : Nat) b, i < j → l[j]? = some b → p b = false) → (l.filter p).getLast? = some a := by
  intro l i a ha hp hn
  obtain ⟨hi, rfl⟩ := List.getElem?_eq_some_iff.mp ha
  have hs : l = l.take i ++ l[i] :: l.drop (i + 1) := by rw [List.getElem_cons_drop, List.take_append_drop]
  have hd : (l.drop (i + 1)).filter p = [] := by
    apply List.filter_eq_nil_iff.mpr
    intro b hb
    obtain ⟨j, hj⟩ := List.mem_iff_getElem?.mp hb
    rw [List.getElem?_drop] at hj
    rw [hn (i + 1 + j) b (by omega) hj]
    simp
  rw [congrArg (List.filter p) hs, List.filter_append, List.filter_cons_of_pos hp, hd, List.getLast?_append]
  rfl

end ATG
