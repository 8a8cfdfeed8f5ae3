import Verif.Lemmas.IvalCleanup
/-!
# More on the woven list
-/
namespace ATG

theorem holes_woven (l : List (Time × Time)) : ∀ a b, holes a (woven a l b) b = [] := by
  induction l with
  | nil =>
    intro a b
    unfold woven
    cases e : allclose b a with
    | true => simp [holes, e]
    | false => simp [holes, allclose_refl]
  | cons p r ih =>
    intro a b
    unfold woven
    cases e : allclose a p.1 with
    | true => simp [holes, e, ih]
    | false => simp [holes, allclose_refl, ih]

/-- what is left uncovered lies between spans of the list -/
theorem woven_exact (l : List (Time × Time)) : ∀ a b,
    (∀ p, (woven a l b).head? = some p → p.1 ≠ a → p ∈ l) ∧
    (∀ (i : Nat) p q, (woven a l b)[i]? = some p → (woven a l b)[i + 1]? = some q → p.2 ≠ q.1 → p ∈ l ∧ q ∈ l) ∧
    (∀ p, (woven a l b).getLast? = some p → p.2 ≠ b → p ∈ l) := by
  induction l with
  | nil =>
    intro a b
    unfold woven
    cases e : allclose b a with
    | true => simp
    | false => simp
  | cons p r ih =>
    intro a b
    obtain ⟨h1, h2, h3⟩ := ih p.2 b
    have hmid : ∀ (i : Nat) x y, (p :: woven p.2 r b)[i]? = some x → (p :: woven p.2 r b)[i + 1]? = some y →
        x.2 ≠ y.1 → x ∈ p :: r ∧ y ∈ p :: r := by
      intro i x y hx hy hne
      cases i with
      | zero =>
        simp at hx; subst hx
        refine ⟨by simp, List.mem_cons_of_mem _ (h1 y ?_ (Ne.symm hne))⟩
        rw [List.head?_eq_getElem?]
        simpa using hy
      | succ i =>
        have := h2 i x y (by simpa using hx) (by simpa using hy) hne
        exact ⟨List.mem_cons_of_mem _ this.1, List.mem_cons_of_mem _ this.2⟩
    have hlast : ∀ q, (p :: woven p.2 r b).getLast? = some q → q.2 ≠ b → q ∈ p :: r := by
      intro q hq hne
      cases e : woven p.2 r b with
      | nil =>
        rw [e] at hq
        simp at hq; subst hq
        simp
      | cons z zs =>
        apply List.mem_cons_of_mem
        apply h3 q _ hne
        rw [e] at hq ⊢
        rw [List.getLast?_cons_cons] at hq
        exact hq
    unfold woven
    cases e : allclose a p.1 with
    | true =>
      simp only [if_true, List.nil_append]
      refine ⟨?_, hmid, hlast⟩
      intro q hq _; simp at hq; subst hq; simp
    | false =>
      simp only [Bool.false_eq_true, if_false, List.cons_append, List.nil_append]
      refine ⟨?_, ?_, ?_⟩
      · intro q hq hne; simp at hq; subst hq; exact absurd rfl hne
      · intro i x y hx hy hne
        cases i with
        | zero =>
          simp at hx hy; subst hx; subst hy; exact absurd rfl hne
        | succ i => exact hmid i x y (by simpa using hx) (by simpa using hy) hne
      · intro q hq hne
        rw [List.getLast?_cons_cons] at hq
        exact hlast q hq hne

theorem fits_of (l : List (Time × Time)) : ∀ a b, a ≤ b → Laid l → (∀ p ∈ l, a ≤ p.1 ∧ p.2 ≤ b) → Fits a l b := by
  induction l with
  | nil => intro a b h _ _; exact h
  | cons p r ih =>
    intro a b _ hl hb
    obtain ⟨h1, h2⟩ := hl
    rw [List.pairwise_cons] at h2
    refine ⟨(hb p (by simp)).1, h1 p (by simp), ih p.2 b (hb p (by simp)).2 ⟨fun q hq => h1 q (by simp [hq]), h2.2⟩ ?_⟩
    intro q hq
    exact ⟨h2.1 q hq, (hb q (by simp [hq])).2⟩

end ATG
