import Verif.Lemmas.Fill
/-!
# The holes of an interval
-/
namespace ATG

theorem sorted_perm_eq {α} (key : α → Time) (l l' : List α) (hp : l.Perm l')
    (hs : l.Pairwise fun a b => key a ≤ key b) (hs' : l'.Pairwise fun a b => key a ≤ key b)
    (hd : ∀ x ∈ l, ∀ y ∈ l, key x = key y → x = y) : l = l' := by
  induction l generalizing l' with
  | nil => simp at hp; exact hp.symm
  | cons x xs ih =>
    cases l' with
    | nil => simp at hp
    | cons y ys =>
      rw [List.pairwise_cons] at hs hs'
      have hxy : x = y := by
        apply hd x (by simp) y (hp.mem_iff.mpr (by simp))
        have h1 : key y ≤ key x := by
          rcases List.mem_cons.mp (hp.mem_iff.mp (List.mem_cons_self (a := x) (l := xs))) with e | e
          · rw [e]; grind
          · exact hs'.1 x e
        have h2 : key x ≤ key y := by
          rcases List.mem_cons.mp (hp.mem_iff.mpr (List.mem_cons_self (a := y) (l := ys))) with e | e
          · rw [e]; grind
          · exact hs.1 y e
        grind
      subst hxy
      congr 1
      exact ih ys (hp.cons_inv) hs.2 hs'.2
        (fun a ha b hb => hd a (by simp [ha]) b (by simp [hb]))

/-- spans of positive length in order, from `a` to `b` -/
def Fits : Time → List (Time × Time) → Time → Prop
  | a, [], b => a ≤ b
  | a, p :: r, b => a ≤ p.1 ∧ p.1 < p.2 ∧ Fits p.2 r b

/-- the holes beyond tolerance -/
def holes : Time → List (Time × Time) → Time → List (Time × Time)
  | a, [], b => if allclose b a then [] else [(a, b)]
  | a, p :: r, b => (if allclose a p.1 then [] else [(a, p.1)]) ++ holes p.2 r b

/-- the spans and their holes -/
def woven : Time → List (Time × Time) → Time → List (Time × Time)
  | a, [], b => if allclose b a then [] else [(a, b)]
  | a, p :: r, b => (if allclose a p.1 then [] else [(a, p.1)]) ++ p :: woven p.2 r b

theorem woven_perm (l : List (Time × Time)) : ∀ a b, (woven a l b).Perm (l ++ holes a l b) := by
  induction l with
  | nil => intro a b; exact List.Perm.refl _
  | cons p r ih =>
    intro a b
    have h1 := ih p.2 b
    show ((if allclose a p.1 then [] else [(a, p.1)]) ++ p :: woven p.2 r b).Perm
      (p :: (r ++ ((if allclose a p.1 then [] else [(a, p.1)]) ++ holes p.2 r b)))
    refine List.perm_middle.trans (List.Perm.cons p ?_)
    refine (List.Perm.append_left _ h1).trans ?_
    rw [← List.append_assoc, ← List.append_assoc]
    exact List.Perm.append_right _ List.perm_append_comm

theorem allclose_refl (a : Time) : allclose a a = true := by
  unfold allclose tabs
  rw [decide_eq_true_iff]
  split <;> split <;> grind

theorem not_allclose_lt {a b : Time} (h : a ≤ b) (hc : allclose a b = false) : a < b := by
  by_cases e : a = b
  · subst e; rw [allclose_refl] at hc; cases hc
  · grind

theorem not_allclose_lt' {a b : Time} (h : a ≤ b) (hc : allclose b a = false) : a < b := by
  by_cases e : a = b
  · subst e; rw [allclose_refl] at hc; cases hc
  · grind

theorem Fits.le {l : List (Time × Time)} : ∀ {a b}, Fits a l b → a ≤ b := by
  induction l with
  | nil => intro a b h; exact h
  | cons p r ih =>
    intro a b h
    have := ih h.2.2
    have := h.1; have := h.2.1
    grind

theorem woven_laid (l : List (Time × Time)) : ∀ a b, Fits a l b →
    Laid (woven a l b) ∧ ∀ p ∈ woven a l b, a ≤ p.1 ∧ p.2 ≤ b := by
  induction l with
  | nil =>
    intro a b h
    unfold woven
    cases e : allclose b a with
    | true => simp [Laid]
    | false =>
      have := not_allclose_lt' h e
      refine ⟨⟨?_, by simp⟩, ?_⟩
      · intro p hp; simp at hp; subst hp; exact this
      · intro p hp; simp at hp; subst hp; constructor <;> grind
  | cons p r ih =>
    intro a b h
    obtain ⟨h1, h2, h3⟩ := h
    obtain ⟨hl, hb⟩ := ih p.2 b h3
    have hle := h3.le
    have hl' : Laid (p :: woven p.2 r b) := by
      refine ⟨?_, ?_⟩
      · intro q hq
        rcases List.mem_cons.mp hq with hq | hq
        · subst hq; exact h2
        · exact hl.1 q hq
      · rw [List.pairwise_cons]
        exact ⟨fun q hq => (hb q hq).1, hl.2⟩
    have hb' : ∀ q ∈ p :: woven p.2 r b, p.1 ≤ q.1 ∧ q.2 ≤ b := by
      intro q hq
      rcases List.mem_cons.mp hq with hq | hq
      · subst hq; exact ⟨by grind, hle⟩
      · have := hb q hq; exact ⟨by grind, this.2⟩
    unfold woven
    cases e : allclose a p.1 with
    | true =>
      simp only [if_true, List.nil_append]
      exact ⟨hl', fun q hq => ⟨by have := (hb' q hq).1; grind, (hb' q hq).2⟩⟩
    | false =>
      have hlt := not_allclose_lt h1 e
      simp only [Bool.false_eq_true, if_false, List.cons_append, List.nil_append]
      refine ⟨⟨?_, ?_⟩, ?_⟩
      · intro q hq
        rcases List.mem_cons.mp hq with hq | hq
        · subst hq; exact hlt
        · exact hl'.1 q hq
      · rw [List.pairwise_cons]
        exact ⟨fun q hq => (hb' q hq).1, hl'.2⟩
      · intro q hq
        rcases List.mem_cons.mp hq with hq | hq
        · subst hq; exact ⟨by grind, by grind⟩
        · exact ⟨by have := (hb' q hq).1; grind, (hb' q hq).2⟩

/-- head, neighbours and last of the woven list are close -/
theorem woven_close (l : List (Time × Time)) : ∀ a b,
    (∀ p, (woven a l b).head? = some p → l ≠ [] → allclose a p.1 = true) ∧
    (∀ (i : Nat) p q, (woven a l b)[i]? = some p → (woven a l b)[i + 1]? = some q → allclose p.2 q.1 = true) ∧
    (∀ p, (woven a l b).getLast? = some p → allclose b p.2 = true) ∧
    (∀ p, (woven a l b).head? = some p → l = [] → p.1 = a) ∧ (woven a l b = [] → allclose b a = true) := by
  induction l with
  | nil =>
    intro a b
    unfold woven
    cases e : allclose b a with
    | true => simp
    | false => simp [allclose_refl]
  | cons p r ih =>
    intro a b
    obtain ⟨h1, h2, h3, h4, h5⟩ := ih p.2 b
    have hnx : ∀ q, (woven p.2 r b).head? = some q → allclose p.2 q.1 = true := by
      intro q hq
      by_cases e : r = []
      · rw [h4 q hq e]; exact allclose_refl _
      · exact h1 q hq e
    have hmid : ∀ (i : Nat) x y, (p :: woven p.2 r b)[i]? = some x → (p :: woven p.2 r b)[i + 1]? = some y →
        allclose x.2 y.1 = true := by
      intro i x y hx hy
      cases i with
      | zero =>
        simp at hx; subst hx
        apply hnx
        rw [List.head?_eq_getElem?]
        simpa using hy
      | succ i => exact h2 i x y (by simpa using hx) (by simpa using hy)
    have hlast : ∀ q, (p :: woven p.2 r b).getLast? = some q → allclose b q.2 = true := by
      intro q hq
      cases e : woven p.2 r b with
      | nil =>
        rw [e] at hq
        simp at hq; subst hq
        exact h5 e
      | cons z zs =>
        apply h3
        rw [e] at hq ⊢
        rw [List.getLast?_cons_cons] at hq
        exact hq
    unfold woven
    cases e : allclose a p.1 with
    | true =>
      simp only [if_true, List.nil_append]
      refine ⟨?_, hmid, hlast, ?_, by simp⟩
      · intro q hq _; simp at hq; subst hq; exact e
      · simp
    | false =>
      simp only [Bool.false_eq_true, if_false, List.cons_append, List.nil_append]
      refine ⟨?_, ?_, ?_, by simp, by simp⟩
      · intro q hq _; simp at hq; subst hq; exact allclose_refl _
      · intro i x y hx hy
        cases i with
        | zero =>
          simp at hx hy; subst hx; subst hy; exact allclose_refl _
        | succ i => exact hmid i x y (by simpa using hx) (by simpa using hy)
      · intro q hq
        rw [List.getLast?_cons_cons] at hq
        exact hlast q hq

/-- the spans `cleanup` computes are the holes -/
theorem cleanupSpans_perm (h : Heap) (w : Ref) (hne : (h.subs w).vals ≠ []) :
    (cleanupSpans h w).Perm (holes (h.start w) ((h.subs w).vals.map h.span) (h.stop w)) := by
  unfold cleanupSpans
  cases e : (h.subs w).vals with
  | nil => exact absurd e hne
  | cons x xs =>
    simp only []
    have key : ∀ (xs : List Ref) (x : Ref), ((if allclose (h.stop w) (h.stop ((x :: xs).getLast (by simp))) then []
        else [(h.stop ((x :: xs).getLast (by simp)), h.stop w)]) ++
        (((x :: xs).zip xs).filterMap fun p =>
          if allclose (h.stop p.1) (h.start p.2) then none else some (h.stop p.1, h.start p.2))).Perm
        (holes (h.stop x) (xs.map h.span) (h.stop w)) := by
      intro xs
      induction xs with
      | nil => intro x; simp only [List.map_nil, holes, List.zip_nil_right, List.filterMap_nil, List.append_nil, List.getLast_singleton]; exact List.Perm.refl _
      | cons y ys ih =>
        intro x
        have := ih y
        simp only [List.zip_cons_cons, List.map_cons, holes]
        have e1 : (x :: y :: ys).getLast (by simp) = (y :: ys).getLast (by simp) := by simp
        rw [e1]
        rw [List.filterMap_cons]
        have hsp : (h.span y).1 = h.start y := rfl
        have hsp2 : (h.span y).2 = h.stop y := rfl
        rw [hsp, hsp2]
        cases q : allclose (h.stop x) (h.start y) with
        | true => simpa using this
        | false =>
          simp only [Bool.false_eq_true, if_false, List.cons_append, List.nil_append]
          exact List.perm_middle.trans (List.Perm.cons _ this)
    rw [List.append_assoc]
    exact List.Perm.append_left _ (key xs x)

end ATG
