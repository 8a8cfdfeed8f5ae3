import Std.Data.String.ToNat
/-!
# Joining strings
-/
namespace ATG

theorem split_last {α} (c : α) (a b d e : List α) (hd : c ∉ d) (he : c ∉ e) (h : a ++ c :: d = b ++ c :: e) :
    a = b ∧ d = e := by
  induction a generalizing b with
  | nil =>
    cases b with
    | nil => simpa using h
    | cons x b =>
      simp only [List.nil_append, List.cons_append, List.cons.injEq] at h
      exact absurd (by rw [h.2]; simp) hd
  | cons x a ih =>
    cases b with
    | nil =>
      simp only [List.nil_append, List.cons_append, List.cons.injEq] at h
      exact absurd (by rw [← h.2]; simp) he
    | cons y b =>
      simp only [List.cons_append, List.cons.injEq] at h
      have := ih b h.2
      exact ⟨by rw [h.1, this.1], this.2⟩

theorem split_first {α} (c : α) (a b d e : List α) (ha : c ∉ a) (hb : c ∉ b) (h : a ++ c :: d = b ++ c :: e) :
    a = b ∧ d = e := by
  induction a generalizing b with
  | nil =>
    cases b with
    | nil => simpa using h
    | cons x b =>
      simp only [List.nil_append, List.cons_append, List.cons.injEq] at h
      exact absurd (by rw [h.1]; simp) hb
  | cons x a ih =>
    cases b with
    | nil =>
      simp only [List.nil_append, List.cons_append, List.cons.injEq] at h
      exact absurd (by rw [← h.1]; simp) ha
    | cons y b =>
      simp only [List.cons_append, List.cons.injEq] at h
      have := ih b (fun q => ha (by simp [q])) (fun q => hb (by simp [q])) h.2
      exact ⟨by rw [h.1, this.1], this.2⟩

theorem digits_isDigit (n : Nat) (c : Char) (hc : c ∈ (toString n).toList) : c.isDigit = true := by
  rw [show toString n = n.repr from rfl, Nat.toList_repr] at hc
  exact Nat.isDigit_of_mem_toDigits (by decide) (by decide) hc

theorem digits_ne_nil (n : Nat) : (toString n).toList ≠ [] := by
  rw [show toString n = n.repr from rfl, Nat.toList_repr]; exact Nat.toDigits_ne_nil

theorem toString_inj {m n : Nat} (h : toString m = toString n) : m = n := Nat.repr_injective h

/-- a name with a number attached gives back both -/
theorem numbered_inj (a b : String) (j k : Nat) (h : a ++ "_" ++ toString j = b ++ "_" ++ toString k) : a = b ∧ j = k := by
  have hl := congrArg String.toList h
  simp only [String.toList_append] at hl
  have : a.toList ++ '_' :: (toString j).toList = b.toList ++ '_' :: (toString k).toList := by simpa using hl
  obtain ⟨h1, h2⟩ := split_last '_' _ _ _ _ (fun q => by simpa using digits_isDigit j _ q)
    (fun q => by simpa using digits_isDigit k _ q) this
  exact ⟨String.toList_inj.mp h1, toString_inj (String.toList_inj.mp h2)⟩

end ATG
