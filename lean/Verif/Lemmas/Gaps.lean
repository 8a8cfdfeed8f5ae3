import Verif.Lemmas.Aligned
import Verif.Spec.Gaps
/-!
# The gaps between non-overlapping spans
-/
namespace ATG

/-- the boundaries in order -/
def bnds : List (Time × Time) → List Time
  | [] => []
  | [p] => [p.1, p.2]
  | p :: q :: r => if p.2 = q.1 then p.1 :: bnds (q :: r) else p.1 :: p.2 :: bnds (q :: r)

theorem Laid.tail {p : Time × Time} {l : List (Time × Time)} (h : Laid (p :: l)) : Laid l :=
  ⟨fun q hq => h.1 q (by simp [hq]), (List.pairwise_cons.mp h.2).2⟩

theorem Laid.head {p : Time × Time} {l : List (Time × Time)} (h : Laid (p :: l)) :
    p.1 < p.2 ∧ ∀ q ∈ l, p.2 ≤ q.1 ∧ p.2 ≤ q.2 := by
  refine ⟨h.1 p (by simp), fun q hq => ?_⟩
  have h1 := (List.pairwise_cons.mp h.2).1 q hq
  have h2 := h.1 q (by simp [hq])
  exact ⟨h1, by grind⟩

theorem bnds_head (p : Time × Time) (l : List (Time × Time)) : ∃ r, bnds (p :: l) = p.1 :: r := by
  cases l with
  | nil => exact ⟨_, rfl⟩
  | cons q l =>
    unfold bnds
    split
    · exact ⟨_, rfl⟩
    · exact ⟨_, rfl⟩

theorem mem_bnds (l : List (Time × Time)) : ∀ b, b ∈ bnds l ↔ b ∈ l.map (·.1) ∨ b ∈ l.map (·.2) := by
  match l with
  | [] => simp [bnds]
  | [p] => intro b; simp [bnds]
  | p :: q :: r =>
    intro b
    have ih := mem_bnds (q :: r) b
    unfold bnds
    split
    · rename_i e
      rw [List.mem_cons, ih]
      simp only [List.map_cons, List.mem_cons]
      grind
    · rw [List.mem_cons, List.mem_cons, ih]
      simp only [List.map_cons, List.mem_cons]
      grind

theorem bnds_ge {p : Time × Time} {l : List (Time × Time)} (h : Laid (p :: l)) : ∀ b ∈ bnds (p :: l), p.1 ≤ b := by
  intro b hb
  obtain ⟨h1, h2⟩ := h.head
  rcases (mem_bnds _ b).mp hb with hb | hb
  · obtain ⟨q, hq, rfl⟩ := List.mem_map.mp hb
    rcases List.mem_cons.mp hq with e | hq
    · subst e; grind
    · have := h2 q hq; grind
  · obtain ⟨q, hq, rfl⟩ := List.mem_map.mp hb
    rcases List.mem_cons.mp hq with e | hq
    · subst e; grind
    · have := h2 q hq; grind

theorem bnds_sorted (l : List (Time × Time)) (h : Laid l) : (bnds l).Pairwise (· < ·) := by
  match l with
  | [] => simp [bnds]
  | [p] => have := h.head.1; simp [bnds]; exact this
  | p :: q :: r =>
    have ih := bnds_sorted (q :: r) h.tail
    have hq := bnds_ge h.tail
    have h1 := h.head
    have h2 := h1.2 q (by simp)
    unfold bnds
    split
    · rw [List.pairwise_cons]
      exact ⟨fun b hb => by have := hq b hb; grind, ih⟩
    · rw [List.pairwise_cons, List.pairwise_cons]
      refine ⟨fun b hb => ?_, fun b hb => ?_, ih⟩
      · rcases List.mem_cons.mp hb with e | hb
        · grind
        · have := hq b hb; grind
      · have := hq b hb; grind

/-- strictly increasing lists with the same members are equal -/
theorem strict_ext : ∀ (a b : List Time), a.Pairwise (· < ·) → b.Pairwise (· < ·) → (∀ x, x ∈ a ↔ x ∈ b) → a = b := by
  intro a
  induction a with
  | nil =>
    intro b _ _ h
    cases b with
    | nil => rfl
    | cons y b => have := (h y).mpr (by simp); simp at this
  | cons x a ih =>
    intro b ha hb h
    cases b with
    | nil => have := (h x).mp (by simp); simp at this
    | cons y b =>
      rw [List.pairwise_cons] at ha hb
      have hxy : x = y := by
        have h1 := (h x).mp (by simp)
        have h2 := (h y).mpr (by simp)
        rcases List.mem_cons.mp h1 with h1 | h1
        · exact h1
        · rcases List.mem_cons.mp h2 with h2 | h2
          · exact h2.symm
          · have := ha.1 y h2
            have := hb.1 x h1
            grind
      subst hxy
      congr 1
      apply ih b ha.2 hb.2
      intro z
      constructor
      · intro hz
        rcases List.mem_cons.mp ((h z).mp (by simp [hz])) with e | e
        · subst e; have := ha.1 z hz; grind
        · exact e
      · intro hz
        rcases List.mem_cons.mp ((h z).mpr (by simp [hz])) with e | e
        · subst e; have := hb.1 z hz; grind
        · exact e

theorem uniq_bnds (l : List (Time × Time)) (h : Laid l) : uniq (l.map (·.1) ++ l.map (·.2)) = bnds l := by
  apply strict_ext _ _ (uniq_sorted _) (bnds_sorted l h)
  intro x
  rw [mem_uniq, List.mem_append, mem_bnds]

theorem newStarts_eq (l : List (Time × Time)) (h : Laid l) (S : List Time)
    (hS : ∀ b ∈ bnds l, b ∈ S ↔ b ∈ l.map (·.1)) :
    (bnds l).dropLast.filter (fun b => !S.contains b) = (gapsOf l).map (·.1) := by
  match l with
  | [] => simp [bnds, gapsOf]
  | [p] =>
    have : p.1 ∈ S := (hS p.1 (by simp [bnds])).mpr (by simp)
    simp [bnds, gapsOf, this]
  | p :: q :: r =>
    have h1 := h.head
    have hq := h1.2 q (by simp)
    have ih := newStarts_eq (q :: r) h.tail S (by
      intro b hb
      have hge := bnds_ge h.tail b hb
      rw [hS b (by unfold bnds; split <;> simp [hb])]
      rw [List.map_cons, List.mem_cons]
      constructor
      · rintro (e | e)
        · grind
        · exact e
      · exact Or.inr)
    have hne : bnds (q :: r) ≠ [] := by obtain ⟨x, hx⟩ := bnds_head q r; rw [hx]; simp
    have hp : p.1 ∈ S := (hS p.1 (by obtain ⟨x, hx⟩ := bnds_head p (q :: r); rw [hx]; simp)).mpr (by simp)
    unfold bnds gapsOf
    split
    · rw [List.dropLast_cons_of_ne_nil hne, List.filter_cons]
      simp only [List.contains_iff_mem.mpr hp, Bool.not_true, Bool.false_eq_true, if_false]
      exact ih
    · rename_i hne2
      rw [List.dropLast_cons_of_ne_nil (by simp), List.dropLast_cons_of_ne_nil hne, List.filter_cons, List.filter_cons]
      have hp2 : p.2 ∉ S := by
        rw [hS p.2 (by unfold bnds; rw [if_neg hne2]; simp)]
        intro hm
        rw [List.map_cons, List.mem_cons] at hm
        rcases hm with e | hm
        · grind
        · obtain ⟨z, hz, e⟩ := List.mem_map.mp hm
          rcases List.mem_cons.mp hz with e2 | hz
          · subst e2; exact hne2 e.symm
          · have := (h.tail.head).2 z hz
            have := (h.tail.head).1
            grind
      have hc : S.contains p.2 = false := by rw [← Bool.not_eq_true, List.contains_iff_mem]; exact hp2
      simp only [List.contains_iff_mem.mpr hp, hc, Bool.not_true, Bool.false_eq_true, if_false, Bool.not_false,
        if_true, List.map_cons]
      rw [ih]

theorem newEnds_eq (l : List (Time × Time)) (h : Laid l) (E : List Time)
    (hE : ∀ b ∈ (bnds l).tail, b ∈ E ↔ b ∈ l.map (·.2)) :
    (bnds l).tail.filter (fun b => !E.contains b) = (gapsOf l).map (·.2) := by
  match l with
  | [] => simp [bnds, gapsOf]
  | [p] =>
    have : p.2 ∈ E := (hE p.2 (by simp [bnds])).mpr (by simp)
    simp [bnds, gapsOf, this]
  | p :: q :: r =>
    have h1 := h.head
    have hq := h1.2 q (by simp)
    obtain ⟨tl, htl⟩ := bnds_head q r
    have hs := bnds_sorted (q :: r) h.tail
    rw [htl, List.pairwise_cons] at hs
    have hsub : ∀ b ∈ bnds (q :: r), b ∈ (bnds (p :: q :: r)).tail := by
      intro b hb; rw [bnds]; split <;> simp [hb]
    have ih := newEnds_eq (q :: r) h.tail E (by
      intro b hb
      have hb' : b ∈ bnds (q :: r) := List.mem_of_mem_tail hb
      rw [htl] at hb
      have hgt := hs.1 b (by simpa using hb)
      rw [hE b (hsub b hb')]
      rw [List.map_cons, List.mem_cons]
      constructor
      · rintro (e | e)
        · grind
        · exact e
      · exact Or.inr)
    have hqE : q.1 ∈ E ↔ p.2 = q.1 := by
      rw [hE q.1 (hsub q.1 (by rw [htl]; simp))]
      constructor
      · intro hm
        rw [List.map_cons, List.mem_cons] at hm
        rcases hm with e | hm
        · exact e.symm
        · exfalso
          obtain ⟨z, hz, e⟩ := List.mem_map.mp hm
          have hqq := h.tail.head
          rcases List.mem_cons.mp hz with e2 | hz
          · subst e2; grind
          · have := hqq.2 z hz; grind
      · intro e; rw [← e]; simp
    have key : (bnds (q :: r)).filter (fun b => !E.contains b) =
        (if p.2 = q.1 then [] else [q.1]) ++ (gapsOf (q :: r)).map (·.2) := by
      rw [← ih, htl, List.filter_cons]
      by_cases e : p.2 = q.1
      · have := hqE.mpr e
        simp [this, e]
      · have : ¬ q.1 ∈ E := fun hh => e (hqE.mp hh)
        simp [this, e]
    rw [bnds, gapsOf]
    by_cases e : p.2 = q.1
    · rw [if_pos e, if_pos e, List.tail_cons, key, if_pos e]; rfl
    · have hpE : p.2 ∈ E := (hE p.2 (by rw [bnds, if_neg e]; simp)).mpr (by simp)
      rw [if_neg e, if_neg e, List.tail_cons, List.filter_cons, key, if_neg e]
      simp [hpE]

theorem gapPairs_eq (l : List (Time × Time)) (h : Laid l) :
    gapPairs (l.map (·.1)) (l.map (·.2)) = gapsOf l := by
  unfold gapPairs
  simp only []
  rw [uniq_bnds l h, newStarts_eq l h _ (fun _ _ => Iff.rfl), newEnds_eq l h _ (fun _ _ => Iff.rfl)]
  rw [List.zip_map']
  simp

/-- the first gap splits the spans: no gap before it, the other gaps behind -/
theorem gapsOf_split (l : List (Time × Time)) : ∀ s e G, gapsOf l = (s, e) :: G → ∃ A a b B,
    l = A ++ a :: b :: B ∧ a.2 = s ∧ b.1 = e ∧ s ≠ e ∧ gapsOf (A ++ [a]) = [] ∧ gapsOf (b :: B) = G := by
  match l with
  | [] => intro s e G h; simp [gapsOf] at h
  | [p] => intro s e G h; simp [gapsOf] at h
  | p :: q :: r =>
    intro s e G h
    unfold gapsOf at h
    split at h
    · rename_i hpq
      obtain ⟨A, a, b, B, h1, h2, h3, h4, h5, h6⟩ := gapsOf_split (q :: r) s e G h
      refine ⟨p :: A, a, b, B, by rw [h1]; rfl, h2, h3, h4, ?_, h6⟩
      cases A with
      | nil =>
        simp at h1
        simp [gapsOf]
        rw [← h1.1]; exact hpq
      | cons x A =>
        simp at h1
        rw [← h1.1] at h5 ⊢
        simp only [List.cons_append] at h5 ⊢
        unfold gapsOf
        rw [if_pos hpq]; exact h5
    · rename_i hpq
      simp at h
      obtain ⟨⟨rfl, rfl⟩, rfl⟩ := h
      exact ⟨[], p, q, r, rfl, rfl, rfl, hpq, rfl, rfl⟩

theorem gapsOf_append (A : List (Time × Time)) (a b : Time × Time) (B : List (Time × Time)) (h : a.2 = b.1) :
    gapsOf (A ++ a :: b :: B) = gapsOf (A ++ [a]) ++ gapsOf (b :: B) := by
  match A with
  | [] => simp [gapsOf, h]
  | [x] =>
    simp only [List.cons_append, List.nil_append]
    rw [gapsOf]
    conv => rhs; rw [gapsOf]
    split <;> simp [gapsOf, h]
  | x :: y :: A =>
    have ih := gapsOf_append (y :: A) a b B h
    simp only [List.cons_append] at ih ⊢
    rw [gapsOf]
    conv => rhs; rw [gapsOf]
    split
    · exact ih
    · rw [ih]; rfl

/-- filling the first gap -/
theorem gapsOf_fill (A : List (Time × Time)) (a b : Time × Time) (B : List (Time × Time))
    (h : gapsOf (A ++ [a]) = []) : gapsOf (A ++ a :: (a.2, b.1) :: b :: B) = gapsOf (b :: B) := by
  rw [gapsOf_append A a (a.2, b.1) (b :: B) rfl, h]
  rw [gapsOf]; simp

end ATG
