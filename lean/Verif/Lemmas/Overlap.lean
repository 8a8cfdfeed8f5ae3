import Verif.Model.Num
import Verif.Spec.Basic
/-!
# Counting overlaps
-/
namespace ATG

/-- number of entries of `l` that the pair `p` meets -/
def cnt (p : Time × Time) (l : List (Time × Time)) : Nat :=
  (l.filter fun q => decide (p.2 > q.1) && decide (p.1 < q.2)).length

theorem nOverlaps_def (l : List (Time × Time)) : nOverlaps l = (l.map fun p => cnt p l).sum := rfl

theorem cnt_cons (p q : Time × Time) (l : List (Time × Time)) :
    cnt p (q :: l) = cnt p [q] + cnt p l := by
  simp only [cnt, List.filter_cons, List.filter_nil]
  split <;> simp <;> omega

theorem cnt_self (p : Time × Time) (hp : p.1 < p.2) : cnt p [p] = 1 := by
  simp [cnt, hp]

theorem cnt_single (p q : Time × Time) [Decidable (Overlap p q)] :
    cnt p [q] = if Overlap p q then 1 else 0 := by
  unfold Overlap at *
  simp only [cnt, List.filter_cons, List.filter_nil]
  by_cases h1 : p.1 < q.2 <;> by_cases h2 : q.1 < p.2 <;> simp [h1, h2]

theorem sum_map_add (l : List (Time × Time)) (f g : Time × Time → Nat) :
    (l.map fun p => f p + g p).sum = (l.map f).sum + (l.map g).sum := by
  induction l with
  | nil => rfl
  | cons x xs ih => simp [ih]; omega

theorem sum_eq_zero_nat (l : List Nat) (h : ∀ n ∈ l, n = 0) : l.sum = 0 := by
  induction l with
  | nil => rfl
  | cons x xs ih =>
    rw [List.sum_cons, h x (by simp), ih (fun n hn => h n (by simp [hn]))]

theorem nOverlaps_cons (p : Time × Time) (l : List (Time × Time)) :
    nOverlaps (p :: l) = cnt p [p] + cnt p l + (l.map fun q => cnt q [p]).sum + nOverlaps l := by
  rw [nOverlaps_def, nOverlaps_def, List.map_cons, List.sum_cons, cnt_cons p p l]
  have : (l.map fun q => cnt q (p :: l)) = l.map fun q => cnt q [p] + cnt q l := by
    apply List.map_congr_left; intro q _; exact cnt_cons q p l
  rw [this, sum_map_add]; omega

theorem nOverlaps_ge (l : List (Time × Time)) (hl : ∀ p ∈ l, p.1 < p.2) : l.length ≤ nOverlaps l := by
  induction l with
  | nil => simp
  | cons p l ih =>
    rw [nOverlaps_cons, cnt_self p (hl p (by simp))]
    have := ih (fun q hq => hl q (by simp [hq]))
    simp only [List.length_cons]; omega

theorem cnt_eq_zero (p : Time × Time) (l : List (Time × Time)) :
    cnt p l = 0 ↔ ∀ q ∈ l, ¬ Overlap p q := by
  simp only [cnt, List.length_eq_zero_iff, List.filter_eq_nil_iff, Overlap]
  constructor
  · intro h q hq hh; apply h q hq; simp [hh.1, hh.2]
  · intro h q hq hh; simp at hh; exact h q hq ⟨hh.2, hh.1⟩

theorem nOverlaps_le_iff (l : List (Time × Time)) (hl : ∀ p ∈ l, p.1 < p.2) :
    nOverlaps l ≤ l.length ↔ l.Pairwise fun p q => ¬ Overlap p q := by
  induction l with
  | nil => simp [nOverlaps]
  | cons p l ih =>
    rw [nOverlaps_cons, cnt_self p (hl p (by simp)), List.pairwise_cons, List.length_cons]
    have hl' : ∀ q ∈ l, q.1 < q.2 := fun q hq => hl q (by simp [hq])
    have hge := nOverlaps_ge l hl'
    rw [← ih hl', ← cnt_eq_zero]
    constructor
    · intro h; constructor <;> omega
    · rintro ⟨h1, h2⟩
      have h0 : (l.map fun q => cnt q [p]).sum = 0 := by
        apply sum_eq_zero_nat
        intro n hn
        rw [List.mem_map] at hn
        obtain ⟨q, hq, rfl⟩ := hn
        rw [cnt_eq_zero] at h1 ⊢
        intro r hr
        simp at hr; subst hr
        intro ho; exact h1 q hq ⟨ho.2, ho.1⟩
      omega

end ATG
