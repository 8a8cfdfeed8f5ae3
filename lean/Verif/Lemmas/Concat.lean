import Verif.Lemmas.Shift
import Verif.Lemmas.SeqList
import Verif.Model.Concat
/-!
# Shifting lists of entries
-/
namespace ATG

/-- the entries form a forest of bounded depth: no cycles, one superset each, no repetition -/
structure Forest (h : Heap) (rank : Ref → Nat) : Prop where
  down : ∀ x, ∀ y ∈ (h.subs x).vals, rank y < rank x
  one : ∀ v w x, x ∈ (h.subs v).vals → x ∈ (h.subs w).vals → v = w
  nodup : ∀ w, (h.subs w).vals.Nodup

theorem subtrees_nodup (h : Heap) (rank : Ref → Nat) (f : Forest h rank) (n : Nat) (l : List Ref)
    (hle : ∀ x ∈ l, rank x ≤ n) (hnd : l.Nodup) (hdis : ∀ x ∈ l, ∀ y ∈ l, x ≠ y → ¬ Desc h x y) :
    (l.flatMap (subtree h n)).Nodup := by
  induction l with
  | nil => simp
  | cons a as ih =>
    rw [List.flatMap_cons, List.nodup_append]
    rw [List.nodup_cons] at hnd
    refine ⟨subtree_nodup h rank f.down f.one f.nodup n a (hle a (by simp)),
      ih (fun x hx => hle x (by simp [hx])) hnd.2
        (fun x hx y hy => hdis x (by simp [hx]) y (by simp [hy])), ?_⟩
    rintro y hy _ hy' rfl
    rw [List.mem_flatMap] at hy'
    obtain ⟨b, hb, hyb⟩ := hy'
    have d1 := (mem_subtree h rank f.down n a y (hle a (by simp))).mp hy
    have d2 := (mem_subtree h rank f.down n b y (hle b (by simp [hb]))).mp hyb
    have hab : a ≠ b := by rintro rfl; exact hnd.1 hb
    rcases Desc.compare f.one d1 d2 with hc | hc
    · exact hdis a (by simp) b (by simp [hb]) hab hc
    · exact hdis b (by simp [hb]) a (by simp) (Ne.symm hab) hc

theorem forL_ivalShiftN (d : Time) (rank : Ref → Nat) (n : Nat) (h : Heap) (f : Forest h rank)
    (l : List Ref) : ∀ (k : Heap), k.subs = h.subs → (∀ x ∈ l, rank x ≤ n) →
    (l.flatMap (subtree h n)).Nodup →
    M.forL l (fun x => ivalShiftN (n + 1) x d) k = .ok () (shiftOn (l.flatMap (subtree h n)) d k) := by
  induction l with
  | nil => intro k _ _ _; simp [shiftOn_nil]
  | cons a as ih =>
    intro k hk hle hnd
    rw [List.flatMap_cons, List.nodup_append] at hnd
    rw [M.forL_cons, ivalShiftN_ok d rank n a k (by rw [hk]; exact f.down) (hle a (by simp))
      (by rw [subtree_congr h k hk]; exact hnd.1)]
    simp only []
    rw [ih _ (by simp [shiftOn, hk]) (fun x hx => hle x (by simp [hx])) hnd.2.1]
    rw [subtree_congr h k hk, List.flatMap_cons, shiftOn_append]
    intro x hx hx'
    exact hnd.2.2 x hx x hx' rfl

theorem shiftList_ok (d : Time) (rank : Ref → Nat) (h : Heap) (f : Forest h rank) (l : List Ref)
    (hle : ∀ x ∈ l, rank x < shiftFuel) (hnd : l.Nodup)
    (hdis : ∀ x ∈ l, ∀ y ∈ l, x ≠ y → ¬ Desc h x y) :
    ∃ h', shiftList l d h = .ok () h' ∧
      (∀ y, (∃ x ∈ l, Desc h x y) → h'.start y = h.start y + d ∧ h'.stop y = h.stop y + d) ∧
      (∀ y, ¬ (∃ x ∈ l, Desc h x y) → h'.start y = h.start y ∧ h'.stop y = h.stop y) ∧
      h' = { h with start := h'.start, stop := h'.stop } := by
  have hle' : ∀ x ∈ l, rank x ≤ 999 := fun x hx => by have := hle x hx; unfold shiftFuel at this; omega
  refine ⟨_, forL_ivalShiftN d rank 999 h f l h rfl hle' (subtrees_nodup h rank f 999 l hle' hnd hdis),
    ?_, ?_, rfl⟩
  · rintro y ⟨x, hx, hd⟩
    have : y ∈ l.flatMap (subtree h 999) :=
      List.mem_flatMap.mpr ⟨x, hx, (mem_subtree h rank f.down 999 x y (hle' x hx)).mpr hd⟩
    simp only [shiftOn, if_pos this, and_self]
  · intro y hy
    have : y ∉ l.flatMap (subtree h 999) := by
      intro e
      obtain ⟨x, hx, hd⟩ := List.mem_flatMap.mp e
      exact hy ⟨x, hx, (mem_subtree h rank f.down 999 x y (hle' x hx)).mp hd⟩
    simp only [shiftOn, if_neg this, and_self]

end ATG
