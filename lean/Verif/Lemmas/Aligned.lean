import Verif.Lemmas.Assign
import Verif.Lemmas.SetSubs
import Verif.Model.Group
import Verif.Spec.Group
/-!
# Relating aligned tiers
-/
namespace ATG

/-! ## numeric facts about tilings -/

theorem Tiles.ne {h : Heap} {l : List Ref} {a b : Time} (t : Tiles h l a b) : l ≠ [] := by
  rintro rfl; exact t

theorem Tiles.lt {h : Heap} : ∀ {l : List Ref} {a b : Time}, Tiles h l a b → a < b
  | [x], _, _, ⟨_, _, h3⟩ => h3
  | x :: y :: r, a, b, ⟨_, h2, h3⟩ => by have := h3.lt; grind

/-- every tile is within the bounds and positive; it ends the tiling or ends where another starts -/
theorem Tiles.mem {h : Heap} : ∀ {l : List Ref} {a b : Time}, Tiles h l a b → ∀ x ∈ l,
    a ≤ h.start x ∧ h.start x < h.stop x ∧ h.stop x ≤ b ∧ (h.stop x = b ∨ ∃ y ∈ l, h.start y = h.stop x)
  | [z], a, b, ⟨h1, h2, h3⟩, x, hx => by
    have : x = z := by simpa using hx
    subst this
    refine ⟨by grind, by grind, by grind, Or.inl h2⟩
  | z :: y :: r, a, b, ⟨h1, h2, h3⟩, x, hx => by
    rcases List.mem_cons.mp hx with rfl | hx
    · refine ⟨by grind, by grind, ?_, Or.inr ⟨y, by simp, ?_⟩⟩
      · have := h3.lt; grind
      · cases r with
        | nil => exact h3.1
        | cons w r => exact h3.1
    · obtain ⟨g1, g2, g3, g4⟩ := h3.mem x hx
      refine ⟨by grind, g2, g3, ?_⟩
      rcases g4 with g4 | ⟨w, hw, e⟩
      · exact Or.inl g4
      · exact Or.inr ⟨w, by simp only [List.mem_cons] at hw ⊢; exact Or.inr hw, e⟩

theorem Tiles.sorted {h : Heap} : ∀ {l : List Ref} {a b : Time}, Tiles h l a b →
    l.Pairwise fun x y => h.stop x ≤ h.start y
  | [z], a, b, _ => by simp
  | z :: y :: r, a, b, ⟨h1, h2, h3⟩ => by
    rw [List.pairwise_cons]
    refine ⟨?_, h3.sorted⟩
    intro x hx
    exact (h3.mem x hx).1

theorem Tiles.byStart {h : Heap} {l : List Ref} {a b : Time} (t : Tiles h l a b) : SortedByStart h l := by
  have hp := t.sorted
  unfold SortedByStart
  rw [List.pairwise_iff_getElem] at hp ⊢
  intro i j hi hj hij
  have h1 := hp i j hi hj hij
  have h2 := (t.mem l[i] (List.getElem_mem hi)).2.1
  grind

theorem Tiles.dur {h : Heap} : ∀ {l : List Ref} {a b : Time}, Tiles h l a b → totalDur h l = b - a
  | [z], a, b, ⟨h1, h2, h3⟩ => by simp [totalDur]; grind
  | z :: y :: r, a, b, ⟨h1, h2, h3⟩ => by
    have ih := h3.dur
    have : totalDur h (z :: y :: r) = (h.stop z - h.start z) + totalDur h (y :: r) := by
      simp [totalDur]
    rw [this, ih]; grind

theorem mem_uinsert (a x : Time) (l : List Time) : x ∈ uinsert a l ↔ x = a ∨ x ∈ l := by
  induction l with
  | nil => simp [uinsert]
  | cons b bs ih =>
    unfold uinsert
    split
    · simp
    · split
      · rename_i h; subst h; simp
      · simp only [List.mem_cons, ih]
        constructor
        · rintro (h | h | h) <;> simp [h]
        · rintro (h | h | h) <;> simp [h]

theorem mem_uniq (x : Time) (l : List Time) : x ∈ uniq l ↔ x ∈ l := by
  unfold uniq
  induction l with
  | nil => simp
  | cons b bs ih => rw [List.foldr_cons, mem_uinsert, ih]; simp

theorem uinsert_sorted (a : Time) (l : List Time) (h : l.Pairwise (· < ·)) :
    (uinsert a l).Pairwise (· < ·) := by
  induction l with
  | nil => simp [uinsert]
  | cons b bs ih =>
    rw [List.pairwise_cons] at h
    unfold uinsert
    split
    · rename_i hlt
      rw [List.pairwise_cons]
      refine ⟨?_, by rw [List.pairwise_cons]; exact h⟩
      intro x hx
      rcases List.mem_cons.mp hx with rfl | hx
      · exact hlt
      · have := h.1 x hx; grind
    · split
      · rw [List.pairwise_cons]; exact h
      · rename_i h1 h2
        rw [List.pairwise_cons]
        refine ⟨?_, ih h.2⟩
        intro x hx
        rw [mem_uinsert] at hx
        rcases hx with rfl | hx
        · grind
        · exact h.1 x hx

theorem uniq_sorted (l : List Time) : (uniq l).Pairwise (· < ·) := by
  unfold uniq
  induction l with
  | nil => simp
  | cons b bs ih => exact uinsert_sorted b _ ih

theorem dropLast_lt (l : List Time) (h : l.Pairwise (· < ·)) : ∀ x ∈ l.dropLast, ∃ y ∈ l, x < y := by
  induction l with
  | nil => simp
  | cons b bs ih =>
    cases bs with
    | nil => simp
    | cons c cs =>
      intro x hx
      rw [List.dropLast_cons_cons] at hx
      rw [List.pairwise_cons] at h
      rcases List.mem_cons.mp hx with rfl | hx
      · exact ⟨c, by simp, h.1 c (by simp)⟩
      · obtain ⟨y, hy, hxy⟩ := ih h.2 x hx
        exact ⟨y, by simp only [List.mem_cons] at hy ⊢; exact Or.inr hy, hxy⟩

theorem Tiles.noGap {h : Heap} {l : List Ref} {a b : Time} (t : Tiles h l a b) :
    gapPairs (l.map h.start) (l.map h.stop) = [] := by
  unfold gapPairs
  simp only []
  have : (uniq (l.map h.start ++ l.map h.stop)).dropLast.filter (fun b => !(l.map h.start).contains b) = [] := by
    rw [List.filter_eq_nil_iff]
    intro x hx
    have hx' := List.dropLast_subset _ hx
    obtain ⟨y, hy, hxy⟩ := dropLast_lt _ (uniq_sorted _) x hx
    rw [mem_uniq, List.mem_append, List.mem_map, List.mem_map] at hx' hy
    have hyb : y ≤ b := by
      rcases hy with ⟨z, hz, rfl⟩ | ⟨z, hz, rfl⟩
      · have := t.mem z hz; grind
      · exact (t.mem z hz).2.2.1
    simp only [Bool.not_eq_true', Bool.not_eq_false, List.contains_iff_mem, List.mem_map]
    rcases hx' with ⟨z, hz, rfl⟩ | ⟨z, hz, rfl⟩
    · exact ⟨z, hz, rfl⟩
    · rcases (t.mem z hz).2.2.2 with e | ⟨w, hw, e⟩
      · exfalso; grind
      · exact ⟨w, hw, e⟩
  rw [this]; simp

theorem allclose_self (a : Time) : allclose a a = true := by
  have h1 : tabs (a - a) = 0 := by
    have : a - a = 0 := by grind
    rw [this]; rfl
  have h2 : (0 : Time) ≤ tabs a := by unfold tabs; split <;> grind
  unfold allclose
  rw [h1]
  simp only [decide_eq_true_eq]
  grind

theorem allcloseL_self (l : List Time) : allcloseL l l = true := by
  unfold allcloseL
  rw [List.all_eq_true]
  intro p hp
  have : p.1 = p.2 := by
    induction l with
    | nil => simp at hp
    | cons a as ih =>
      rw [List.zip_cons_cons] at hp
      rcases List.mem_cons.mp hp with rfl | hp
      · rfl
      · exact ih hp
  rw [this]; exact allclose_self _

/-! ## the assignment for aligned tiers -/

namespace Aligned
variable {h : Heap} {upper lower : List Ref}

theorem pos (al : Aligned h upper lower) : ∀ x ∈ lower, h.start x < h.stop x := by
  intro x hx
  obtain ⟨u, hu, hi⟩ := al.covered x hx
  exact ((al.tiled u hu).mem x (by rw [List.mem_filter]; exact ⟨hx, by simpa using hi⟩)).2.1

theorem upos (al : Aligned h upper lower) : ∀ u ∈ upper, h.start u < h.stop u :=
  fun u hu => (al.tiled u hu).lt

theorem firstMax (al : Aligned h upper lower) (x : Ref) (hx : x ∈ lower) (k : Nat) (u : Ref)
    (hu : upper[k]? = some u) (hi : Inside h u x) :
    FirstMax ((upper.map fun u => (h.start u, h.stop u)).map (overlap (h.start x, h.stop x))) k := by
  have hp := al.pos x hx
  have hother : ∀ j v, j ≠ k → upper[j]? = some v → overlap (h.start x, h.stop x) (h.start v, h.stop v) ≤ 0 := by
    intro j v hj hv
    unfold overlap Inside at *
    rcases Nat.lt_or_gt_of_ne hj with hj | hj
    · have := pairwise_get? al.upperDisjoint hj hv hu
      simp only; grind
    · have := pairwise_get? al.upperDisjoint hj hu hv
      simp only; grind
  have hself : overlap (h.start x, h.stop x) (h.start u, h.stop u) = h.stop x - h.start x := by
    unfold overlap Inside at *; simp only; grind
  refine ⟨overlap (h.start x, h.stop x) (h.start u, h.stop u), by simp [hu], ?_, ?_⟩
  · intro v hv
    rw [List.map_map, List.mem_map] at hv
    obtain ⟨w, hw, rfl⟩ := hv
    obtain ⟨j, hj⟩ := List.getElem?_of_mem hw
    by_cases e : j = k
    · subst e; rw [hu] at hj; cases hj; exact Rat.le_refl
    · have := hother j w e hj
      simp only [Function.comp_apply]; grind
  · intro j v hj hv
    rw [List.map_map, List.getElem?_map] at hv
    cases hw : upper[j]? with
    | none => simp [hw] at hv
    | some w =>
      simp only [hw, Option.map_some, Option.some.injEq, Function.comp_apply] at hv
      have := hother j w (by omega) hw
      grind

/-- each slice is the list of the lower intervals inside the upper one -/
theorem slices (al : Aligned h upper lower) :
    ATG.slices (containers (upper.map fun u => (h.start u, h.stop u)) (lower.map fun x => (h.start x, h.stop x)))
      lower upper.length = upper.map fun u => lower.filter (Inside h u ·) := by
  cases hup : upper with
  | nil => rfl
  | cons u0 us0 =>
  rw [← hup]
  have hne : (upper.map fun u => (h.start u, h.stop u)) ≠ [] := by rw [hup]; simp
  have hum : (upper.map fun u => (h.start u, h.stop u)).Pairwise SpanLe := by
    rw [List.pairwise_iff_getElem]
    intro i j hi hj hij
    simp only [List.length_map] at hi hj
    have h1 := (List.pairwise_iff_getElem.mp al.upperDisjoint) i j hi hj hij
    have h2 := al.upos upper[i] (List.getElem_mem hi)
    have h3 := al.upos upper[j] (List.getElem_mem hj)
    simp only [List.getElem_map, SpanLe]; grind
  have hlm : (lower.map fun u => (h.start u, h.stop u)).Pairwise SpanLe := by
    rw [List.pairwise_iff_getElem]
    intro i j hi hj hij
    simp only [List.length_map] at hi hj
    have h1 := (List.pairwise_iff_getElem.mp al.lowerDisjoint) i j hi hj hij
    have h2 := al.pos lower[i] (List.getElem_mem hi)
    have h3 := al.pos lower[j] (List.getElem_mem hj)
    simp only [List.getElem_map, SpanLe]; grind
  rw [slices_eq _ lower _ (by simp [containers]) (containers_mono _ _ hne hum hlm)]
  apply List.ext_getElem?
  intro k
  rw [List.getElem?_map, List.getElem?_map]
  cases hu : upper[k]? with
  | none =>
    have : (List.range upper.length)[k]? = none := by simpa using hu
    rw [this]; rfl
  | some u =>
    have hk := getElem?_lt hu
    rw [List.getElem?_range hk]
    simp only [Option.map_some, Option.some.injEq]
    unfold assignedTo containers
    rw [List.map_map]
    have hz : ∀ (f : Ref → Nat) (l : List Ref), ((l.zip (l.map f)).filter fun p => p.2 == k).map (·.1) =
        l.filter fun x => f x == k := by
      intro f l
      induction l with
      | nil => rfl
      | cons a as ih =>
        simp only [List.map_cons, List.zip_cons_cons, List.filter_cons]
        by_cases e : f a == k
        · simp only [e, if_true, List.map_cons, ih]
        · simp only [e]; exact ih
    rw [hz]
    apply List.filter_congr
    intro x hx
    have hiff : argmax ((upper.map fun u => (h.start u, h.stop u)).map (overlap (h.start x, h.stop x))) = k ↔
        Inside h u x := by
      have hs := argmax_spec ((upper.map fun u => (h.start u, h.stop u)).map (overlap (h.start x, h.stop x)))
        (by simpa using hne)
      constructor
      · intro e
        rw [e] at hs
        obtain ⟨v, hv, hi⟩ := al.covered x hx
        obtain ⟨m, hm⟩ := List.getElem?_of_mem hv
        have := (al.firstMax x hx m v hm hi).unique hs
        subst this
        rw [hu] at hm; cases hm; exact hi
      · intro hi
        exact hs.unique (al.firstMax x hx k u hu hi)
    simp only [Function.comp_apply]
    rw [Bool.eq_iff_iff]
    simp only [beq_iff_eq, decide_eq_true_eq]
    exact hiff

theorem noMismatch (al : Aligned h upper lower) :
    anyMismatch (upper.map fun u => (h.start u, h.stop u)) (lower.map fun x => (h.start x, h.stop x)) = false := by
  unfold anyMismatch
  rw [List.any_eq_false]
  intro l hl
  obtain ⟨x, hx, rfl⟩ := List.mem_map.mp hl
  obtain ⟨u, hu, hi⟩ := al.covered x hx
  cases hm : maxL ((upper.map fun u => (h.start u, h.stop u)).map (overlap (h.start x, h.stop x))) with
  | none => simp
  | some m =>
    have h1 := ((maxL_iff _ _).mp hm).2 (overlap (h.start x, h.stop x) (h.start u, h.stop u))
      (List.mem_map.mpr ⟨_, List.mem_map.mpr ⟨u, hu, rfl⟩, rfl⟩)
    have hself : overlap (h.start x, h.stop x) (h.start u, h.stop u) = h.stop x - h.start x := by
      unfold overlap Inside at *; simp only; grind
    simp only [decide_eq_true_eq]; grind

end Aligned
end ATG
