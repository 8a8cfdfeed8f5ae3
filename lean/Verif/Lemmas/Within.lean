import Verif.Lemmas.GroupAligned
import Verif.Lemmas.Strings
import Verif.Spec.Within
/-!
# Paths and ids
-/
namespace ATG

theorem Path.unique {h : Heap} {r n m : Node} {p : List Nat} (a : Path h r p n) (b : Path h r p m) : n = m := by
  induction a generalizing m with
  | here =>
    generalize hq : ([] : List Nat) = q at b
    cases b with
    | here => rfl
    | down => simp at hq
  | @down m' n p l i a h1 h2 h3 ih =>
    generalize hq : p ++ [i] = q at b
    cases b with
    | here => simp at hq
    | @down m'' _ p' l' i' b k1 k2 k3 =>
      have hp : p = p' ∧ i = i' := by
        have := List.append_inj' hq rfl; simpa using this
      obtain ⟨rfl, rfl⟩ := hp
      have := ih b
      subst this
      rw [h2] at k2; cases k2
      rw [h3] at k3; cases k3
      rfl

theorem Path.root {h : Heap} {r s n : Node} {p q : List Nat} (a : Path h r p n) (b : Path h s q n)
    (hr : Outermost h r) (hs : Outermost h s) : r = s := by
  induction a generalizing q with
  | here =>
    cases b with
    | here => rfl
    | down b k1 k2 k3 =>
      rcases hr with e | ⟨m, e1, e2⟩
      · rw [e] at k1; cases k1
      · rw [e1] at k1; cases k1; rw [e2] at k2; cases k2
  | down a h1 h2 h3 ih =>
    cases b with
    | here =>
      rcases hs with e | ⟨m, e1, e2⟩
      · rw [e] at h1; cases h1
      · rw [e1] at h1; cases h1; rw [e2] at h2; cases h2
    | down b k1 k2 k3 =>
      rw [h1] at k1; cases k1
      exact ih b

theorem findIdx_spec {l : List Node} {n : Node} {i : Nat} (h : l.findIdx? (· == n) = some i) : l[i]? = some n := by
  obtain ⟨hi, h1, _⟩ := List.findIdx?_eq_some_iff_getElem.mp h
  rw [List.getElem?_eq_getElem hi]
  simpa using h1

theorem withinIndex_none {h : Heap} {n : Node} : withinIndex h n = .ok none ↔ Outermost h n := by
  unfold withinIndex Outermost
  cases e : h.withinOf n with
  | none => simp
  | some m =>
    simp only [reduceCtorEq, Option.some.injEq, false_or]
    cases e2 : h.containsOf m with
    | none => simp [e2]
    | some l =>
      simp only []
      constructor
      · intro q; split at q <;> simp at q
      · rintro ⟨m', rfl, k⟩; rw [e2] at k; cases k

theorem withinIndex_some {h : Heap} {n : Node} {i : Nat} (e : withinIndex h n = .ok (some i)) :
    ∃ m l, h.withinOf n = some m ∧ h.containsOf m = some l ∧ l[i]? = some n := by
  unfold withinIndex at e
  cases e1 : h.withinOf n with
  | none => rw [e1] at e; simp at e
  | some m =>
    rw [e1] at e
    simp only [] at e
    cases e2 : h.containsOf m with
    | none => rw [e2] at e; simp at e
    | some l =>
      rw [e2] at e
      simp only [] at e
      split at e
      · rename_i j hj
        injection e with e; injection e with e
        subst e
        exact ⟨m, l, rfl, e2, findIdx_spec hj⟩
      · cases e

theorem getPathN_path {h : Heap} (k : Nat) : ∀ {n : Node} {p : List Nat}, getPathN h k n = .ok p →
    ∃ r, Outermost h r ∧ Path h r p.reverse n := by
  induction k with
  | zero => intro n p e; simp [getPathN] at e
  | succ k ih =>
    intro n p e
    unfold getPathN at e
    cases e1 : withinIndex h n with
    | error x => rw [e1] at e; simp at e
    | ok o =>
      rw [e1] at e
      cases o with
      | none =>
        simp only [] at e
        cases e
        exact ⟨n, withinIndex_none.mp e1, Path.here⟩
      | some i =>
        simp only [] at e
        obtain ⟨m, l, h1, h2, h3⟩ := withinIndex_some e1
        rw [h1] at e
        simp only [] at e
        cases e2 : getPathN h k m with
        | error x => rw [e2] at e; simp at e
        | ok q =>
          rw [e2] at e
          cases e
          obtain ⟨r, hr, hp⟩ := ih e2
          exact ⟨r, hr, by rw [List.reverse_cons]; exact Path.down hp h1 h2 h3⟩

theorem getPathN_mono {h : Heap} (k : Nat) : ∀ {n : Node} {p : List Nat}, getPathN h k n = .ok p →
    getPathN h (k + 1) n = .ok p := by
  induction k with
  | zero => intro n p e; simp [getPathN] at e
  | succ k ih =>
    intro n p e
    unfold getPathN at e ⊢
    cases e1 : withinIndex h n with
    | error x => rw [e1] at e; simp at e
    | ok o =>
      rw [e1] at e
      cases o with
      | none => simpa using e
      | some i =>
        simp only [] at e ⊢
        obtain ⟨m, l, h1, h2, h3⟩ := withinIndex_some e1
        rw [h1] at e ⊢
        simp only [] at e ⊢
        cases e2 : getPathN h k m with
        | error x => rw [e2] at e; simp at e
        | ok q =>
          rw [e2] at e
          rw [ih e2]
          exact e

/-- one step outwards -/
theorem getPathN_step {h : Heap} {k : Nat} {n m : Node} {p : List Nat} {l : List Node} (h1 : h.withinOf n = some m)
    (h2 : h.containsOf m = some l) (e : getPathN h (k + 1) n = .ok p) :
    ∃ i q, getPathN h k m = .ok q ∧ p = i :: q ∧ l[i]? = some n := by
  unfold getPathN at e
  cases e1 : withinIndex h n with
  | error x => rw [e1] at e; simp at e
  | ok o =>
    rw [e1] at e
    cases o with
    | none =>
      rcases withinIndex_none.mp e1 with q | ⟨m', q1, q2⟩
      · rw [h1] at q; cases q
      · rw [h1] at q1; cases q1; rw [h2] at q2; cases q2
    | some i =>
      simp only [] at e
      obtain ⟨m', l', k1, k2, k3⟩ := withinIndex_some e1
      rw [h1] at k1; cases k1
      rw [h2] at k2; cases k2
      rw [h1] at e
      simp only [] at e
      cases e2 : getPathN h k m with
      | error x => rw [e2] at e; simp at e
      | ok q =>
        rw [e2] at e
        cases e
        exact ⟨i, q, rfl, rfl, k3⟩

theorem findIdx_at {l : List Node} {n : Node} {i : Nat} (hn : l.Nodup) (h : l[i]? = some n) :
    l.findIdx? (· == n) = some i := by
  obtain ⟨hi, he⟩ := List.getElem?_eq_some_iff.mp h
  rw [List.findIdx?_eq_some_iff_getElem]
  refine ⟨hi, by simp [he], ?_⟩
  intro j hj
  rw [Bool.not_eq_true, beq_eq_false_iff_ne]
  intro e
  have hlt : j < l.length := by omega
  have : l[j] = l[i] := by rw [e, he]
  exact absurd ((List.getElem_inj hn).mp this) (by omega)

/-- one step inwards -/
theorem getPathN_child {h : Heap} {k i : Nat} {n m : Node} {q : List Nat} {l : List Node} (h1 : h.withinOf n = some m)
    (h2 : h.containsOf m = some l) (hn : l.Nodup) (h3 : l[i]? = some n) (e : getPathN h k m = .ok q) :
    getPathN h (k + 1) n = .ok (i :: q) := by
  have e1 : withinIndex h n = .ok (some i) := by
    unfold withinIndex
    rw [h1]
    simp only []
    rw [h2]
    simp only []
    rw [findIdx_at hn h3]
  unfold getPathN
  rw [e1]
  simp only []
  rw [h1]
  simp only []
  rw [e]

theorem getPathN_le {h : Heap} {k j : Nat} (hkj : k ≤ j) {n : Node} {p : List Nat} (e : getPathN h k n = .ok p) :
    getPathN h j n = .ok p := by
  induction j with
  | zero => rw [show k = 0 by omega] at e; exact e
  | succ j ih =>
    rcases Nat.lt_or_ge j k with q | q
    · rw [show j + 1 = k by omega]; exact e
    · exact getPathN_mono j (ih q)

theorem withinPath_ok {h : Heap} {n : Node} {p : List Nat} : withinPath h n = .ok p ↔ getPathN h pathFuel n = .ok p.reverse := by
  unfold withinPath
  cases e : getPathN h pathFuel n with
  | error x => simp
  | ok q =>
    simp only [Except.ok.injEq]
    constructor
    · intro k; rw [← k, List.reverse_reverse]
    · intro k; rw [k, List.reverse_reverse]

/-! ## id strings -/

theorem dashed_ne {i : Nat} {p : List Nat} : (dashed (i :: p)).toList ≠ [] := by
  cases p with
  | nil => exact digits_ne_nil i
  | cons j p =>
    unfold dashed
    rw [String.toList_append, String.toList_append]
    intro h
    simp at h

theorem dash_notMem (i : Nat) : '-' ∉ (toString i).toList := fun q => by simpa using digits_isDigit i _ q

theorem dashed_inj : ∀ (p q : List Nat), dashed p = dashed q → p = q
  | [], [], _ => rfl
  | [], j :: q, h => absurd (congrArg String.toList h).symm (by simpa [dashed] using dashed_ne)
  | i :: p, [], h => absurd (congrArg String.toList h) (by simpa [dashed] using dashed_ne)
  | [i], [j], h => by
    have h : toString i = toString j := h
    rw [toString_inj h]
  | [i], j :: k :: q, h => by
    exfalso
    have hm : '-' ∈ (toString i).toList := by
      have := congrArg String.toList h
      unfold dashed at this
      rw [this]
      simp [String.toList_append]
    exact dash_notMem i hm
  | i :: k :: p, [j], h => by
    exfalso
    have hm : '-' ∈ (toString j).toList := by
      have := congrArg String.toList h
      unfold dashed at this
      rw [← this]
      simp [String.toList_append]
    exact dash_notMem j hm
  | i :: i' :: p, j :: j' :: q, h => by
    have hl := congrArg String.toList h
    rw [dashed, dashed] at hl
    simp only [String.toList_append] at hl
    have : (toString i).toList ++ '-' :: (dashed (i' :: p)).toList =
        (toString j).toList ++ '-' :: (dashed (j' :: q)).toList := by simpa using hl
    obtain ⟨h1, h2⟩ := split_first '-' _ _ _ _ (dash_notMem i) (dash_notMem j) this
    rw [toString_inj (String.toList_inj.mp h1), dashed_inj _ _ (String.toList_inj.mp h2)]

/-! ## arranging a complete chain -/

theorem arrangeDown_complete (h : Heap) (tiers : List TRef) (n : Nat) : ∀ s l b, arrangeDown h tiers n s = .ok (l, b) →
    ∀ t c, l[l.length - 1]? = some t → h.tsub t = some c → h.ct.isSub c cBottom = b := by
  induction n with
  | zero => intro s l b e; simp [arrangeDown] at e
  | succ n ih =>
    intro s l b e t c' ht hc'
    unfold arrangeDown at e
    cases hs : h.tsub s with
    | none => rw [hs] at e; simp at e
    | some c =>
      rw [hs] at e
      simp only [] at e
      by_cases hc : h.ct.isSub c cBottom = true
      · rw [if_pos hc] at e
        cases e
        simp at ht
        subst ht
        rw [hs] at hc'; cases hc'
        exact hc
      · rw [if_neg hc] at e
        cases hf : tiers.find? (fun t => h.tcls t == c) with
        | none =>
          rw [hf] at e
          cases e
          simp at ht
          subst ht
          rw [hs] at hc'; cases hc'
          simpa using hc
        | some s' =>
          rw [hf] at e
          simp only [] at e
          cases hr : arrangeDown h tiers n s' with
          | error e' => rw [hr] at e; simp at e
          | ok r =>
            obtain ⟨l', b'⟩ := r
            rw [hr] at e
            simp only [Except.ok.injEq, Prod.mk.injEq] at e
            obtain ⟨rfl, rfl⟩ := e
            refine ih s' l' b' hr t c' ?_ hc'
            have h0 := (arrangeDown_spec h tiers n s' l' b' hr).1
            cases l' with
            | nil => simp at h0
            | cons a l' => simpa using ht

theorem arrange_complete {h : Heap} {tiers ts : List TRef} {b : Bool} (e : arrange h tiers = .ok (ts, b)) (t : TRef) (c : CRef)
    (ht : ts[ts.length - 1]? = some t) (hc : h.tsub t = some c) : h.ct.isSub c cBottom = b := by
  unfold arrange at e
  cases tiers with
  | nil => simp at e
  | cons t0 tiers =>
    simp only [] at e
    cases e1 : arrangeUp h (t0 :: tiers) ((t0 :: tiers).length + 1) t0 with
    | error x => rw [e1] at e; simp at e
    | ok top =>
      rw [e1] at e
      simp only [] at e
      exact arrangeDown_complete h _ _ _ _ _ e t c ht hc

end ATG
