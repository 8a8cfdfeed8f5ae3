import Verif.Lemmas.TouchBook
import Verif.Spec.Refuse
/-!
# Edits that are not possible: where the links end
-/
namespace ATG

theorem filter_last {α} {p : α → Bool} {l : List α} {k : Nat} {x : α} (hx : l[k]? = some x) (hp : p x = true)
    (hn : ∀ (m : Nat) z, k < m → l[m]? = some z → p z = false) : (l.filter p).getLast? = some x := by
  have hk := (List.getElem?_eq_some_iff.mp hx).1
  have e : l = l.take k ++ x :: l.drop (k + 1) := by
    rw [← (List.getElem?_eq_some_iff.mp hx).2, ← List.drop_eq_getElem_cons hk, List.take_append_drop]
  have hd : (l.drop (k + 1)).filter p = [] := by
    rw [List.filter_eq_nil_iff]
    intro z hz
    obtain ⟨m, hm⟩ := List.mem_iff_getElem?.mp hz
    rw [List.getElem?_drop] at hm
    rw [hn _ z (by omega) hm]
    simp
  rw [e, List.filter_append, List.filter_cons_of_pos hp, hd, List.getLast?_append]
  rfl

theorem filter_first {α} {p : α → Bool} {l : List α} {k : Nat} {x : α} (hx : l[k]? = some x) (hp : p x = true)
    (hn : ∀ (m : Nat) z, m < k → l[m]? = some z → p z = false) : (l.filter p).head? = some x := by
  have hk := (List.getElem?_eq_some_iff.mp hx).1
  have e : l = l.take k ++ x :: l.drop (k + 1) := by
    rw [← (List.getElem?_eq_some_iff.mp hx).2, ← List.drop_eq_getElem_cons hk, List.take_append_drop]
  have hd : (l.take k).filter p = [] := by
    rw [List.filter_eq_nil_iff]
    intro z hz
    obtain ⟨m, hm⟩ := List.mem_iff_getElem?.mp hz
    rw [List.getElem?_take] at hm
    split at hm
    · rw [hn _ z (by omega) hm]
      simp
    · cases hm
  rw [e, List.filter_append, List.filter_cons_of_pos hp, hd]
  rfl

theorem Tiles.touch {h : Heap} : ∀ {l : List Ref} {a b : Time} {i : Nat} {x y : Ref}, Tiles h l a b → l[i]? = some x → l[i + 1]? = some y →
    h.stop x = h.start y
  | [], _, _, _, _, _, _, hx, _ => by simp at hx
  | [_], _, _, _, _, _, _, _, hy => by simp at hy
  | u :: v :: l, a, b, i, x, y, t, hx, hy => by
    unfold Tiles at t
    match i with
    | 0 =>
      simp only [List.getElem?_cons_zero, Option.some.injEq, Nat.zero_add, List.getElem?_cons_succ] at hx hy
      subst hx; subst hy
      have := t.2.2
      unfold Tiles at this
      cases l <;> exact this.1.symm
    | i + 1 => exact Tiles.touch (i := i) t.2.2 hx hy

section
variable {R : ClassTab → List (List CRef) → Prop} {h : Heap} {gs : List GRef} {g : GRef} {j k : Nat} {t s : TRef} {x y : Ref}

/-- the next interval is in another interval of the tier above: the right neighbour is the boundary -/
theorem EditableFor.rightEnd (e : EditableFor R h gs) (hg : g ∈ gs) (hs : (h.gtiers g)[j]? = some s) (ht : (h.gtiers g)[j + 1]? = some t)
    (hx : (h.tseq t).vals[k]? = some x)
    (hn : ∀ y, (h.tseq t).vals[k + 1]? = some y → ∀ u ∈ (h.tseq s).vals, ¬ (Inside h u x ∧ Inside h u y)) : h.fol x = some .bumper := by
  have f := e.fit g hg
  have r := e.rel g hg
  have hxm := List.mem_of_getElem? hx
  obtain ⟨u, hu, hxu⟩ := r.covered j s t hs ht x hxm
  have sb := (r.subs j s t hs ht u hu).1
  have o := f.inOrder (List.mem_of_getElem? ht)
  have hux : Inside h u x := by
    rw [sb, List.mem_filter] at hxu; simpa using hxu.2
  refine (r.linked j s t hs ht u hu).last x ?_
  rw [sb]
  refine filter_last hx (by simpa using hux) ?_
  intro m z hm hz
  apply Classical.byContradiction
  intro q
  have huz : Inside h u z := by simpa using q
  have hl := (List.getElem?_eq_some_iff.mp hz).1
  have hy := List.getElem?_eq_getElem (l := (h.tseq t).vals) (i := k + 1) (by omega)
  have o1 := (List.pairwise_iff_getElem.mp o k (k + 1) (by omega) (by omega) (by omega))
  rw [(List.getElem?_eq_some_iff.mp hx).2] at o1
  refine hn _ hy u hu ⟨hux, ?_, ?_⟩
  · have := hux.1; grind
  · by_cases q : m = k + 1
    · subst q
      rw [(List.getElem?_eq_some_iff.mp hz).2]; exact huz.2
    · have o2 := (List.pairwise_iff_getElem.mp o (k + 1) m (by omega) (by omega) (by omega))
      rw [(List.getElem?_eq_some_iff.mp hz).2] at o2
      have := huz.2; grind

theorem EditableFor.leftEnd (e : EditableFor R h gs) (hg : g ∈ gs) (hs : (h.gtiers g)[j]? = some s) (ht : (h.gtiers g)[j + 1]? = some t)
    (hx : (h.tseq t).vals[k]? = some x)
    (hn : ∀ m y, k = m + 1 → (h.tseq t).vals[m]? = some y → ∀ u ∈ (h.tseq s).vals, ¬ (Inside h u y ∧ Inside h u x)) : h.prev x = some .bumper := by
  have f := e.fit g hg
  have r := e.rel g hg
  have hxm := List.mem_of_getElem? hx
  obtain ⟨u, hu, hxu⟩ := r.covered j s t hs ht x hxm
  have sb := (r.subs j s t hs ht u hu).1
  have o := f.inOrder (List.mem_of_getElem? ht)
  have hux : Inside h u x := by
    rw [sb, List.mem_filter] at hxu; simpa using hxu.2
  refine (r.linked j s t hs ht u hu).first x ?_
  rw [sb]
  refine filter_first hx (by simpa using hux) ?_
  intro m z hm hz
  apply Classical.byContradiction
  intro q
  have huz : Inside h u z := by simpa using q
  have hl := (List.getElem?_eq_some_iff.mp hx).1
  obtain ⟨n, rfl⟩ : ∃ n, k = n + 1 := ⟨k - 1, by omega⟩
  have hy := List.getElem?_eq_getElem (l := (h.tseq t).vals) (i := n) (by omega)
  have o1 := (List.pairwise_iff_getElem.mp o n (n + 1) (by omega) (by omega) (by omega))
  rw [(List.getElem?_eq_some_iff.mp hx).2] at o1
  refine hn n _ rfl hy u hu ⟨⟨?_, ?_⟩, hux⟩
  · by_cases q : m = n
    · subst q
      rw [(List.getElem?_eq_some_iff.mp hz).2]; exact huz.1
    · have o2 := (List.pairwise_iff_getElem.mp o m n (by omega) (by omega) (by omega))
      rw [(List.getElem?_eq_some_iff.mp hz).2] at o2
      have := huz.1; grind
  · have := hux.2; grind

/-- two neighbours in the same interval touch -/
theorem EditableFor.touching (e : EditableFor R h gs) (hg : g ∈ gs) (hs : (h.gtiers g)[j]? = some s) (ht : (h.gtiers g)[j + 1]? = some t)
    (hx : (h.tseq t).vals[k]? = some x) (hy : (h.tseq t).vals[k + 1]? = some y) {u : Ref} (hu : u ∈ (h.tseq s).vals)
    (i1 : Inside h u x) (i2 : Inside h u y) : h.stop x = h.start y := by
  have tl := ((e.fit g hg).aligned j s t hs ht).tiled u hu
  rw [split_two hx hy, List.filter_append, List.filter_cons_of_pos (by simpa using i1), List.filter_cons_of_pos (by simpa using i2)] at tl
  exact tl.touch (i := (((h.tseq t).vals.take k).filter (Inside h u ·)).length) (by simp) (by simp)

end

theorem entryAt_none {h : Heap} {a : ARef} {i j k : Nat}
    (hn : ∀ g t, (h.agroups a)[i]? = some g → (h.gtiers g)[j]? = some t → (h.tseq t).vals[k]? = none) :
    entryAt a i j k h = .err .indexError h := by
  unfold entryAt
  mstep M.get_apply h
  cases hg : (h.agroups a)[i]? with
  | none => rfl
  | some g =>
    simp only
    cases ht : (h.gtiers g)[j]? with
    | none => rfl
    | some t =>
      simp only
      rw [hn g t hg ht]
      rfl

theorem mem_above {h : Heap} {g : GRef} {j : Nat} {s : TRef} (hs : (h.gtiers g)[j]? = some s) {u : Ref} (hu : u ∈ (h.tseq s).vals) :
    (h.start u, h.stop u, h.label u) ∈ (((pageOf h g)[j + 1 - 1]?).map (·.2)).getD [] := by
  have : (pageOf h g)[j + 1 - 1]? = some (h.ct.name (h.tcls s), rowsOf h s) := by
    unfold pageOf; rw [List.getElem?_map, Nat.add_sub_cancel, hs]; rfl
  rw [this]
  simp only [Option.map_some, Option.getD_some, rowsOf, List.mem_map]
  exact ⟨u, hu, rfl⟩

end ATG
