import Verif.Lemmas.RelateChain
/-!
# Alignment is transitive
-/
namespace ATG

theorem Tiles.cover {h : Heap} : ∀ (l : List Ref) (a b s : Time), Tiles h l a b → a ≤ s → s < b →
    ∃ x ∈ l, h.start x ≤ s ∧ s < h.stop x
  | [], _, _, _, t, _, _ => t.elim
  | [x], a, b, s, t, h1, h2 => by
    obtain ⟨t1, t2, -⟩ := t
    exact ⟨x, by simp, by rw [t1]; exact h1, by rw [t2]; exact h2⟩
  | x :: y :: r, a, b, s, t, h1, h2 => by
    obtain ⟨t1, t2, t3⟩ := t
    by_cases hs : s < h.stop x
    · exact ⟨x, by simp, by rw [t1]; exact h1, hs⟩
    · obtain ⟨z, hz, q⟩ := Tiles.cover (y :: r) (h.stop x) b s t3 (by grind) h2
      exact ⟨z, by simp [hz], q⟩

theorem Tiles.of_cover {h : Heap} : ∀ (l : List Ref) (a b : Time), a < b →
    l.Pairwise (fun x y => h.stop x ≤ h.start y) → (∀ x ∈ l, h.start x < h.stop x ∧ a ≤ h.start x ∧ h.stop x ≤ b) →
    (∀ s, a ≤ s → s < b → ∃ x ∈ l, h.start x ≤ s ∧ s < h.stop x) → Tiles h l a b
  | [], a, b, hab, _, _, hc => by
    obtain ⟨x, hx, -⟩ := hc a (by grind) hab
    simp at hx
  | [x], a, b, hab, _, hx, hc => by
    obtain ⟨p1, p2, p3⟩ := hx x (by simp)
    have hs : h.start x = a := by
      obtain ⟨y, hy, q1, -⟩ := hc a (by grind) hab
      simp only [List.mem_singleton] at hy
      subst hy
      grind
    refine ⟨hs, ?_, hab⟩
    by_cases e : h.stop x < b
    · obtain ⟨y, hy, -, q2⟩ := hc (h.stop x) (by grind) e
      simp only [List.mem_singleton] at hy
      subst hy
      grind
    · grind
  | x :: y :: r, a, b, hab, hp, hx, hc => by
    obtain ⟨p1, p2, p3⟩ := hx x (by simp)
    rw [List.pairwise_cons] at hp
    obtain ⟨r1, r2, r3⟩ := hx y (by simp)
    have hxy := hp.1 y (by simp)
    have hs : h.start x = a := by
      obtain ⟨z, hz, q1, -⟩ := hc a (by grind) hab
      rcases List.mem_cons.mp hz with rfl | hz
      · grind
      · have := hp.1 z hz
        have := hx z (by simp [List.mem_cons.mp hz])
        grind
    refine ⟨hs, by grind, Tiles.of_cover (y :: r) (h.stop x) b (by grind) hp.2 ?_ ?_⟩
    · intro z hz
      obtain ⟨z1, z2, z3⟩ := hx z (List.mem_cons_of_mem _ hz)
      exact ⟨z1, hp.1 z hz, z3⟩
    · intro s h1 h2
      obtain ⟨z, hz, q1, q2⟩ := hc s (by grind) h2
      rcases List.mem_cons.mp hz with rfl | hz
      · grind
      · exact ⟨z, hz, q1, q2⟩

theorem Aligned.trans {h : Heap} {us ms ls : List Ref} (a : Aligned h us ms) (b : Aligned h ms ls)
    (hpos : ∀ x ∈ ls, h.start x < h.stop x) : Aligned h us ls := by
  refine ⟨a.upperDisjoint, b.lowerDisjoint, ?_, ?_⟩
  · intro x hx
    obtain ⟨m, hm, i1⟩ := b.covered x hx
    obtain ⟨u, hu, i2⟩ := a.covered m hm
    unfold Inside at *
    exact ⟨u, hu, by grind, by grind⟩
  · intro u hu
    have t := a.tiled u hu
    refine Tiles.of_cover _ _ _ t.lt (b.lowerDisjoint.sublist List.filter_sublist) ?_ ?_
    · intro x hx
      obtain ⟨h1, h2⟩ := List.mem_filter.mp hx
      have h2 : Inside h u x := of_decide_eq_true h2
      exact ⟨hpos x h1, h2.1, h2.2⟩
    · intro s h1 h2
      obtain ⟨m, hm, q1, q2⟩ := t.cover _ _ _ s h1 h2
      obtain ⟨m1, m2⟩ := List.mem_filter.mp hm
      have m2 : Inside h u m := of_decide_eq_true m2
      obtain ⟨x, hx, r1, r2⟩ := (b.tiled m m1).cover _ _ _ s q1 q2
      obtain ⟨x1, x2⟩ := List.mem_filter.mp hx
      have x2 : Inside h m x := of_decide_eq_true x2
      refine ⟨x, List.mem_filter.mpr ⟨x1, ?_⟩, r1, r2⟩
      have : Inside h u x := by unfold Inside at *; grind
      simpa using this

end ATG
