import Verif.Lemmas.RelateChain
import Verif.Spec.Spans
/-!
# Alignment depends on the spans alone
-/
namespace ATG

theorem tiles_spans (h : Heap) : ∀ (l : List Ref) (a b : Time), Tiles h l a b ↔ TilesS (l.map h.span) a b
  | [], _, _ => Iff.rfl
  | [_], _, _ => Iff.rfl
  | x :: y :: r, a, b => by
    have := tiles_spans h (y :: r) (h.stop x) b
    exact and_congr Iff.rfl (and_congr Iff.rfl this)

theorem filter_spans (h : Heap) (u : Ref) (l : List Ref) :
    (l.filter (Inside h u ·)).map h.span = (l.map h.span).filter (InsideS (h.span u) ·) := by
  rw [List.filter_map]
  rfl

theorem aligned_spans (h : Heap) (us ls : List Ref) : Aligned h us ls ↔ AlignedS (us.map h.span) (ls.map h.span) := by
  constructor
  · intro a
    refine ⟨List.pairwise_map.mpr a.upperDisjoint, List.pairwise_map.mpr a.lowerDisjoint, ?_, ?_⟩
    · intro x hx
      obtain ⟨y, hy, rfl⟩ := List.mem_map.mp hx
      obtain ⟨u, hu, hi⟩ := a.covered y hy
      exact ⟨_, List.mem_map.mpr ⟨u, hu, rfl⟩, hi⟩
    · intro u hu
      obtain ⟨v, hv, rfl⟩ := List.mem_map.mp hu
      have := (tiles_spans h _ _ _).mp (a.tiled v hv)
      rw [filter_spans] at this
      exact this
  · intro a
    refine ⟨List.pairwise_map.mp a.upperDisjoint, List.pairwise_map.mp a.lowerDisjoint, ?_, ?_⟩
    · intro x hx
      obtain ⟨w, hw, hi⟩ := a.covered _ (List.mem_map.mpr ⟨x, hx, rfl⟩)
      obtain ⟨u, hu, rfl⟩ := List.mem_map.mp hw
      exact ⟨u, hu, hi⟩
    · intro u hu
      have := a.tiled _ (List.mem_map.mpr ⟨u, hu, rfl⟩)
      rw [← filter_spans] at this
      exact (tiles_spans h _ _ _).mpr this

/-- alignment carries over to lists with the same spans in another heap -/
theorem Aligned.of_spans {h h' : Heap} {us ls us' ls' : List Ref} (a : Aligned h us ls)
    (eu : us'.map h'.span = us.map h.span) (el : ls'.map h'.span = ls.map h.span) : Aligned h' us' ls' := by
  rw [aligned_spans, eu, el, ← aligned_spans]
  exact a

theorem AlignedS.self {l : List (Time × Time)} (d : l.Pairwise fun u v => u.2 ≤ v.1)
    (hp : ∀ x ∈ l, x.1 < x.2) : AlignedS l l := by
  refine ⟨d, d, fun x hx => ⟨x, hx, ⟨by grind, by grind⟩⟩, ?_⟩
  intro u hu
  have : l.filter (InsideS u ·) = [u] := by
    obtain ⟨s, t, rfl⟩ := List.append_of_mem hu
    have h1 := List.pairwise_append.mp d
    have h2 := List.pairwise_cons.mp h1.2.1
    rw [List.filter_append, List.filter_cons_of_pos (by simp [InsideS, Std.le_refl])]
    have ha : s.filter (InsideS u ·) = [] := by
      rw [List.filter_eq_nil_iff]
      intro y hy
      have q1 := h1.2.2 y hy u (by simp)
      have q2 := hp y (by simp [hy])
      simp only [InsideS]
      grind
    have hb : t.filter (InsideS u ·) = [] := by
      rw [List.filter_eq_nil_iff]
      intro y hy
      have q1 := h2.1 y hy
      have q2 := hp y (by simp [hy])
      simp only [InsideS]
      grind
    rw [ha, hb]
    rfl
  rw [this]
  exact ⟨rfl, rfl, hp u hu⟩

/-- a tier with the spans of another one is aligned with it -/
theorem Aligned.copy {h : Heap} {l l' : List Ref} (e : l'.map h.span = l.map h.span)
    (d : l.Pairwise fun u v => h.stop u ≤ h.start v) (hp : ∀ x ∈ l, h.start x < h.stop x) :
    Aligned h l l' ∧ Aligned h l' l := by
  have : AlignedS (l.map h.span) (l.map h.span) := by
    refine AlignedS.self (List.pairwise_map.mpr d) ?_
    intro x hx
    obtain ⟨y, hy, rfl⟩ := List.mem_map.mp hx
    exact hp y hy
  constructor
  · rw [aligned_spans, e]; exact this
  · rw [aligned_spans, e]; exact this

end ATG
