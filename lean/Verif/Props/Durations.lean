import Verif.Props.GroupConcat
import Verif.Props.Mismatch
/-!
# C85: durations add up
-/
namespace ATG

theorem duration_tiles (h : Heap) : ∀ (l : List Ref) (a b : Time), Tiles h l a b → (l.map h.duration).sum = b - a
  | [], _, _, t => t.elim
  | [x], a, b, t => by
    obtain ⟨h1, h2, -⟩ := t
    unfold Heap.duration
    rw [List.map_singleton, List.sum_singleton, h1, h2]
  | x :: y :: r, a, b, t => by
    obtain ⟨h1, -, h3⟩ := t
    rw [List.map_cons, List.sum_cons, duration_tiles h (y :: r) _ b h3]
    unfold Heap.duration
    rw [h1]
    grind

theorem sum_flatMap_map {α} (f : α → Time) (g : α → List α) : ∀ (l : List α), (∀ x ∈ l, ((g x).map f).sum = f x) →
    ((l.flatMap g).map f).sum = (l.map f).sum
  | [], _ => rfl
  | x :: l, hx => by
    rw [List.flatMap_cons, List.map_append, List.sum_append, List.map_cons, List.sum_cons, hx x (by simp),
      sum_flatMap_map f g l fun y hy => hx y (by simp [hy])]

/-- C85: in a group of aligned tiers, related by containment, the durations of the entries any number `k` of levels below
    an interval add up to its duration. -/
theorem C85_below {h : Heap} {g : GRef} {ts : List TRef} (r : RelatedGroup h g ts) : ∀ (k i : Nat) (t : TRef),
    ts[i]? = some t → i + k < ts.length → ∀ u ∈ (h.tseq t).vals,
      ((generation h k u).map h.duration).sum = h.duration u
  | 0, i, t, _, _, u, _ => by
    rw [show generation h 0 u = [u] from rfl, List.map_singleton, List.sum_singleton]
  | k + 1, i, t, hi, hlt, u, hu => by
    have hi' : ts[i + 1]? = some ts[i + 1] := List.getElem?_eq_getElem _
    obtain ⟨hs, -⟩ := r.related.subs i t _ hi hi' u hu
    have key : ∀ y ∈ (h.subs u).vals, ((generation h k y).map h.duration).sum = h.duration y := by
      intro y hy
      rw [hs] at hy
      exact C85_below r k (i + 1) _ hi' (by omega) y (List.mem_filter.mp hy).1
    show (((h.subs u).vals.flatMap (generation h k)).map h.duration).sum = h.duration u
    rw [sum_flatMap_map _ _ _ key, hs]
    exact duration_tiles h _ _ _ ((r.aligned.aligned i t _ hi hi').tiled u hu)

/-- C85: all tiers of such a group have the same total duration. -/
theorem C85_tiers {h : Heap} {g : GRef} {ts : List TRef} (r : RelatedGroup h g ts) {t u : TRef} (ht : t ∈ ts) (hu : u ∈ ts) :
    ((h.tseq t).vals.map h.duration).sum = ((h.tseq u).vals.map h.duration).sum := by
  have hpos : 0 < ts.length := List.length_pos_iff.mpr r.ne
  have h0 : ts[0]? = some ts[0] := List.getElem?_eq_getElem hpos
  have key : ∀ t ∈ ts, ((h.tseq t).vals.map h.duration).sum = ((h.tseq ts[0]).vals.map h.duration).sum := by
    intro t ht
    obtain ⟨i, hi⟩ := List.mem_iff_getElem?.mp ht
    rw [← r.generations h0 i t hi]
    refine sum_flatMap_map _ _ _ fun x hx => ?_
    exact C85_below r i 0 _ h0 (by have := (List.getElem?_eq_some_iff.mp hi).1; omega) x hx
  rw [key t ht, key u hu]

/-- C85: the `phones` of all words of such a group, one after the other, are the labels of the phone tier; the same for
    the `sub_labels` of any tier and the labels of the tier below it. -/
theorem C85_labels {h : Heap} {g : GRef} {ts : List TRef} (r : RelatedGroup h g ts) {i : Nat} {t u : TRef}
    (ht : ts[i]? = some t) (hu : ts[i + 1]? = some u) :
    (h.tseq t).vals.flatMap (subLabels h) = (h.tseq u).vals.map h.label := by
  have hpos : 0 < ts.length := List.length_pos_iff.mpr r.ne
  have h0 : ts[0]? = some ts[0] := List.getElem?_eq_getElem hpos
  rw [← r.generations h0 (i + 1) u hu, ← r.generations h0 i t ht]
  rw [show generation h (i + 1) = fun x => (generation h i x).flatMap fun y => (h.subs y).vals by
    funext x; exact generation_succ i x, ← List.flatMap_assoc, List.map_flatMap]
  rfl

theorem laid_total : ∀ (l : List (Time × Time)) (p q : Time × Time), l.head? = some p → l.getLast? = some q →
    (l.map fun s => s.2 - s.1).sum + ((gapsOf l).map fun s => s.2 - s.1).sum = q.2 - p.1
  | [], _, _, h1, _ => by cases h1
  | [a], p, q, h1, h2 => by
    cases h1
    cases h2
    simp [gapsOf]
    grind
  | a :: b :: l, p, q, h1, h2 => by
    cases h1
    have ih := laid_total (b :: l) b q rfl (by rw [← h2]; rfl)
    rw [List.map_cons, List.sum_cons]
    unfold gapsOf
    split
    next hq => grind
    next hq =>
      rw [List.map_cons, List.sum_cons]
      grind

/-- C85: the durations of the intervals of a tier without overlaps and the lengths of the gaps between them add up to
    the extent of the tier. -/
theorem C85_extent (h : Heap) (t : TRef) (hl : Laid ((h.tseq t).vals.map h.span)) (a b : Time) (ha : tierXmin h t = some a)
    (hb : tierXmax h t = some b) :
    ((h.tseq t).vals.map h.duration).sum + ((gapsOf ((h.tseq t).vals.map h.span)).map fun s => s.2 - s.1).sum = b - a := by
  obtain ⟨⟨x, hx, ex⟩, hxl⟩ := (tierXmin_iff h t a).mp ha
  obtain ⟨⟨y, hy, ey⟩, hyl⟩ := (tierXmax_iff h t b).mp hb
  generalize hv : (h.tseq t).vals = l at *
  cases l with
  | nil => cases hx
  | cons p l =>
    have hlast : (p :: l).getLast? = some ((p :: l).getLast (by simp)) := List.getLast?_eq_some_getLast _
    generalize hq : (p :: l).getLast (by simp) = q at hlast
    have hqm : q ∈ p :: l := List.mem_of_getLast? hlast
    have e := laid_total ((p :: l).map h.span) (h.span p) (h.span q) rfl (by rw [List.getLast?_map, hlast]; rfl)
    rw [List.map_map] at e
    refine Eq.trans e ?_
    have hpw := hl.2
    rw [List.pairwise_map] at hpw
    have h1 : h.start p = a := by
      have h2 := hxl p (by simp)
      rcases List.mem_cons.mp hx with rfl | hx
      · exact ex
      · have h3 : h.stop p ≤ h.start x := (List.pairwise_cons.mp hpw).1 x hx
        have h4 : h.start p < h.stop p := hl.1 (h.span p) (by simp)
        grind
    have h2 : h.stop q = b := by
      have h3 := hyl q hqm
      obtain ⟨pre, hpre⟩ := List.getLast?_eq_some_iff.mp hlast
      rw [hpre] at hy hpw
      rcases List.mem_append.mp hy with hy | hy
      · have h4 : h.stop y ≤ h.start q := (List.pairwise_append.mp hpw).2.2 y hy q (by simp)
        have h5 : h.start q < h.stop q := hl.1 (h.span q) (List.mem_map_of_mem hqm)
        grind
      · have : y = q := by simpa using hy
        rw [← this]; exact ey
    show h.stop q - h.start p = b - a
    rw [h1, h2]

example : ∃ h, (do let _ ← newGroup [0, 1]; newGroup [2, 3] : M GRef) exGridTiers = .ok 1 h ∧ RelatedGroup h 0 [0, 1] := by
  obtain ⟨h, e, c, -⟩ := exGridTiers_follow
  exact ⟨h, e, c.left⟩

/-- C85 fails for three levels that are not aligned: relating the second and third level moves the end of an interval
    after the first level has been fitted to it (`C60_levels_violated`), and the durations no longer add up; for phones
    after the last word one duration is negative. -/
theorem C85_violated :
    exThreeLevels.duration 0 = 4 ∧ ((generation exThreeLevels 1 0).map exThreeLevels.duration).sum = 3 ∧
    exPastEnd.duration 5 = -1 := by decide +kernel

end ATG
