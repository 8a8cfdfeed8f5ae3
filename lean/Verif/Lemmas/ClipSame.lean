import Verif.Lemmas.ClipValue
/-!
# Tiers whose boundaries match are left as they are
-/
namespace ATG

/-- Parts of a tiling, each within its own span of another tiling of the same time, tile these spans. -/
theorem tiles_both : ∀ {us : List (Time × Time)} {parts : List (List (Time × Time))} {lo hi : Time}, TilesS us lo hi →
    TilesS parts.flatten lo hi → parts.length = us.length → (∀ l ∈ parts, l ≠ []) →
    (∀ (k : Nat) u l, us[k]? = some u → parts[k]? = some l → ∀ p ∈ l, u.1 ≤ p.1 ∧ p.2 ≤ u.2) →
    ∀ (k : Nat) u l, us[k]? = some u → parts[k]? = some l → TilesS l u.1 u.2
  | [], _, _, _, t, _, _, _, _ => t.elim
  | _ :: _, [], _, _, _, t, _, _, _ => t.elim
  | [u0], [l0], lo, hi, t, tp, _, _, _ => by
    intro k u l h1 h2
    match k with
    | 0 =>
      simp only [List.getElem?_cons_zero, Option.some.injEq] at h1 h2
      subst h1 h2
      rw [List.flatten_cons, List.flatten_nil, List.append_nil] at tp
      obtain ⟨q1, q2, q3⟩ := t
      rw [q1, q2]; exact tp
    | k + 1 => simp at h1
  | [_], _ :: _ :: _, _, _, _, _, h, _, _ => by simp at h
  | _ :: _ :: _, [_], _, _, _, _, h, _, _ => by simp at h
  | u0 :: u1 :: us, l0 :: l1 :: parts, lo, hi, t, tp, hlen, hne, hin => by
    obtain ⟨q1, q2, q3⟩ := t
    have hlf : (l1 :: parts).flatten ≠ [] := by simp [hne l1]
    rw [List.flatten_cons, TilesS.append_iff (hne l0 (by simp)) hlf] at tp
    obtain ⟨c, t1, t2⟩ := tp
    have hl1 : l1 ≠ [] := hne l1 (by simp)
    have hl0 : l0 ≠ [] := hne l0 (by simp)
    have hc1 : (l1.head hl1).1 = c := by
      refine t2.head ?_
      rw [List.flatten_cons, List.head?_append, List.head?_eq_some_head hl1]; rfl
    have hu1 : u1.1 = u0.2 := q3.head rfl
    have g1 := (hin 1 u1 l1 rfl rfl _ (List.head_mem hl1)).1
    have g2 := (hin 0 u0 l0 rfl rfl _ (List.getLast_mem hl0)).2
    have g3 : (l0.getLast hl0).2 = c := t1.last (List.getLast?_eq_some_getLast hl0)
    have hc : c = u0.2 := by grind
    subst hc
    have ih := tiles_both (us := u1 :: us) (parts := l1 :: parts) q3 t2 (by simpa using hlen)
      (fun l hl => hne l (by simp only [List.mem_cons] at hl ⊢; exact Or.inr hl))
      (fun k u l h1 h2 => hin (k + 1) u l (by simpa using h1) (by simpa using h2))
    intro k u l h1 h2
    match k with
    | 0 =>
      simp only [List.getElem?_cons_zero, Option.some.injEq] at h1 h2
      subst h1 h2
      rw [q1]; exact t1
    | k + 1 => exact ih k u l (by simpa using h1) (by simpa using h2)

section
variable {upper lower : List (Time × Time × String)} {parts : List (List (Time × Time × String))} {lo hi : Time}
  (tu : TilesS (rawSpans upper) lo hi) (tl : TilesS (rawSpans lower) lo hi) (dv : Divided upper lower parts)
  (hin : ∀ p ∈ lower, ∃ w ∈ upper, w.1 ≤ p.1 ∧ p.2.1 ≤ w.2.1)
include tl dv hin

theorem Divided.inside {k : Nat} {w part} (hw : upper[k]? = some w) (hp : parts[k]? = some part) {p} (h : p ∈ part) :
    w.1 ≤ p.1 ∧ p.2.1 ≤ w.2.1 := by
  have hb := (tl.bounds.2 _ (mem_rawSpans (dv.mem hp h))).2.1
  obtain ⟨v, hv, h1, h2⟩ := hin p (dv.mem hp h)
  obtain ⟨j, hj⟩ := List.mem_iff_getElem?.mp hv
  have h3 := (dv.most k w part hw hp p h j v hj).1
  unfold common shared at h3
  simp only at h3 hb
  grind

theorem Divided.partsLeft_same : partsLeft upper parts = parts := by
  apply List.ext_getElem?
  intro k
  cases h1 : parts[k]? with
  | none =>
    rw [List.getElem?_eq_none]
    rw [partsLeft_length dv, ← dv.len]; exact List.getElem?_eq_none_iff.mp h1
  | some part =>
    have hk : k < upper.length := by rw [← dv.len]; exact (List.getElem?_eq_some_iff.mp h1).1
    rw [partsLeft_get (List.getElem?_eq_getElem hk) h1]
    congr 1
    refine Eq.trans (List.map_congr_left fun p hp => ?_) (List.map_id _)
    obtain ⟨g1, g2⟩ := dv.inside tl hin (List.getElem?_eq_getElem hk) h1 hp
    show (max _ p.1, min _ p.2.1, p.2.2) = p
    rw [show max upper[k].1 p.1 = p.1 by grind, show min upper[k].2.1 p.2.1 = p.2.1 by grind]

include tu in
theorem Divided.uppersLeft_same : uppersLeft upper parts = upper := by
  have hf : (parts.map rawSpans).flatten = rawSpans lower := by
    rw [← dv.flat]; unfold rawSpans; rw [List.map_flatten]
  have key := tiles_both (us := rawSpans upper) (parts := parts.map rawSpans) tu (by rw [hf]; exact tl)
    (by rw [List.length_map, dv.len]; unfold rawSpans; rw [List.length_map])
    (by
      intro l hl
      obtain ⟨m, hm, rfl⟩ := List.mem_map.mp hl
      have := dv.ne m hm
      unfold rawSpans
      simpa using this)
    (by
      intro k u l h1 h2 p hp
      unfold rawSpans at h1
      rw [List.getElem?_map] at h1 h2
      obtain ⟨w, q1, rfl⟩ := Option.map_eq_some_iff.mp h1
      obtain ⟨part, q2, rfl⟩ := Option.map_eq_some_iff.mp h2
      obtain ⟨x, hx, rfl⟩ := List.mem_map.mp hp
      exact dv.inside tl hin q1 q2 hx)
  apply List.ext_getElem?
  intro k
  cases h1 : upper[k]? with
  | none =>
    rw [List.getElem?_eq_none]
    rw [uppersLeft_length dv]; exact List.getElem?_eq_none_iff.mp h1
  | some w =>
    obtain ⟨part, h2, hne⟩ := dv.get h1
    rw [uppersLeft_get h1 h2]
    congr 1
    have t := key k (w.1, w.2.1) (rawSpans part) (by unfold rawSpans; rw [List.getElem?_map, h1]; rfl)
      (by rw [List.getElem?_map, h2]; rfl)
    have e1 : part.head? = some (part.head hne) := List.head?_eq_some_head hne
    have e2 : part.getLast? = some (part.getLast hne) := List.getLast?_eq_some_getLast hne
    have g1 : (part.head hne).1 = w.1 := t.head (p := ((part.head hne).1, (part.head hne).2.1)) (by rw [rawSpans_head, e1]; rfl)
    have g2 : (part.getLast hne).2.1 = w.2.1 := t.last (p := ((part.getLast hne).1, (part.getLast hne).2.1)) (by rw [rawSpans_last, e2]; rfl)
    unfold clipUpper
    rw [e1, e2]
    simp only [g1, g2]
    rw [show max w.1 w.1 = w.1 by grind, show min w.2.1 w.2.1 = w.2.1 by grind]

end

end ATG
