import Verif.Spec.Spans
import Verif.Spec.Gaps
/-!
# Spans that follow each other without gaps
-/
namespace ATG

theorem TilesS.ne {l : List (Time × Time)} {a b : Time} (t : TilesS l a b) : l ≠ [] := by
  intro e; subst e; exact t

theorem TilesS.bounds : ∀ {l : List (Time × Time)} {a b : Time}, TilesS l a b →
    a < b ∧ ∀ p ∈ l, a ≤ p.1 ∧ p.1 < p.2 ∧ p.2 ≤ b
  | [], _, _, t => t.elim
  | [x], a, b, t => by
    obtain ⟨h1, h2, h3⟩ := t
    refine ⟨h3, fun p hp => ?_⟩
    have : p = x := by simpa using hp
    subst this
    grind
  | x :: y :: r, a, b, t => by
    obtain ⟨h1, h2, h3⟩ := t
    obtain ⟨q1, q2⟩ := h3.bounds
    refine ⟨by grind, fun p hp => ?_⟩
    rcases List.mem_cons.mp hp with rfl | hp
    · grind
    · have := q2 p hp
      grind

theorem TilesS.head {l : List (Time × Time)} {a b : Time} (t : TilesS l a b) {p} (hp : l.head? = some p) : p.1 = a := by
  match l, t with
  | [x], t => simp at hp; subst hp; exact t.1
  | x :: y :: r, t => simp at hp; subst hp; exact t.1

theorem TilesS.last : ∀ {l : List (Time × Time)} {a b : Time}, TilesS l a b → ∀ {p}, l.getLast? = some p → p.2 = b
  | [], _, _, t, _, _ => t.elim
  | [x], a, b, t, p, hp => by simp at hp; subst hp; exact t.2.1
  | x :: y :: r, a, b, t, p, hp => by
    rw [List.getLast?_cons_cons] at hp
    exact t.2.2.last hp

theorem TilesS.cons_iff {x : Time × Time} {l : List (Time × Time)} (hl : l ≠ []) {a b : Time} :
    TilesS (x :: l) a b ↔ x.1 = a ∧ a < x.2 ∧ TilesS l x.2 b := by
  cases l with
  | nil => exact absurd rfl hl
  | cons y r => exact Iff.rfl

theorem TilesS.append_iff : ∀ {l1 l2 : List (Time × Time)} {a b : Time}, l1 ≠ [] → l2 ≠ [] →
    (TilesS (l1 ++ l2) a b ↔ ∃ c, TilesS l1 a c ∧ TilesS l2 c b)
  | [], _, _, _, h1, _ => absurd rfl h1
  | [x], l2, a, b, _, h2 => by
    rw [List.singleton_append, TilesS.cons_iff h2]
    constructor
    · rintro ⟨q1, q2, q3⟩
      exact ⟨x.2, ⟨q1, rfl, q2⟩, q3⟩
    · rintro ⟨c, ⟨q1, q2, q3⟩, q4⟩
      exact ⟨q1, by rw [q2]; exact q3, by rw [q2]; exact q4⟩
  | x :: y :: r, l2, a, b, _, h2 => by
    rw [List.cons_append, TilesS.cons_iff (by simp), TilesS.append_iff (by simp) h2]
    constructor
    · rintro ⟨q1, q2, c, q3, q4⟩
      exact ⟨c, ⟨q1, q2, q3⟩, q4⟩
    · rintro ⟨c, ⟨q1, q2, q3⟩, q4⟩
      exact ⟨q1, q2, c, q3, q4⟩

theorem TilesS.laid : ∀ {l : List (Time × Time)} {a b : Time}, TilesS l a b → Laid l
  | [], _, _, t => t.elim
  | [x], a, b, t => ⟨fun p hp => (t.bounds.2 p hp).2.1, by simp⟩
  | x :: y :: r, a, b, t => by
    obtain ⟨h1, h2, h3⟩ := t
    have ih := h3.laid
    refine ⟨?_, ?_⟩
    · intro p hp
      rcases List.mem_cons.mp hp with rfl | hp
      · rw [h1]; exact h2
      · exact ih.1 p hp
    · refine List.pairwise_cons.mpr ⟨fun p hp => (h3.bounds.2 p hp).1, ih.2⟩

/-- something that lies within the tiled time overlaps one of the spans -/
theorem TilesS.overlaps : ∀ {l : List (Time × Time)} {a b : Time}, TilesS l a b → ∀ {s e : Time}, a ≤ s → s < e → e ≤ b →
    ∃ p ∈ l, p.1 < e ∧ s < p.2
  | [], _, _, t, _, _, _, _, _ => t.elim
  | [x], a, b, t, s, e, h1, h2, h3 => by
    obtain ⟨q1, q2, q3⟩ := t
    exact ⟨x, by simp, by grind, by grind⟩
  | x :: y :: r, a, b, t, s, e, h1, h2, h3 => by
    obtain ⟨q1, q2, q3⟩ := t
    by_cases hs : s < x.2
    · exact ⟨x, by simp, by grind, hs⟩
    · obtain ⟨p, hp, g⟩ := q3.overlaps (s := s) (e := e) (by grind) h2 h3
      exact ⟨p, by simp only [List.mem_cons] at hp ⊢; exact Or.inr hp, g⟩

/-- the entries of each part of a tiling tile -/
theorem TilesS.part : ∀ {parts : List (List (Time × Time))} {a b : Time}, TilesS parts.flatten a b →
    (∀ l ∈ parts, l ≠ []) → ∀ l ∈ parts, ∃ c d, TilesS l c d
  | [], _, _, t, _, _, _ => t.elim
  | [m], a, b, t, _, l, hl => by
    have : l = m := by simpa using hl
    subst this
    rw [List.flatten_cons, List.flatten_nil, List.append_nil] at t
    exact ⟨a, b, t⟩
  | m :: n :: r, a, b, t, hne, l, hl => by
    rw [List.flatten_cons, TilesS.append_iff (hne m (by simp)) (by simp [hne n])] at t
    obtain ⟨c, t1, t2⟩ := t
    rcases List.mem_cons.mp hl with rfl | hl
    · exact ⟨a, c, t1⟩
    · exact t2.part (fun l hl => hne l (by simp only [List.mem_cons] at hl ⊢; exact Or.inr hl)) l hl

/-- Parts that tile their own spans, these being in order, are what lies inside of these spans. -/
theorem filter_parts {α} (f : α → Time × Time) : ∀ (us : List (Time × Time)) (parts : List (List α)),
    parts.length = us.length → (us.Pairwise fun u v => u.2 ≤ v.1) →
    (∀ (k : Nat) u part, us[k]? = some u → parts[k]? = some part → TilesS (part.map f) u.1 u.2) →
    us.map (fun u => parts.flatten.filter (fun x => decide (InsideS u (f x)))) = parts
  | [], [], _, _, _ => rfl
  | [], _ :: _, h, _, _ => by cases h
  | _ :: _, [], h, _, _ => by cases h
  | u :: us, part :: parts, hlen, ho, ht => by
    have hlen' : parts.length = us.length := by simpa using hlen
    have ht' : ∀ (k : Nat) v p, us[k]? = some v → parts[k]? = some p → TilesS (p.map f) v.1 v.2 :=
      fun k v p h1 h2 => ht (k + 1) v p (by simpa using h1) (by simpa using h2)
    have ih := filter_parts f us parts hlen' (List.pairwise_cons.mp ho).2 ht'
    have hu := (List.pairwise_cons.mp ho).1
    have t0 : TilesS (part.map f) u.1 u.2 := ht 0 u part rfl rfl
    have hb0 := t0.bounds
    have hrest : ∀ x ∈ parts.flatten, ∃ v ∈ us, v.1 ≤ (f x).1 ∧ (f x).1 < (f x).2 := by
      intro x hx
      obtain ⟨p, hp, hxp⟩ := List.mem_flatten.mp hx
      obtain ⟨k, hk, e⟩ := List.mem_iff_getElem.mp hp
      have hk' : k < us.length := by omega
      have := (ht' k us[k] p (List.getElem?_eq_getElem hk') (by rw [List.getElem?_eq_getElem hk, e])).bounds.2 (f x)
        (List.mem_map_of_mem hxp)
      exact ⟨us[k], List.getElem_mem hk', this.1, this.2.1⟩
    rw [List.map_cons, List.flatten_cons]
    congr 1
    · rw [List.filter_append, List.filter_eq_self.mpr, List.filter_eq_nil_iff.mpr, List.append_nil]
      · intro x hx
        obtain ⟨v, hv, h1, h2⟩ := hrest x hx
        have := hu v hv
        simp only [decide_eq_true_eq, InsideS]
        grind
      · intro x hx
        have := hb0.2 (f x) (List.mem_map_of_mem hx)
        simp only [decide_eq_true_eq, InsideS]
        grind
    · refine Eq.trans (List.map_congr_left fun v hv => ?_) ih
      rw [List.filter_append, List.filter_eq_nil_iff.mpr, List.nil_append]
      intro x hx
      have h1 := hb0.2 (f x) (List.mem_map_of_mem hx)
      have h2 := hu v hv
      simp only [decide_eq_true_eq, InsideS]
      grind

theorem parts_disjoint : ∀ {us : List (Time × Time)} {parts : List (List (Time × Time))},
    parts.length = us.length → (us.Pairwise fun u v => u.2 ≤ v.1) →
    (∀ (k : Nat) u part, us[k]? = some u → parts[k]? = some part → TilesS part u.1 u.2) →
    parts.flatten.Pairwise fun x y => x.2 ≤ y.1
  | [], [], _, _, _ => by simp
  | [], _ :: _, h, _, _ => by cases h
  | _ :: _, [], h, _, _ => by cases h
  | u :: us, part :: parts, hlen, ho, ht => by
    have hlen' : parts.length = us.length := by simpa using hlen
    have ht' : ∀ (k : Nat) v p, us[k]? = some v → parts[k]? = some p → TilesS p v.1 v.2 :=
      fun k v p h1 h2 => ht (k + 1) v p (by simpa using h1) (by simpa using h2)
    have ih := parts_disjoint hlen' (List.pairwise_cons.mp ho).2 ht'
    have t0 : TilesS part u.1 u.2 := ht 0 u part rfl rfl
    rw [List.flatten_cons, List.pairwise_append]
    refine ⟨t0.laid.2, ih, ?_⟩
    intro x hx y hy
    obtain ⟨p, hp, hyp⟩ := List.mem_flatten.mp hy
    obtain ⟨k, hk, e⟩ := List.mem_iff_getElem.mp hp
    have hk' : k < us.length := by omega
    have h1 := (ht' k us[k] p (List.getElem?_eq_getElem hk') (by rw [List.getElem?_eq_getElem hk, e])).bounds.2 y hyp
    have h2 := t0.bounds.2 x hx
    have h3 := (List.pairwise_cons.mp ho).1 us[k] (List.getElem_mem hk')
    grind

theorem alignedS_of_parts {us : List (Time × Time)} {parts : List (List (Time × Time))} (hlen : parts.length = us.length)
    (ho : us.Pairwise fun u v => u.2 ≤ v.1)
    (ht : ∀ (k : Nat) u part, us[k]? = some u → parts[k]? = some part → TilesS part u.1 u.2) :
    AlignedS us parts.flatten := by
  have hf := filter_parts (fun x => x) us parts hlen ho (fun k u part h1 h2 => by
    rw [List.map_id']; exact ht k u part h1 h2)
  refine ⟨ho, parts_disjoint hlen ho ht, ?_, ?_⟩
  · intro x hx
    obtain ⟨p, hp, hxp⟩ := List.mem_flatten.mp hx
    obtain ⟨k, hk, e⟩ := List.mem_iff_getElem.mp hp
    have hk' : k < us.length := by omega
    have := (ht k us[k] p (List.getElem?_eq_getElem hk') (by rw [List.getElem?_eq_getElem hk, e])).bounds.2 x hxp
    exact ⟨us[k], List.getElem_mem hk', this.1, this.2.2⟩
  · intro u hu
    obtain ⟨k, hk, e⟩ := List.mem_iff_getElem.mp hu
    have hk' : k < parts.length := by omega
    have h1 := congrArg (·[k]?) hf
    simp only [List.getElem?_map, List.getElem?_eq_getElem hk, List.getElem?_eq_getElem hk', Option.map_some,
      Option.some.injEq, e] at h1
    rw [h1]
    exact ht k u parts[k] (by rw [List.getElem?_eq_getElem hk, e]) (List.getElem?_eq_getElem hk')

end ATG
