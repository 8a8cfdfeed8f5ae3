import Verif.Lemmas.ClipBuild
import Verif.Props.TgImport
/-!
# What is left of two tiers is determined and starts and ends with them
-/
namespace ATG

theorem parts_unique {α} : ∀ (ps qs : List (List α)), ps.length = qs.length → ps.flatten = qs.flatten →
    (∀ (i j : Nat) p q x, ps[i]? = some p → qs[j]? = some q → x ∈ p → x ∈ q → i = j) → ps = qs
  | [], [], _, _, _ => rfl
  | [], _ :: _, h, _, _ => by cases h
  | _ :: _, [], h, _, _ => by cases h
  | a :: ps, b :: qs, hl, hf, hk => by
    rw [List.flatten_cons, List.flatten_cons] at hf
    have hin : ∀ (l : List (List α)) x, x ∈ l.flatten → ∃ (i : Nat) (p : List α), l[i]? = some p ∧ x ∈ p := by
      intro l x hx
      obtain ⟨p, hp, hxp⟩ := List.mem_flatten.mp hx
      obtain ⟨i, hi⟩ := List.mem_iff_getElem?.mp hp
      exact ⟨i, p, hi, hxp⟩
    have hab : a = b := by
      rcases List.append_eq_append_iff.mp hf with ⟨c, h1, h2⟩ | ⟨c, h1, h2⟩
      · cases c with
        | nil => rw [h1, List.append_nil]
        | cons x c =>
          obtain ⟨i, p, hi, hx⟩ := hin ps x (by rw [h2]; simp)
          have := hk (i + 1) 0 p b x hi rfl hx (by rw [h1]; simp)
          cases this
      · cases c with
        | nil => rw [h1, List.append_nil]
        | cons x c =>
          obtain ⟨i, p, hi, hx⟩ := hin qs x (by rw [h2]; simp)
          have := hk 0 (i + 1) a p x rfl hi (by rw [h1]; simp) hx
          cases this
    subst hab
    rw [parts_unique ps qs (by simpa using hl) (List.append_cancel_left hf) (fun i j p q x h1 h2 h3 h4 => by
      have := hk (i + 1) (j + 1) p q x h1 h2 h3 h4
      omega)]

theorem Divided.unique {upper lower : List (Time × Time × String)} {ps qs : List (List (Time × Time × String))}
    (d1 : Divided upper lower ps) (d2 : Divided upper lower qs) : ps = qs := by
  refine parts_unique ps qs (by rw [d1.len, d2.len]) (by rw [d1.flat, d2.flat]) ?_
  intro i j p q x h1 h2 h3 h4
  have hi : i < upper.length := by rw [← d1.len]; exact (List.getElem?_eq_some_iff.mp h1).1
  have hj : j < upper.length := by rw [← d2.len]; exact (List.getElem?_eq_some_iff.mp h2).1
  have wi := List.getElem?_eq_getElem hi
  have wj := List.getElem?_eq_getElem hj
  have m1 := d1.most i _ p wi h1 x h3 j _ wj
  have m2 := d2.most j _ q wj h2 x h4 i _ wi
  rcases Nat.lt_trichotomy i j with h | h | h
  · have := m2.2 h
    grind
  · exact h
  · have := m1.2 h
    grind

theorem Clipped.leftOf {ts ts' : List PTier} {lo hi : Time} (la : LooselyAligned ts lo hi) (c : Clipped ts ts') : LeftOf ts ts' := by
  obtain ⟨n, m, upper, lower, parts, rfl, dv, rfl⟩ := c
  have tu : TilesS (rawSpans upper) lo hi := la.tiled (n, upper) (by simp)
  have tl : TilesS (rawSpans lower) lo hi := la.tiled (m, lower) (by simp)
  have := dv.unique (divided_partsOf tu tl (la.owns _ _ rfl))
  subst this
  exact Or.inr ⟨n, m, upper, lower, lo, hi, rfl, la, rfl⟩

theorem Clipped.good {ts ts' : List PTier} {lo hi : Time} (la : LooselyAligned ts lo hi) (c : Clipped ts ts') : GoodTiers ts' := by
  obtain ⟨n, m, upper, lower, parts, rfl, dv, rfl⟩ := c
  have tu : TilesS (rawSpans upper) lo hi := la.tiled (n, upper) (by simp)
  have tl : TilesS (rawSpans lower) lo hi := la.tiled (m, lower) (by simp)
  exact dv.left_good tu tl n m la.pos (la.label (n, upper) (by simp)) (la.label (m, lower) (by simp))

theorem Clipped.exists {ts : List PTier} {lo hi : Time} (la : LooselyAligned ts lo hi) : ∃ ts', Clipped ts ts' := by
  match ts, la.two with
  | [(n, upper), (m, lower)], _ =>
    have tu : TilesS (rawSpans upper) lo hi := la.tiled (n, upper) (by simp)
    have tl : TilesS (rawSpans lower) lo hi := la.tiled (m, lower) (by simp)
    exact ⟨_, n, m, upper, lower, _, rfl, divided_partsOf tu tl (la.owns _ _ rfl), rfl⟩

/-- what is left starts and ends with the tiers -/
theorem Clipped.reaches {ts ts' : List PTier} {lo hi : Time} (la : LooselyAligned ts lo hi) (c : Clipped ts ts') : Reaches ts' lo hi := by
  obtain ⟨n, m, upper, lower, parts, rfl, dv, rfl⟩ := c
  have tu : TilesS (rawSpans upper) lo hi := la.tiled (n, upper) (by simp)
  have tl : TilesS (rawSpans lower) lo hi := la.tiled (m, lower) (by simp)
  have ne0 : ∀ {l : List (Time × Time × String)} {a b : Time}, TilesS (rawSpans l) a b → l ≠ [] := by
    intro l a b t e
    subst e
    exact t.ne rfl
  have hune := ne0 tu
  have hlne := ne0 tl
  -- the bounds
  have bu : ∀ w' ∈ uppersLeft upper parts, lo ≤ w'.1 ∧ w'.2.1 ≤ hi := by
    intro w' hw
    obtain ⟨k, hk⟩ := List.mem_iff_getElem?.mp hw
    obtain ⟨w, part, g1, g2, rfl⟩ := of_uppersLeft hk
    have h1 := tu.bounds.2 _ (mem_rawSpans (List.mem_of_getElem? g1))
    have h2 := clipUpper_within w part
    constructor
    · exact Rat.le_trans h1.1 h2.1
    · exact Rat.le_trans h2.2.1 h1.2.2
  have bl : ∀ p' ∈ (partsLeft upper parts).flatten, lo ≤ p'.1 ∧ p'.2.1 ≤ hi := by
    intro p' hp
    obtain ⟨l, hl, hpl⟩ := List.mem_flatten.mp hp
    obtain ⟨k, hk⟩ := List.mem_iff_getElem?.mp hl
    obtain ⟨w, part, g1, g2, rfl⟩ := of_partsLeft hk
    obtain ⟨q, hq, rfl⟩ := List.mem_map.mp hpl
    have h1 := tu.bounds.2 _ (mem_rawSpans (List.mem_of_getElem? g1))
    unfold clip
    simp only at h1 ⊢
    constructor <;> grind
  -- the first entries
  have u0 : upper[0]? = some (upper.head hune) := by rw [← List.head?_eq_getElem?]; exact List.head?_eq_some_head hune
  obtain ⟨p0, hp0, hp0n⟩ := dv.get u0
  have hfirst : lower.head? = some (p0.head hp0n) := by
    rw [← dv.flat]
    cases parts with
    | nil => cases hp0
    | cons a parts =>
      cases hp0
      rw [List.flatten_cons, List.head?_append, List.head?_eq_some_head hp0n]
      rfl
  have s1 : (upper.head hune).1 = lo := tu.head (p := ((upper.head hune).1, (upper.head hune).2.1)) (by
    rw [rawSpans_head, List.head?_eq_some_head hune]; rfl)
  have s2 : (p0.head hp0n).1 = lo := tl.head (p := ((p0.head hp0n).1, (p0.head hp0n).2.1)) (by
    rw [rawSpans_head, hfirst]; rfl)
  -- the last entries
  have hk : upper.length - 1 < upper.length := by have := List.length_pos_iff.mpr hune; omega
  have u1 : upper[upper.length - 1]? = some (upper.getLast hune) := by
    rw [← List.getLast?_eq_getElem?]; exact List.getLast?_eq_some_getLast hune
  obtain ⟨p1, hp1, hp1n⟩ := dv.get u1
  have hlast : lower.getLast? = some (p1.getLast hp1n) := by
    have hpl : parts.getLast? = some p1 := by rw [List.getLast?_eq_getElem?, dv.len]; exact hp1
    obtain ⟨ys, rfl⟩ := List.getLast?_eq_some_iff.mp hpl
    rw [← dv.flat, List.flatten_append, List.getLast?_append]
    simp only [List.flatten_cons, List.flatten_nil, List.append_nil, List.getLast?_eq_some_getLast hp1n]
    rfl
  have e1 : (upper.getLast hune).2.1 = hi := tu.last (p := ((upper.getLast hune).1, (upper.getLast hune).2.1)) (by
    rw [rawSpans_last, List.getLast?_eq_some_getLast hune]; rfl)
  have e2 : (p1.getLast hp1n).2.1 = hi := tl.last (p := ((p1.getLast hp1n).1, (p1.getLast hp1n).2.1)) (by
    rw [rawSpans_last, hlast]; rfl)
  have two : ∀ {P : PTier → Prop}, P (n, uppersLeft upper parts) → P (m, (partsLeft upper parts).flatten) →
      ∀ t ∈ [(n, uppersLeft upper parts), (m, (partsLeft upper parts).flatten)], P t := by
    intro P h1 h2 t ht
    rcases List.mem_cons.mp ht with rfl | ht
    · exact h1
    · have := List.mem_singleton.mp ht
      subst this
      exact h2
  refine two ⟨⟨⟨_, List.mem_of_getElem? (uppersLeft_get u0 hp0), ?_⟩, fun p hp => (bu p hp).1⟩,
      ⟨_, List.mem_of_getElem? (uppersLeft_get u1 hp1), ?_⟩, fun p hp => (bu p hp).2⟩
    ⟨⟨⟨clip (upper.head hune) (p0.head hp0n), List.mem_flatten.mpr ⟨_, List.mem_of_getElem? (partsLeft_get u0 hp0),
        List.mem_map_of_mem (List.head_mem hp0n)⟩, ?_⟩, fun p hp => (bl p hp).1⟩,
      ⟨clip (upper.getLast hune) (p1.getLast hp1n), List.mem_flatten.mpr ⟨_, List.mem_of_getElem? (partsLeft_get u1 hp1),
        List.mem_map_of_mem (List.getLast_mem hp1n)⟩, ?_⟩, fun p hp => (bl p hp).2⟩
  · unfold clipUpper
    rw [List.head?_eq_some_head hp0n, List.getLast?_eq_some_getLast hp0n]
    simp only
    rw [s1, s2]
    grind
  · unfold clipUpper
    rw [List.head?_eq_some_head hp1n, List.getLast?_eq_some_getLast hp1n]
    simp only
    rw [e1, e2]
    grind
  · unfold clip
    simp only
    rw [s1, s2]
    grind
  · unfold clip
    simp only
    rw [e1, e2]
    grind

end ATG
