import Verif.Spec.Clip
import Verif.Lemmas.TilesS
import Verif.Props.Relate
/-!
# What is left of two tiers with different boundaries
-/
namespace ATG

theorem rawSpans_head {l : List (Time × Time × String)} : (rawSpans l).head? = l.head?.map fun p => (p.1, p.2.1) := by
  unfold rawSpans; rw [List.head?_map]

theorem rawSpans_last {l : List (Time × Time × String)} : (rawSpans l).getLast? = l.getLast?.map fun p => (p.1, p.2.1) := by
  unfold rawSpans; rw [List.getLast?_map]

theorem mem_rawSpans {l : List (Time × Time × String)} {p} (hp : p ∈ l) : (p.1, p.2.1) ∈ rawSpans l :=
  List.mem_map_of_mem (f := fun p : Time × Time × String => (p.1, p.2.1)) hp

/-- rows that tile some time are distinct -/
theorem rows_nodup {l : List (Time × Time × String)} {a b : Time} (t : TilesS (rawSpans l) a b) : l.Nodup := by
  have h1 := t.laid
  have h2 := h1.2
  unfold rawSpans at h2
  rw [List.pairwise_map] at h2
  rw [List.nodup_iff_pairwise_ne]
  refine h2.imp_of_mem ?_
  intro x y hx hy hxy e
  subst e
  have := h1.1 _ (mem_rawSpans hx)
  simp only at this hxy
  grind

theorem sortedSpans_of_laid {l : List (Time × Time)} (hl : Laid l) : SortedSpans l := by
  refine hl.2.imp_of_mem ?_
  intro p q hp hq hpq
  have h1 := hl.1 p hp
  have h2 := hl.1 q hq
  grind

/-- the parts into which the program divides the lower entries -/
def partsOf (upper lower : List (Time × Time × String)) : List (List (Time × Time × String)) :=
  slices (containers (rawSpans upper) (rawSpans lower)) lower upper.length

/-- each lower entry is handed to the first of the upper entries in which most of it lies -/
theorem divided_partsOf {upper lower : List (Time × Time × String)} {a b c d : Time} (tu : TilesS (rawSpans upper) a b)
    (tl : TilesS (rawSpans lower) c d)
    (owns : ∀ w ∈ upper, ∃ p ∈ lower, ∀ v ∈ upper, v ≠ w → common p v < common p w) :
    Divided upper lower (partsOf upper lower) := by
  have hune : rawSpans upper ≠ [] := tu.ne
  have hp := C23_partition (rawSpans upper) (rawSpans lower) lower hune (sortedSpans_of_laid tu.laid)
    (sortedSpans_of_laid tl.laid) (by simp [rawSpans])
  have hg := C23_greatest (rawSpans upper) (rawSpans lower) hune
  have hnd := rows_nodup tu
  have hlen : (rawSpans upper).length = upper.length := by simp [rawSpans]
  rw [hlen] at hp
  unfold partsOf
  generalize hc : containers (rawSpans upper) (rawSpans lower) = asg at *
  obtain ⟨h1, h2, h3⟩ := hp
  have hget : ∀ (i : Nat) p, lower[i]? = some p → (rawSpans lower)[i]? = some (p.1, p.2.1) := by
    intro i p hi; unfold rawSpans; rw [List.getElem?_map, hi]; rfl
  have hgetu : ∀ (i : Nat) s, (rawSpans upper)[i]? = some s → ∃ w, upper[i]? = some w ∧ s = (w.1, w.2.1) := by
    intro i s hi
    unfold rawSpans at hi
    rw [List.getElem?_map] at hi
    obtain ⟨w, q1, q2⟩ := Option.map_eq_some_iff.mp hi
    exact ⟨w, q1, q2.symm⟩
  have hgetu' : ∀ (i : Nat) w, upper[i]? = some w → (rawSpans upper)[i]? = some (w.1, w.2.1) := by
    intro i p hi; unfold rawSpans; rw [List.getElem?_map, hi]; rfl
  refine ⟨h2, h1, ?_, ?_⟩
  · intro l hl hnil
    obtain ⟨k, hk, e⟩ := List.mem_iff_getElem.mp hl
    have hk' : k < upper.length := by omega
    have e1 := h3 k hk'
    rw [List.getElem?_eq_getElem hk, e, hnil] at e1
    obtain ⟨x, hx, ho⟩ := owns upper[k] (List.getElem_mem hk')
    obtain ⟨i, hi, ei⟩ := List.mem_iff_getElem.mp hx
    obtain ⟨k', s', g1, g2, g3, -⟩ := hg i _ (hget i x (by rw [List.getElem?_eq_getElem hi, ei]))
    obtain ⟨w', g4, rfl⟩ := hgetu k' s' g2
    have hsame : w' = upper[k] := by
      apply Classical.byContradiction
      intro hn
      have q1 := ho w' (List.mem_of_getElem? g4) hn
      have q2 := g3 (upper[k].1, upper[k].2.1) (mem_rawSpans (List.getElem_mem hk'))
      unfold common at q1
      grind
    have hkk : k' = k := by
      obtain ⟨q1, q2⟩ := List.getElem?_eq_some_iff.mp g4
      exact (List.getElem_inj hnd).mp (q2.trans hsame)
    subst hkk
    have hmem : x ∈ List.map (fun x => x.1) (List.filter (fun p => p.2 == k') (lower.zip asg)) := by
      refine List.mem_map.mpr ⟨(x, k'), List.mem_filter.mpr ⟨?_, by simp⟩, rfl⟩
      have hi2 : i < asg.length := (List.getElem?_eq_some_iff.mp g1).1
      have : (lower.zip asg)[i]'(by simp; omega) = (x, k') := by
        rw [List.getElem_zip, ei, (List.getElem?_eq_some_iff.mp g1).2]
      rw [← this]
      exact List.getElem_mem _
    rw [← Option.some.inj e1] at hmem
    simp at hmem
  · intro k w part hk hl x hx j v hv
    have hk' : k < upper.length := (List.getElem?_eq_some_iff.mp hk).1
    rw [h3 k hk'] at hl
    rw [← Option.some.inj hl] at hx
    obtain ⟨⟨y, j'⟩, hy, rfl⟩ := List.mem_map.mp hx
    obtain ⟨hz, hj⟩ := List.mem_filter.mp hy
    have hj : j' = k := by simpa using hj
    subst hj
    obtain ⟨i, hi, e⟩ := List.mem_iff_getElem.mp hz
    rw [List.getElem_zip] at e
    have hil : i < lower.length := by simp at hi; omega
    have hia : i < asg.length := by simp at hi; omega
    have e1 : lower[i] = y := congrArg Prod.fst e
    have e2 : asg[i] = j' := congrArg Prod.snd e
    obtain ⟨k', s', g1, g2, g3, g4⟩ := hg i _ (hget i y (by rw [List.getElem?_eq_getElem hil, e1]))
    rw [List.getElem?_eq_getElem hia, e2] at g1
    cases g1
    rw [hgetu' _ w hk] at g2
    cases g2
    exact ⟨g3 _ (mem_rawSpans (List.mem_of_getElem? hv)), fun hlt => g4 j _ hlt (hgetu' j v hv)⟩

/-- what is common to an entry and each of several consecutive ones -/
theorem clip_tiles (w : Time × Time × String) : ∀ (part : List (Time × Time × String)) (c d : Time),
    TilesS (rawSpans part) c d → (∀ p ∈ part, 0 < common p w) →
    TilesS (rawSpans (part.map (clip w))) (max w.1 c) (min w.2.1 d)
  | [], _, _, t, _ => t.elim
  | [p], c, d, t, hp => by
    obtain ⟨h1, h2, h3⟩ := t
    have := hp p (by simp)
    simp only at h1 h2
    unfold common shared at this
    simp only at this
    exact ⟨by show max w.1 p.1 = _; rw [h1], by show min w.2.1 p.2.1 = _; rw [h2], by grind⟩
  | p :: q :: r, c, d, t, hp => by
    obtain ⟨h1, h2, h3⟩ := t
    have ih := clip_tiles w (q :: r) p.2.1 d h3 fun x hx => hp x (by simp only [List.mem_cons] at hx ⊢; exact Or.inr hx)
    have g1 := hp p (by simp)
    have g2 := hp q (by simp)
    have g3 : q.1 = p.2.1 := h3.head (by rfl)
    have g4 : p.1 = c := h1
    unfold common shared at g1 g2
    simp only at g1 g2
    have e1 : max w.1 p.2.1 = p.2.1 := by grind
    have e2 : min w.2.1 p.2.1 = p.2.1 := by grind
    refine ⟨by show max w.1 p.1 = _; rw [g4], by show max w.1 c < min w.2.1 p.2.1; rw [e2]; grind, ?_⟩
    show TilesS (rawSpans ((q :: r).map (clip w))) (min w.2.1 p.2.1) _
    rw [e2]
    rw [e1] at ih
    exact ih

section
variable {upper lower : List (Time × Time × String)} {parts : List (List (Time × Time × String))} {lo hi : Time}
  (tu : TilesS (rawSpans upper) lo hi) (tl : TilesS (rawSpans lower) lo hi) (dv : Divided upper lower parts)
include dv

theorem Divided.get {k : Nat} {w} (hw : upper[k]? = some w) : ∃ part, parts[k]? = some part ∧ part ≠ [] := by
  have hk : k < parts.length := by rw [dv.len]; exact (List.getElem?_eq_some_iff.mp hw).1
  exact ⟨parts[k], List.getElem?_eq_getElem hk, dv.ne _ (List.getElem_mem hk)⟩

theorem Divided.mem {k : Nat} {part} (hp : parts[k]? = some part) {p} (h : p ∈ part) : p ∈ lower := by
  rw [← dv.flat]; exact List.mem_flatten.mpr ⟨part, List.mem_of_getElem? hp, h⟩

include tl in
theorem Divided.tiles {k : Nat} {part} (hp : parts[k]? = some part) : ∃ c d, TilesS (rawSpans part) c d := by
  have t : TilesS (parts.map rawSpans).flatten lo hi := by
    have : (parts.map rawSpans).flatten = rawSpans lower := by
      rw [← dv.flat]; unfold rawSpans; rw [List.map_flatten]
    rw [this]; exact tl
  refine t.part ?_ _ (List.mem_map_of_mem (List.mem_of_getElem? hp))
  intro l hl
  obtain ⟨m, hm, rfl⟩ := List.mem_map.mp hl
  have := dv.ne m hm
  unfold rawSpans
  simpa using this

include tu tl in
theorem Divided.common_pos {k : Nat} {w part} (hw : upper[k]? = some w) (hp : parts[k]? = some part) {p} (h : p ∈ part) :
    0 < common p w := by
  have hb := tl.bounds.2 _ (mem_rawSpans (dv.mem hp h))
  obtain ⟨s, hs, h1, h2⟩ := tu.overlaps hb.1 hb.2.1 hb.2.2
  obtain ⟨v, hv, rfl⟩ := List.mem_map.mp hs
  obtain ⟨j, hj⟩ := List.mem_iff_getElem?.mp hv
  have h3 := (dv.most k w part hw hp p h j v hj).1
  have h4 := (tu.bounds.2 _ (mem_rawSpans hv)).2.1
  have h5 := hb.2.1
  unfold common shared at *
  simp only at *
  grind

include tu tl in
theorem Divided.clip {k : Nat} {w part} (hw : upper[k]? = some w) (hp : parts[k]? = some part) :
    TilesS (rawSpans (part.map (ATG.clip w))) (clipUpper w part).1 (clipUpper w part).2.1 := by
  obtain ⟨c, d, t⟩ := dv.tiles tl hp
  have := clip_tiles w part c d t fun p h => dv.common_pos tu tl hw hp h
  have hne := dv.ne part (List.mem_of_getElem? hp)
  have e1 : part.head? = some (part.head hne) := List.head?_eq_some_head hne
  have e2 : part.getLast? = some (part.getLast hne) := List.getLast?_eq_some_getLast hne
  have g1 : (part.head hne).1 = c := t.head (p := ((part.head hne).1, (part.head hne).2.1)) (by rw [rawSpans_head, e1]; rfl)
  have g2 : (part.getLast hne).2.1 = d := t.last (p := ((part.getLast hne).1, (part.getLast hne).2.1)) (by rw [rawSpans_last, e2]; rfl)
  unfold clipUpper
  rw [e1, e2]
  simp only [g1, g2]
  exact this

omit dv in
theorem clipUpper_within (w : Time × Time × String) (part : List (Time × Time × String)) :
    w.1 ≤ (clipUpper w part).1 ∧ (clipUpper w part).2.1 ≤ w.2.1 ∧ (clipUpper w part).2.2 = w.2.2 := by
  unfold clipUpper
  split
  · simp only; grind
  · grind

/-- the upper entries that are left -/
def uppersLeft (upper : List (Time × Time × String)) (parts : List (List (Time × Time × String))) :=
  List.zipWith clipUpper upper parts
/-- the parts of the lower entries that are left -/
def partsLeft (upper : List (Time × Time × String)) (parts : List (List (Time × Time × String))) :=
  List.zipWith (fun w part => part.map (ATG.clip w)) upper parts

omit dv in
theorem uppersLeft_get {k : Nat} {w part} (hw : upper[k]? = some w) (hp : parts[k]? = some part) :
    (uppersLeft upper parts)[k]? = some (clipUpper w part) := by
  unfold uppersLeft; rw [List.getElem?_zipWith, hw, hp]

omit dv in
theorem partsLeft_get {k : Nat} {w part} (hw : upper[k]? = some w) (hp : parts[k]? = some part) :
    (partsLeft upper parts)[k]? = some (part.map (ATG.clip w)) := by
  unfold partsLeft; rw [List.getElem?_zipWith, hw, hp]

theorem uppersLeft_length : (uppersLeft upper parts).length = upper.length := by
  unfold uppersLeft; rw [List.length_zipWith, dv.len, Nat.min_self]

theorem partsLeft_length : (partsLeft upper parts).length = upper.length := by
  unfold partsLeft; rw [List.length_zipWith, dv.len, Nat.min_self]

omit dv in
theorem of_uppersLeft {k : Nat} {w'} (h : (uppersLeft upper parts)[k]? = some w') :
    ∃ w part, upper[k]? = some w ∧ parts[k]? = some part ∧ w' = clipUpper w part := by
  unfold uppersLeft at h
  rw [List.getElem?_zipWith] at h
  cases h1 : upper[k]? with
  | none => rw [h1] at h; cases h
  | some w =>
    cases h2 : parts[k]? with
    | none => rw [h1, h2] at h; cases h
    | some part => rw [h1, h2] at h; exact ⟨w, part, rfl, rfl, (Option.some.inj h).symm⟩

omit dv in
theorem of_partsLeft {k : Nat} {p'} (h : (partsLeft upper parts)[k]? = some p') :
    ∃ w part, upper[k]? = some w ∧ parts[k]? = some part ∧ p' = part.map (ATG.clip w) := by
  unfold partsLeft at h
  rw [List.getElem?_zipWith] at h
  cases h1 : upper[k]? with
  | none => rw [h1] at h; cases h
  | some w =>
    cases h2 : parts[k]? with
    | none => rw [h1, h2] at h; cases h
    | some part => rw [h1, h2] at h; exact ⟨w, part, rfl, rfl, (Option.some.inj h).symm⟩

include tu tl in
theorem Divided.left_tiles (k : Nat) (u : Time × Time) (p : List (Time × Time)) (h1 : (rawSpans (uppersLeft upper parts))[k]? = some u)
    (h2 : ((partsLeft upper parts).map rawSpans)[k]? = some p) : TilesS p u.1 u.2 := by
  unfold rawSpans at h1
  rw [List.getElem?_map] at h1
  obtain ⟨w', q1, rfl⟩ := Option.map_eq_some_iff.mp h1
  rw [List.getElem?_map] at h2
  obtain ⟨p', q2, rfl⟩ := Option.map_eq_some_iff.mp h2
  obtain ⟨w, part, g1, g2, rfl⟩ := of_uppersLeft q1
  rw [partsLeft_get g1 g2] at q2
  cases q2
  exact dv.clip tu tl g1 g2

include tu in
omit dv in
theorem uppersLeft_order : (rawSpans (uppersLeft upper parts)).Pairwise fun u v => u.2 ≤ v.1 := by
  rw [List.pairwise_iff_getElem]
  intro i j hi hj hij
  unfold rawSpans at hi hj ⊢
  rw [List.getElem_map, List.getElem_map]
  rw [List.length_map] at hi hj
  obtain ⟨w, part, g1, g2, e1⟩ := of_uppersLeft (List.getElem?_eq_getElem hi)
  obtain ⟨w2, part2, g3, g4, e2⟩ := of_uppersLeft (List.getElem?_eq_getElem hj)
  rw [e1, e2]
  have h1 := (clipUpper_within w part).2.1
  have h2 := (clipUpper_within w2 part2).1
  have h3 := tu.laid.2
  rw [List.pairwise_iff_getElem] at h3
  obtain ⟨b1, b2⟩ := List.getElem?_eq_some_iff.mp g1
  obtain ⟨b3, b4⟩ := List.getElem?_eq_some_iff.mp g3
  have := h3 i j (by simpa [rawSpans] using b1) (by simpa [rawSpans] using b3) hij
  unfold rawSpans at this
  rw [List.getElem_map, List.getElem_map, b2, b4] at this
  simp only at this ⊢
  grind

include tu tl in
theorem Divided.left_aligned : AlignedS (rawSpans (uppersLeft upper parts)) (rawSpans (partsLeft upper parts).flatten) := by
  have := alignedS_of_parts (us := rawSpans (uppersLeft upper parts)) (parts := (partsLeft upper parts).map rawSpans)
    (by rw [List.length_map, partsLeft_length dv]; unfold rawSpans; rw [List.length_map, uppersLeft_length dv])
    (uppersLeft_order tu) (dv.left_tiles tu tl)
  have e : ((partsLeft upper parts).map rawSpans).flatten = rawSpans (partsLeft upper parts).flatten := by
    unfold rawSpans; rw [List.map_flatten]
  rw [e] at this
  exact this

include tu tl in
theorem Divided.left_good (n m : String) (hpos : 0 < lo) (hu : ∀ p ∈ upper, p.2.2 ≠ "#") (hl : ∀ p ∈ lower, p.2.2 ≠ "#") :
    GoodTiers [(n, uppersLeft upper parts), (m, (partsLeft upper parts).flatten)] := by
  have al := dv.left_aligned tu tl
  have hwu : ∀ w' ∈ uppersLeft upper parts, ∃ (k : Nat) (w : Time × Time × String) (part : List (Time × Time × String)), upper[k]? = some w ∧ parts[k]? = some part ∧ w' = clipUpper w part := by
    intro w' hw
    obtain ⟨k, hk⟩ := List.mem_iff_getElem?.mp hw
    exact ⟨k, of_uppersLeft hk⟩
  have hpl : ∀ p' ∈ (partsLeft upper parts).flatten, ∃ (k : Nat) (w : Time × Time × String) (part : List (Time × Time × String)), upper[k]? = some w ∧ parts[k]? = some part ∧
      p' ∈ part.map (ATG.clip w) := by
    intro p' hp
    obtain ⟨l, hl, hpl⟩ := List.mem_flatten.mp hp
    obtain ⟨k, hk⟩ := List.mem_iff_getElem?.mp hl
    obtain ⟨w, part, g1, g2, rfl⟩ := of_partsLeft hk
    exact ⟨k, w, part, g1, g2, hpl⟩
  have hup : ∀ w' ∈ uppersLeft upper parts, w'.1 < w'.2.1 ∧ lo ≤ w'.1 := by
    intro w' hw
    obtain ⟨k, w, part, g1, g2, rfl⟩ := hwu w' hw
    have h1 := (tu.bounds.2 _ (mem_rawSpans (List.mem_of_getElem? g1))).1
    exact ⟨(dv.clip tu tl g1 g2).bounds.1, Rat.le_trans h1 (clipUpper_within w part).1⟩
  have hlp : ∀ p' ∈ (partsLeft upper parts).flatten, p'.1 < p'.2.1 ∧ lo ≤ p'.1 := by
    intro p' hp
    obtain ⟨k, w, part, g1, g2, hm⟩ := hpl p' hp
    have h1 := (dv.clip tu tl g1 g2).bounds.2 _ (mem_rawSpans hm)
    have h2 := (tu.bounds.2 _ (mem_rawSpans (List.mem_of_getElem? g1))).1
    exact ⟨h1.2.1, Rat.le_trans (Rat.le_trans h2 (clipUpper_within w part).1) h1.1⟩
  have two : ∀ {P : PTier → Prop}, P (n, uppersLeft upper parts) → P (m, (partsLeft upper parts).flatten) →
      ∀ t ∈ [(n, uppersLeft upper parts), (m, (partsLeft upper parts).flatten)], P t := by
    intro P h1 h2 t ht
    rcases List.mem_cons.mp ht with rfl | ht
    · exact h1
    · have := List.mem_singleton.mp ht
      subst this
      exact h2
  have hune : upper ≠ [] := by
    intro e
    have := tu.ne
    rw [e] at this
    exact this rfl
  have hu0 : upper[0]? = some (upper.head hune) := by rw [← List.head?_eq_getElem?]; exact List.head?_eq_some_head hune
  obtain ⟨part0, hp0, hpne⟩ := dv.get hu0
  refine ⟨two ?_ ?_, two ?_ ?_, two ?_ ?_, two ?_ ?_, ?_⟩
  · intro e
    exact absurd (congrArg List.length e) (by
      have := uppersLeft_length dv
      show (uppersLeft upper parts).length ≠ 0
      rw [this]
      exact fun q => hune (List.length_eq_zero_iff.mp q))
  · intro e
    have : part0.map (ATG.clip (upper.head hune)) ≠ [] := by simpa using hpne
    obtain ⟨x, hx⟩ := List.exists_mem_of_ne_nil _ this
    have hm : x ∈ (partsLeft upper parts).flatten := List.mem_flatten.mpr ⟨_, List.mem_of_getElem? (partsLeft_get hu0 hp0), hx⟩
    have e : (partsLeft upper parts).flatten = [] := e
    rw [e] at hm
    cases hm
  · intro p hp
    obtain ⟨k, w, part, g1, g2, rfl⟩ := hwu p hp
    rw [(clipUpper_within w part).2.2]
    exact hu w (List.mem_of_getElem? g1)
  · intro p hp
    obtain ⟨k, w, part, g1, g2, hm⟩ := hpl p hp
    obtain ⟨q, hq, rfl⟩ := List.mem_map.mp hm
    exact hl q (dv.mem g2 hq)
  · refine ⟨?_, al.upperDisjoint⟩
    intro s hs
    obtain ⟨w', hw, rfl⟩ := List.mem_map.mp hs
    exact (hup w' hw).1
  · refine ⟨?_, al.lowerDisjoint⟩
    intro s hs
    obtain ⟨p', hp, rfl⟩ := List.mem_map.mp hs
    exact (hlp p' hp).1
  · intro _ p hp
    have := (hup p hp).2
    grind
  · intro _ p hp
    have := (hlp p hp).2
    grind
  · intro i t u h1 h2
    match i with
    | 0 =>
      simp only [List.getElem?_cons_zero, Option.some.injEq] at h1
      simp only [List.getElem?_cons_succ, List.getElem?_cons_zero, Option.some.injEq] at h2
      subst h1 h2
      exact al
    | i + 1 => simp at h2

/-- each upper entry keeps its label, and so does each lower one -/
theorem Divided.left_labels : (uppersLeft upper parts).map (·.2.2) = upper.map (·.2.2) ∧
    (partsLeft upper parts).flatten.map (·.2.2) = lower.map (·.2.2) := by
  constructor
  · apply List.ext_getElem?
    intro k
    rw [List.getElem?_map, List.getElem?_map]
    cases h1 : upper[k]? with
    | none =>
      rw [List.getElem?_eq_none (by rw [uppersLeft_length dv]; exact List.getElem?_eq_none_iff.mp h1)]
    | some w =>
      obtain ⟨part, h2, -⟩ := dv.get h1
      rw [uppersLeft_get h1 h2]
      simp only [Option.map_some, (clipUpper_within w part).2.2]
  · conv => rhs; rw [← dv.flat]
    rw [List.map_flatten, List.map_flatten]
    congr 1
    apply List.ext_getElem?
    intro k
    rw [List.getElem?_map, List.getElem?_map]
    cases h1 : parts[k]? with
    | none =>
      rw [List.getElem?_eq_none (by rw [partsLeft_length dv, ← dv.len]; exact List.getElem?_eq_none_iff.mp h1)]
    | some part =>
      have hk : k < upper.length := by rw [← dv.len]; exact (List.getElem?_eq_some_iff.mp h1).1
      rw [partsLeft_get (List.getElem?_eq_getElem hk) h1]
      simp only [Option.map_some, List.map_map]
      rfl
end

end ATG
