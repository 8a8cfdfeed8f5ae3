import Verif.Lemmas.Lookup
import Verif.Props.Group
/-!
# C64: looking up the intervals of a group or textgrid at a time
-/
namespace ATG

/-- C64: on a group of tiers without overlaps, looking up a time never raises, and indexing the group with
    the result gives one interval of each tier, the one that contains the time. -/
theorem C64_group (h : Heap) (g : GRef) (time : Time) (hg : h.gpoint g = false)
    (hno : ∀ t ∈ h.gtiers g, NoOverlap h t) :
    ∃ idx, groupAt h g time = .ok idx ∧
      ∀ l, groupGet h g idx = .ok l ↔ AllAt h time (h.gtiers g) l := by
  obtain ⟨idx, e1, e2, e3, -⟩ := tiersGet_at h time (h.gtiers g) hno
  refine ⟨idx, by unfold groupAt; simpa [hg] using e1, fun l => ?_⟩
  unfold groupGet
  rw [if_neg (by simp [e2])]
  exact e3 l

/-- C64 in a group related by containment (C24): if the top tier has an interval at the time, the result is
    one interval per tier, and each is in the subset list of the one before it and has it as superset.  If
    it has none, no tier has one. -/
theorem C64_chain (h : Heap) (g : GRef) (time : Time) (hg : h.gpoint g = false)
    (hne : 2 ≤ (h.gtiers g).length) (al : AlignedTiers h (h.gtiers g))
    (rel : RelatedByContainment h (h.gtiers g)) :
    ∃ idx, groupAt h g time = .ok idx ∧
      ((∃ t u, (h.gtiers g)[0]? = some t ∧ u ∈ (h.tseq t).vals ∧ At h time u) →
        ∃ l, groupGet h g idx = .ok l ∧ AllAt h time (h.gtiers g) l ∧
          ∀ (i : Nat) x y, l[i]? = some x → l[i + 1]? = some y → y ∈ (h.subs x).vals ∧ h.sup y = some x) ∧
      ((∀ t, (h.gtiers g)[0]? = some t → ∀ u ∈ (h.tseq t).vals, ¬ At h time u) →
        ∀ (i : Nat), i < (h.gtiers g).length → idx[i]? = some none) := by
  have hno : ∀ t ∈ h.gtiers g, NoOverlap h t := by
    intro t ht
    obtain ⟨i, hi⟩ := List.mem_iff_getElem?.mp ht
    have hil := getElem?_lt hi
    cases i with
    | zero =>
      have : 1 < (h.gtiers g).length := hne
      exact Aligned.noOverlap (al.aligned 0 t _ hi (List.getElem?_eq_getElem this)).upperDisjoint
    | succ i =>
      have : i < (h.gtiers g).length := by omega
      exact Aligned.noOverlap (al.aligned i _ t (List.getElem?_eq_getElem this) hi).lowerDisjoint
  obtain ⟨idx, e1, e2, e3, e4⟩ := tiersGet_at h time (h.gtiers g) hno
  refine ⟨idx, by unfold groupAt; simpa [hg] using e1, ?_, ?_⟩
  · rintro ⟨t, u, ht, hu, au⟩
    have hcons : h.gtiers g = t :: (h.gtiers g).tail := by
      cases hgt : h.gtiers g with
      | nil => simp [hgt] at ht
      | cons a b => simp [hgt] at ht; simp [ht]
    obtain ⟨l, hl⟩ := chain_at h time (h.gtiers g).tail t u hu au (by
      intro i t1 t2 h1 h2
      rw [← hcons] at h1
      exact al.aligned i t1 t2 h1 (by rw [hcons]; simpa using h2))
    rw [← hcons] at hl
    refine ⟨u :: l, ?_, hl, ?_⟩
    · unfold groupGet
      rw [if_neg (by simp [e2])]
      exact (e3 _).mpr hl
    · intro i x y hx hy
      have h1 : i < (h.gtiers g).length := by rw [← hl.1]; exact getElem?_lt hx
      have h2 : i + 1 < (h.gtiers g).length := by rw [← hl.1]; exact getElem?_lt hy
      obtain ⟨x1, x2⟩ := hl.2 i _ x (List.getElem?_eq_getElem h1) hx
      obtain ⟨y1, y2⟩ := hl.2 (i + 1) _ y (List.getElem?_eq_getElem h2) hy
      have ali := al.aligned i _ _ (List.getElem?_eq_getElem h1) (List.getElem?_eq_getElem h2)
      obtain ⟨v, hv, iv⟩ := ali.covered y y1
      have hvx : v = x := by
        obtain ⟨a, ha⟩ := List.mem_iff_getElem?.mp hv
        obtain ⟨b, hb⟩ := List.mem_iff_getElem?.mp x1
        obtain ⟨ha', rfl⟩ := List.getElem?_eq_some_iff.mp ha
        obtain ⟨hb', rfl⟩ := List.getElem?_eq_some_iff.mp hb
        have hp := List.pairwise_iff_getElem.mp ali.upperDisjoint
        unfold Inside At at *
        rcases Nat.lt_trichotomy a b with hab | hab | hab
        · have := hp a b ha' hb' hab; exfalso; grind
        · subst hab; rfl
        · have := hp b a hb' ha' hab; exfalso; grind
      subst hvx
      have hs := (rel.subs i _ _ (List.getElem?_eq_getElem h1) (List.getElem?_eq_getElem h2) v x1).1
      have hy' : y ∈ (h.subs v).vals := by
        rw [hs, List.mem_filter]
        exact ⟨y1, by simpa using iv⟩
      exact ⟨hy', (rel.sup i _ _ (List.getElem?_eq_getElem h1) (List.getElem?_eq_getElem h2) v x1 y hy').1⟩
  · intro hnone i hi
    have key : ∀ (i : Nat) t, (h.gtiers g)[i]? = some t → ∀ x ∈ (h.tseq t).vals, ¬ At h time x := by
      intro i
      induction i with
      | zero => exact hnone
      | succ i ih =>
        intro t ht x hx ax
        have h1 : i < (h.gtiers g).length := by have := getElem?_lt ht; omega
        obtain ⟨v, hv, iv⟩ := (al.aligned i _ t (List.getElem?_eq_getElem h1) ht).covered x hx
        exact ih _ (List.getElem?_eq_getElem h1) v hv (by unfold Inside At at *; grind)
    exact (e4 i _ (List.getElem?_eq_getElem hi)).mpr (key i _ (List.getElem?_eq_getElem hi))

-- the hypotheses of C64_chain hold after relating the two words and three phones of `exAligned`
example : ∃ h', groupInit 0 [1, 0] false exAligned = .ok () h' ∧ h'.gtiers 0 = [0, 1] ∧
    AlignedTiers h' (h'.gtiers 0) ∧ RelatedByContainment h' (h'.gtiers 0) := by
  obtain ⟨h', e, g, r, s, -⟩ := C24_aligned 0 [1, 0] [0, 1] false exAligned exAligned_chain (by decide)
    (by simp) exAligned_aligned (exAligned_tidy.on _)
  exact ⟨h', e, g, by rw [g]; exact exAligned_aligned.congr s.start s.stop s.tseq s.cls s.tcls s.label s.ct,
    by rw [g]; exact r⟩

/-- C64: indexing a group with more or fewer positions than it has tiers raises. -/
theorem C64_length (h : Heap) (g : GRef) (idx : List (Option Nat)) (hl : idx.length ≠ (h.gtiers g).length) :
    groupGet h g idx = .error .exc := if_pos hl

/-- C64 fails at a time where some tier has no interval: the lookup answers `None` for it, and indexing the
    group with that answer is a `TypeError`. -/
theorem C64_none_violated (h : Heap) (g : GRef) (time : Time) (hg : h.gpoint g = false)
    (hno : ∀ t ∈ h.gtiers g, NoOverlap h t) (t : TRef) (ht : t ∈ h.gtiers g)
    (hx : ∀ x ∈ (h.tseq t).vals, ¬ At h time x) :
    ∃ idx, groupAt h g time = .ok idx ∧ groupGet h g idx = .error .typeError := by
  obtain ⟨idx, e1, e2, e3, -⟩ := tiersGet_at h time (h.gtiers g) hno
  refine ⟨idx, by unfold groupAt; simpa [hg] using e1, ?_⟩
  unfold groupGet
  rw [if_neg (by simp [e2])]
  have hall : ∀ p ∈ idx.zip (h.gtiers g), (∃ x, tierGet h p.2 p.1 = .ok x) ∨
      tierGet h p.2 p.1 = .error .typeError := by
    intro p hp
    obtain ⟨i, hi⟩ := List.mem_iff_getElem?.mp hp
    rw [List.getElem?_zip_eq_some] at hi
    have hm := (mapM_ok_iff _ _ _).mp e1
    have : ((h.gtiers g).map fun t => tierAt h t time)[i]? = (idx.map Except.ok)[i]? := by rw [hm]
    rw [List.getElem?_map, List.getElem?_map, hi.1, hi.2] at this
    simp only [Option.map_some, Option.some.injEq] at this
    cases ho : p.1 with
    | none => right; rfl
    | some k =>
      rw [ho] at this
      obtain ⟨y, hy, -⟩ := ((C19_interval_at h p.2 time (hno _ (List.mem_of_getElem? hi.2))).1 k).mp this
      left; exact ⟨y, by simp [tierGet, hy]⟩
  cases e : (idx.zip (h.gtiers g)).mapM (fun p => tierGet h p.2 p.1) with
  | ok l =>
    obtain ⟨i, hi⟩ := List.mem_iff_getElem?.mp ht
    have hl := (e3 l).mp e
    have hlt : i < l.length := by rw [hl.1]; exact getElem?_lt hi
    obtain ⟨m, am⟩ := hl.2 i t _ hi (List.getElem?_eq_getElem hlt)
    exact absurd am (hx _ m)
  | error er =>
    exact congrArg _ (mapM_error_of _ _ _ hall er e)

/-- C64 for a textgrid: if indexing each interval group with its own lookup works, indexing the textgrid with
    the lookup of the textgrid gives the intervals of all groups. -/
theorem C64_textgrid (h : Heap) (a : ARef) (time : Time) (hne : h.agroups a ≠ [])
    (hg : ∀ g ∈ h.agroups a, h.gpoint g = false) (hno : ∀ g ∈ h.agroups a, ∀ t ∈ h.gtiers g, NoOverlap h t) :
    ∃ idx, atgAt h a time = .ok idx ∧
      ∀ ls, atgGet h a idx = .ok ls ↔ ls.length = (h.agroups a).length ∧
        ∀ (i : Nat) g l, (h.agroups a)[i]? = some g → ls[i]? = some l → AllAt h time (h.gtiers g) l := by
  obtain ⟨idx, e1, e2, e3⟩ := groupsGet_at h time (h.agroups a) (fun g hm => C64_group h g time (hg g hm) (hno g hm))
  refine ⟨idx, e1, fun ls => ?_⟩
  unfold atgGet
  rw [if_neg (by simp [e2]), if_neg (by rw [e2]; simpa using hne)]
  exact e3 ls

/-- two words with two phones each -/
def exLookup : Heap := run0 (do
  let _ ← newTierFrom [(0, 2, "ab"), (2, 4, "cd")] cWord "Word"
  let _ ← newTierFrom [(0, 1, "a"), (1, 2, "b"), (2, 3, "c"), (3, 4, "d")] cPhone "Phone"
  let g ← newGroup [0, 1]
  newAtgOf [g])

-- at 2.5 the second word and its first phone; the end of a word belongs to the next; outside there is nothing
example : groupAt exLookup 0 (5/2) = .ok [some 1, some 2] ∧ groupGet exLookup 0 [some 1, some 2] = .ok [1, 4] ∧
    exLookup.sup 4 = some 1 ∧ atgGet exLookup 0 [[some 1, some 2]] = .ok [[1, 4]] ∧
    groupAt exLookup 0 2 = .ok [some 1, some 2] ∧ groupAt exLookup 0 4 = .ok [none, none] ∧
    groupGet exLookup 0 [none, none] = .error .typeError ∧ groupGet exLookup 0 [some 1] = .error .exc ∧
    exLookup.gpoint 0 = false ∧ ∀ t ∈ exLookup.gtiers 0, NoOverlap exLookup t := by decide +kernel

end ATG
