import Verif.Lemmas.Fill
import Verif.Props.Queries
/-!
# C21, C55: cleaning up a tier
-/
namespace ATG

/-- A tier outside any group, as left by its constructor: existing entries of the tier's class, each of
    positive duration and ending before the next begins. -/
structure PlainTier (h : Heap) (t : TRef) : Prop where
  old : ∀ x ∈ (h.tseq t).vals, x < h.nE
  ecls : (h.tseq t).ecls = some (h.tcls t)
  laid : Laid ((h.tseq t).vals.map h.span)
  alone : h.twithin t = none
  sub : h.tsub t ≠ none

/-- a gap that numpy's tolerance does not hide -/
def RealGap (g : Time × Time) : Prop := ¬ CloseTo g.2 g.1

/-- the entries follow each other without gap or overlap -/
def Touching (h : Heap) (l : List Ref) : Prop :=
  ∀ (i : Nat) (x y : Ref), l[i]? = some x → l[i + 1]? = some y → h.stop x = h.start y

theorem CloseTo.refl (a : Time) : CloseTo a a := by
  unfold CloseTo; grind

theorem gapsOf_touching (h : Heap) (l : List Ref) : gapsOf (l.map h.span) = [] ↔ Touching h l := by
  rw [gapsOf_nil_iff]
  constructor
  · intro hall i x y hx hy
    exact hall i (h.span x) (h.span y) (by simp [hx]) (by simp [hy])
  · intro hall i p q hp hq
    simp only [List.getElem?_map, Option.map_eq_some_iff] at hp hq
    obtain ⟨x, hx, rfl⟩ := hp
    obtain ⟨y, hy, rfl⟩ := hq
    exact hall i x y hx hy

theorem mem_gapsOf (l : List (Time × Time)) (g : Time × Time) :
    g ∈ gapsOf l ↔ ∃ (i : Nat) (p q : Time × Time), l[i]? = some p ∧ l[i + 1]? = some q ∧ p.2 ≠ q.1 ∧ g = (p.2, q.1) := by
  match l with
  | [] => simp [gapsOf]
  | [a] => simp [gapsOf]
  | a :: b :: r =>
    have ih := mem_gapsOf (b :: r) g
    rw [gapsOf]
    constructor
    · intro hg
      split at hg
      · obtain ⟨i, p, q, h1, h2, h3⟩ := ih.mp hg
        exact ⟨i + 1, p, q, by simpa using h1, by simpa using h2, h3⟩
      · rename_i e
        rcases List.mem_cons.mp hg with hg | hg
        · exact ⟨0, a, b, rfl, rfl, e, hg⟩
        · obtain ⟨i, p, q, h1, h2, h3⟩ := ih.mp hg
          exact ⟨i + 1, p, q, by simpa using h1, by simpa using h2, h3⟩
    · rintro ⟨i, p, q, h1, h2, h3, h4⟩
      cases i with
      | zero =>
        simp at h1 h2
        subst h1; subst h2
        rw [if_neg h3]; simp [h4]
      | succ i =>
        have := ih.mpr ⟨i, p, q, by simpa using h1, by simpa using h2, h3, h4⟩
        split
        · exact this
        · exact List.mem_cons_of_mem _ this

/-- C21 (nothing to do): where every entry starts, within tolerance, at the end of the one before it,
    `cleanup()` changes nothing, whatever else is around. -/
theorem C21_clean (h : Heap) (t : TRef)
    (hc : ∀ (i : Nat) (x y : Ref), (h.tseq t).vals[i]? = some x → (h.tseq t).vals[i + 1]? = some y →
      CloseTo (h.start y) (h.stop x)) :
    tierCleanup t h = .ok () h := by
  unfold tierCleanup
  rw [Nat.add_comm]
  unfold tierCleanupN
  mstep rfl
  rw [if_pos (show tight (h.tstarts t) (h.tends t) = true from (tight_iff h _).mpr hc)]
  rfl

theorem PlainTier.notTight {h : Heap} {t : TRef} {g : Time × Time}
    (hg : g ∈ gapsOf ((h.tseq t).vals.map h.span)) (hr : RealGap g) : tight (h.tstarts t) (h.tends t) = false := by
  rw [Bool.eq_false_iff]
  intro ht
  obtain ⟨i, p, q, h1, h2, h3, rfl⟩ := (mem_gapsOf _ _).mp hg
  simp only [List.getElem?_map, Option.map_eq_some_iff] at h1 h2
  obtain ⟨x, hx, rfl⟩ := h1
  obtain ⟨y, hy, rfl⟩ := h2
  exact hr ((tight_iff h _).mp ht i x y hx hy)

theorem PlainTier.spans_eq (h : Heap) (t : TRef) (hl : Laid ((h.tseq t).vals.map h.span)) :
    gapPairs (h.tstarts t) (h.tends t) = gapsOf ((h.tseq t).vals.map h.span) := by
  rw [← gapPairs_eq _ hl]
  unfold Heap.tstarts Heap.tends
  rw [List.map_map, List.map_map]
  rfl

theorem blankedAll_tiers (c : CRef) (G : List (Time × Time)) :
    ∀ h : Heap, (blankedAll h c G).twithin = h.twithin ∧ (blankedAll h c G).tsub = h.tsub := by
  induction G with
  | nil => intro h; exact ⟨rfl, rfl⟩
  | cons g G ih => intro h; exact ih (blanked h c g.1 g.2)

/-- the run of `cleanup()` on a plain tier with a real gap, given the filling -/
theorem PlainTier.cleanup {h k : Heap} {t : TRef} (pt : PlainTier h t) {g : Time × Time}
    (hg : g ∈ gapsOf ((h.tseq t).vals.map h.span)) (hr : RealGap g)
    (hfill : tierFill t (gapsOf ((h.tseq t).vals.map h.span)) h = .ok () k)
    (hk : k.twithin = h.twithin ∧ k.tsub = h.tsub) : tierCleanup t h = .ok () k := by
  unfold tierCleanup
  rw [Nat.add_comm]
  unfold tierCleanupN
  mstep rfl
  rw [if_neg (by rw [PlainTier.notTight hg hr]; simp), PlainTier.spans_eq h t pt.laid]
  mstep hfill
  mstep rfl
  obtain ⟨d, hd⟩ := Option.ne_none_iff_exists'.mp pt.sub
  mstep (show isSubO (k.tsub t) cBottom k = Res.ok (k.ct.isSub d cBottom) k by rw [hk.2, hd]; rfl)
  have hw : withinTruthy k t = none := by unfold withinTruthy; rw [hk.1, pt.alone]
  rw [hw]
  cases k.ct.isSub d cBottom <;> rfl

/-- C21 for a tier outside a group whose times are positive and that has at least one gap beyond numpy's
    tolerance: `cleanup()` makes exactly one blank interval for each gap (the `i`-th new entry fills the
    `i`-th gap) and puts it between its neighbours. The old entries keep their order and everything about
    them, consecutive entries touch, nothing overlaps, other tiers are untouched, and a second `cleanup()`
    changes nothing. `_partial`: a start of `0` breaks it (`C21_zero_violated`), small gaps next to no
    greater one are left (`C21_clean`, `C21_tolerance_violated`). Missing: tiers in groups. -/
theorem C21_fills_partial (h : Heap) (t : TRef) (pt : PlainTier h t)
    (hz : ∀ x ∈ (h.tseq t).vals, 0 < h.start x) (g : Time × Time)
    (hg : g ∈ gapsOf ((h.tseq t).vals.map h.span)) (hr : RealGap g) :
    ∃ h' L', tierCleanup t h = .ok () h' ∧ h'.tseq t = ⟨L', some (h.tcls t)⟩ ∧
      (h.tseq t).vals.Sublist L' ∧
      L'.Perm ((h.tseq t).vals ++ List.range' h.nE (gapsOf ((h.tseq t).vals.map h.span)).length) ∧
      (∀ i s e, (gapsOf ((h.tseq t).vals.map h.span))[i]? = some (s, e) → IsBlank h' (h.tcls t) s e (h.nE + i)) ∧
      (∀ x, x < h.nE → SameEntry h h' x) ∧
      Touching h' L' ∧ Laid (L'.map h'.span) ∧
      (∀ u, u ≠ t → h'.tseq u = h.tseq u) ∧
      tierCleanup t h' = .ok () h' := by
  obtain ⟨L', hfill, hl, hgaps, hsub, hperm⟩ := tierFill_ok t (h.tcls t) _ h (h.tseq t).vals
    (by rw [← pt.ecls]) rfl pt.old pt.laid (fun _ => hz) rfl
  refine ⟨_, L', pt.cleanup hg hr hfill (blankedAll_tiers _ _ h), upd_same _ _ _, hsub, hperm, ?_, ?_, ?_, ?_, ?_, ?_⟩
  · intro i s e hi
    have := blankedAll_new (h.tcls t) _ h i s e hi
    exact ⟨this.cls, this.start, this.stop, this.label, this.fol, this.prev, this.subs, this.sup, this.intier⟩
  · intro x hx
    have := blankedAll_same (h.tcls t) (gapsOf ((h.tseq t).vals.map h.span)) h x hx
    exact ⟨this.cls, this.start, this.stop, this.label, this.fol, this.prev, this.subs, this.sup, this.intier,
      this.within⟩
  · exact (gapsOf_touching _ _).mp hgaps
  · exact hl
  · intro u hu
    exact upd_ne _ _ _ _ hu
  · apply C21_clean
    intro i x y hx hy
    have hseq : ∀ q : SL, upd h.tseq t q t = q := fun q => upd_same _ _ _
    have e := (gapsOf_touching _ _).mp hgaps i x y
      (by simpa only [hseq] using hx) (by simpa only [hseq] using hy)
    have e' : (blankedAll h (h.tcls t) (gapsOf ((h.tseq t).vals.map h.span))).stop x =
      (blankedAll h (h.tcls t) (gapsOf ((h.tseq t).vals.map h.span))).start y := e
    show CloseTo ((blankedAll h (h.tcls t) _).start y) ((blankedAll h (h.tcls t) _).stop x)
    rw [e']
    exact CloseTo.refl _

/-- C21 fails for every tier outside a group that has an entry starting at time `0` and a gap beyond the
    tolerance: the fillers all go to the end, so that the entries are no longer in time order. -/
theorem C21_zero_violated (h : Heap) (t : TRef) (pt : PlainTier h t)
    (hz : ∃ x ∈ (h.tseq t).vals, h.start x = 0) (g : Time × Time)
    (hg : g ∈ gapsOf ((h.tseq t).vals.map h.span)) (hr : RealGap g) :
    ∃ h', tierCleanup t h = .ok () h' ∧
      (h'.tseq t).vals = (h.tseq t).vals ++ List.range' h.nE (gapsOf ((h.tseq t).vals.map h.span)).length ∧
      ¬ SortedByStart h' (h'.tseq t).vals := by
  obtain ⟨h1, h2, -⟩ := gapsOf_starts _ pt.laid
  have hfill := tierFill_end t (h.tcls t) (gapsOf ((h.tseq t).vals.map h.span)) h (h.tseq t).vals
    (by rw [← pt.ecls]) rfl pt.old hz
    (fun g hg x hx => h1 g hg (h.span x) (List.mem_map_of_mem hx)) h2
  have hseq : ∀ q : SL, upd h.tseq t q t = q := fun q => upd_same _ _ _
  refine ⟨_, pt.cleanup hg hr hfill (blankedAll_tiers _ _ h), by simp only [hseq], ?_⟩
  simp only [hseq]
  intro hs
  obtain ⟨i, p, q, e1, e2, e3, rfl⟩ := (mem_gapsOf _ _).mp hg
  obtain ⟨j, hj⟩ := List.mem_iff_getElem?.mp hg
  simp only [List.getElem?_map, Option.map_eq_some_iff] at e1 e2
  obtain ⟨x, hx, rfl⟩ := e1
  obtain ⟨y, hy, rfl⟩ := e2
  have hjl := (List.getElem?_eq_some_iff.mp hj).1
  have hb := blankedAll_new (h.tcls t) _ h j _ _ hj
  have hy' : y ∈ (h.tseq t).vals := List.mem_iff_getElem?.mpr ⟨_, hy⟩
  have hsy := blankedAll_same (h.tcls t) (gapsOf ((h.tseq t).vals.map h.span)) h y (pt.old y hy')
  have := (List.pairwise_append.mp hs).2.2 y hy' (h.nE + j) (by rw [List.mem_range']; exact ⟨j, hjl, by omega⟩)
  have e4 : (blankedAll h (h.tcls t) (gapsOf ((h.tseq t).vals.map h.span))).start y ≤
    (blankedAll h (h.tcls t) (gapsOf ((h.tseq t).vals.map h.span))).start (h.nE + j) := this
  rw [hsy.start, hb.start] at e4
  have hpw := List.pairwise_map.mp pt.laid.2
  have hlt : h.stop x ≤ h.start y := by
    have hi := (List.getElem?_eq_some_iff.mp hx)
    have hi' := (List.getElem?_eq_some_iff.mp hy)
    have := List.pairwise_iff_getElem.mp hpw i (i + 1) hi.1 hi'.1 (by omega)
    rw [hi.2, hi'.2] at this
    exact this
  have e5 : h.start y ≤ h.stop x := e4
  have e6 : h.stop x ≠ h.start y := e3
  grind

/-- words with two gaps -/
def exGaps : Heap := run0 (do
  let _ ← newTierFrom [(1, 2, "a"), (3, 4, "b"), (4, 5, "c"), (7, 8, "d")] cWord "Word")

/-- the same words, the first one starting at `0` -/
def exGaps0 : Heap := run0 (do
  let _ ← newTierFrom [(0, 2, "a"), (3, 4, "b"), (4, 5, "c"), (7, 8, "d")] cWord "Word")

theorem exGaps_plain : PlainTier exGaps 0 :=
  ⟨by decide +kernel, by decide +kernel, by decide +kernel, by decide +kernel, by decide +kernel⟩

theorem exGaps0_plain : PlainTier exGaps0 0 :=
  ⟨by decide +kernel, by decide +kernel, by decide +kernel, by decide +kernel, by decide +kernel⟩

theorem realGap_1 : RealGap (2, 3) := by
  intro h
  have := h.1
  grind

example : ∃ h', tierCleanup 0 exGaps = .ok () h' ∧ Touching h' (h'.tseq 0).vals ∧ (h'.tseq 0).vals.length = 6 := by
  obtain ⟨h', L', e, e1, -, hp, -, -, ht, -⟩ := C21_fills_partial exGaps 0 exGaps_plain (by decide +kernel) (2, 3)
    (by decide +kernel) realGap_1
  refine ⟨h', e, ?_⟩
  rw [e1]
  exact ⟨ht, by rw [hp.length_eq]; decide +kernel⟩

example : (((tierCleanup 0 exGaps).heap.tseq 0).vals = [0, 4, 1, 2, 5, 3]) := by decide +kernel

example : ∃ h', tierCleanup 0 exGaps0 = .ok () h' ∧ ¬ SortedByStart h' (h'.tseq 0).vals := by
  obtain ⟨h', e, -, hs⟩ := C21_zero_violated exGaps0 0 exGaps0_plain (by decide +kernel) (2, 3)
    (by decide +kernel) realGap_1
  exact ⟨h', e, hs⟩

example : (((tierCleanup 0 exGaps0).heap.tseq 0).vals = [0, 1, 2, 3, 4, 5]) := by decide +kernel

/-- C21 fails for small gaps: a gap of a tenth of a millisecond at 100 s is left, and a tier with only such
    gaps is taken to be clean. -/
theorem C21_tolerance_violated : ∃ h t, PlainTier h t ∧ gapsOf ((h.tseq t).vals.map h.span) ≠ [] ∧
    tierCleanup t h = .ok () h := by
  refine ⟨run0 (do
    let _ ← newTierFrom [(99, 100, "a"), (100 + 1 / 10000, 101, "b")] cWord "Word"), 0, ⟨?_, ?_, ?_, ?_, ?_⟩, ?_, ?_⟩
  · decide +kernel
  · decide +kernel
  · decide +kernel
  · decide +kernel
  · decide +kernel
  · decide +kernel
  · apply C21_clean
    exact (tight_iff _ _).mp (by decide +kernel)

/-- C55 for a tier without (real) gaps: it stays linked and its entries keep their tier. -/
theorem C55_clean_partial (h : Heap) (t : TRef)
    (hc : ∀ (i : Nat) (x y : Ref), (h.tseq t).vals[i]? = some x → (h.tseq t).vals[i + 1]? = some y →
      CloseTo (h.start y) (h.stop x))
    (hl : DoublyLinked h (h.tseq t).vals) (ht : ∀ x ∈ (h.tseq t).vals, h.intier x = some t) :
    ∃ h', tierCleanup t h = .ok () h' ∧ DoublyLinked h' (h'.tseq t).vals ∧
      ∀ x ∈ (h'.tseq t).vals, h'.intier x = some t :=
  ⟨h, C21_clean h t hc, hl, ht⟩

/-- C55 fails for every tier outside a group with positive times and a gap beyond the tolerance: each filler
    is on the tier but has boundaries on both sides and no tier. -/
theorem C55_violated (h : Heap) (t : TRef) (pt : PlainTier h t)
    (hz : ∀ x ∈ (h.tseq t).vals, 0 < h.start x) (g : Time × Time)
    (hg : g ∈ gapsOf ((h.tseq t).vals.map h.span)) (hr : RealGap g) :
    ∃ h', tierCleanup t h = .ok () h' ∧ ¬ DoublyLinked h' (h'.tseq t).vals ∧
      ∃ x ∈ (h'.tseq t).vals, h'.intier x = none ∧ h'.start x = g.1 ∧ h'.stop x = g.2 := by
  obtain ⟨h', L', e, e1, hsub, hp, hb, hs, ht, hl, -⟩ := C21_fills_partial h t pt hz g hg hr
  obtain ⟨j, hj⟩ := List.mem_iff_getElem?.mp hg
  have hjl := (List.getElem?_eq_some_iff.mp hj).1
  have hbj := hb j g.1 g.2 hj
  have hm : h.nE + j ∈ L' := hp.mem_iff.mpr (by
    rw [List.mem_append, List.mem_range']; exact Or.inr ⟨j, hjl, by omega⟩)
  refine ⟨h', e, ?_⟩
  rw [e1]
  refine ⟨?_, h.nE + j, hm, hbj.intier, hbj.start, hbj.stop⟩
  intro hd
  have hd : DoublyLinked h' L' := hd
  obtain ⟨i, p, q, e2, e3, -⟩ := (mem_gapsOf _ _).mp hg
  have h2 : 2 ≤ L'.length := by
    have := (List.getElem?_eq_some_iff.mp e3).1
    have := hsub.length_le
    simp only [List.length_map] at *
    omega
  obtain ⟨m, hm'⟩ := List.mem_iff_getElem?.mp hm
  have hml := (List.getElem?_eq_some_iff.mp hm').1
  by_cases hlast : m + 1 < L'.length
  · have := (hd.next m _ L'[m + 1] hm' (List.getElem?_eq_getElem hlast)).1
    rw [hbj.fol] at this
    cases this
  · obtain ⟨m', rfl⟩ : ∃ m', m = m' + 1 := ⟨m - 1, by omega⟩
    have := (hd.next m' L'[m'] _ (List.getElem?_eq_getElem (by omega)) hm').2
    rw [hbj.prev] at this
    cases this

example : ∃ h', tierCleanup 0 exGaps = .ok () h' ∧ ¬ DoublyLinked h' (h'.tseq 0).vals := by
  obtain ⟨h', e, hd, -⟩ := C55_violated exGaps 0 exGaps_plain (by decide +kernel) (2, 3) (by decide +kernel) realGap_1
  exact ⟨h', e, hd⟩

end ATG
