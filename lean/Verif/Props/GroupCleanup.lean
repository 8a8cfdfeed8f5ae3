import Verif.Lemmas.GroupMake
import Verif.Props.Interleave
/-!
# C72: cleaning up a group
-/
namespace ATG

theorem gapsOf_laid : ∀ (S : List (Time × Time)), Laid S → Laid (gapsOf S)
  | [], _ => by unfold gapsOf; exact ⟨by simp, List.Pairwise.nil⟩
  | [_], _ => by unfold gapsOf; exact ⟨by simp, List.Pairwise.nil⟩
  | p :: q :: r, h => by
    have ih := gapsOf_laid (q :: r) h.tail
    rw [gapsOf]
    split
    · exact ih
    · rename_i hne
      have h1 := (h.head.2 q (by simp)).1
      refine ⟨?_, List.pairwise_cons.mpr ⟨?_, ih.2⟩⟩
      · intro g hg
        rcases List.mem_cons.mp hg with rfl | hg
        · show p.2 < q.1
          have := (List.pairwise_cons.mp h.2).1 q (by simp)
          grind
        · exact ih.1 g hg
      · intro g hg
        have := (gapsOf_starts (q :: r) h.tail).2.2 g hg q rfl
        have := h.tail.head.1
        show q.1 ≤ g.1
        grind

/-- lists of spans laid out one after the other are equal if they have the same members -/
theorem laid_ext : ∀ (A B : List (Time × Time)), Laid A → Laid B → (∀ g, g ∈ A ↔ g ∈ B) → A = B
  | [], B, _, _, h => by
    cases B with
    | nil => rfl
    | cons b B => exact (nomatch (h b).mpr (by simp))
  | a :: A, [], _, _, h => (nomatch (h a).mp (by simp))
  | a :: A, b :: B, ha, hb, h => by
    have a1 := (List.pairwise_cons.mp ha.2).1
    have b1 := (List.pairwise_cons.mp hb.2).1
    have pa := ha.1 a (by simp)
    have pb := hb.1 b (by simp)
    have e : a = b := by
      rcases List.mem_cons.mp ((h a).mp (by simp)) with e | m1
      · exact e
      · rcases List.mem_cons.mp ((h b).mpr (by simp)) with e | m2
        · exact e.symm
        · exfalso
          have := a1 b m2
          have := b1 a m1
          grind
    subst e
    have : A = B := laid_ext A B ha.tail hb.tail (by
      intro g
      constructor
      · intro hg
        rcases List.mem_cons.mp ((h g).mp (by simp [hg])) with e | m
        · subst e; exfalso; have := a1 g hg; grind
        · exact m
      · intro hg
        rcases List.mem_cons.mp ((h g).mpr (by simp [hg])) with e | m
        · subst e; exfalso; have := b1 g hg; grind
        · exact m)
    rw [this]

/-- C72 (the tiers agree): the gaps of the tiers of such a group are the same from tier to tier. -/
theorem C72_same_gaps (h : Heap) (g : GRef) (ts : List TRef) (st : TierStack h g ts) (t t' : TRef) (ht : t ∈ ts)
    (ht' : t' ∈ ts) : gapsOf ((h.tseq t).vals.map h.span) = gapsOf ((h.tseq t').vals.map h.span) := by
  have l1 := (st.tiers t ht).laid
  have l2 := (st.tiers t' ht').laid
  refine laid_ext _ _ (gapsOf_laid _ l1) (gapsOf_laid _ l2) fun p => ?_
  rw [mem_gapsOf_iff l1, mem_gapsOf_iff l2]
  exact ⟨st.aligned.gaps' p ht ht', st.aligned.gaps' p ht' ht⟩

/-- C72: let the tiers of an interval group, one for each class of its hierarchy, be aligned and related by
    containment, all times being positive if there are gaps. `cleanup()` succeeds and leaves a group of the same tiers that is again
    such a group. The lowest classes may be without a tier. Nothing about the times, labels and classes of the old entries differs, and the other tiers
    have their old contents. If some gap exceeds numpy's tolerance, each tier gets exactly one blank interval for
    each of its gaps, put between its neighbours, so that no gap is left; otherwise no entry is made. No entry is made but those.
    `_partial`: with a start of `0` the intervals end up at the end of the tier (`C72_zero_violated`); in a group
    without a tier for the highest class a second cleanup may raise (`C72_again_violated`). Missing: groups
    without a tier for the highest class; tiers that are not aligned. -/
theorem C72_group_cleanup_partial (h : Heap) (g : GRef) (ts : List TRef) (gg : GapGroup h g ts)
    (td : TidyOn (OnTiers h ts) h) (ac : Allocated h) :
    ∃ h', groupCleanup g h = .ok () h' ∧ GapGroup h' g ts ∧ TidyOn (OnTiers h' ts) h' ∧ Allocated h' ∧
      (∀ x, x < h.nE → h'.start x = h.start x ∧ h'.stop x = h.stop x ∧ h'.label x = h.label x ∧ h'.cls x = h.cls x) ∧
      (∀ u, u ∉ ts → h'.tseq u = h.tseq u) ∧ (∀ x, h.nE ≤ x → x < h'.nE → OnTiers h' ts x) ∧
      ((∀ t ∈ ts, ∀ p ∈ gapsOf ((h.tseq t).vals.map h.span), ¬ RealGap p) → SameContents h h') ∧
      ((∃ t ∈ ts, ∃ p ∈ gapsOf ((h.tseq t).vals.map h.span), RealGap p) →
        ∃ new : TRef → List Ref, ∀ t ∈ ts, FilledTier h h' t (new t)) := by
  have k : Stacked (OnTiers h ts) (fun _ => True) h g ts := ⟨gg.toTierStack, td, ac, fun x hx => mem_entriesOf.mp hx,
    fun _ _ => trivial, fun _ _ _ => ⟨fun _ => trivial, fun _ => trivial⟩, gg.related.inner⟩
  obtain ⟨h', e, k', r', w, m, c1, c2⟩ := groupCleanup_run k gg.related (fun _ _ => trivial)
  refine ⟨h', e, { toTierStack := k'.stack, related := r' }, ?_, k'.alloc, ?_, w.other, fun x q1 q2 => m x ⟨q1, q2⟩, c1, c2⟩
  · exact k'.tidy.mono fun x hx => k'.inL x (mem_entriesOf.mpr hx)
  · intro x hx
    obtain ⟨a1, a2, a3, a4, -⟩ := w.value x hx
    exact ⟨a1, a2, a3, a4⟩

/-- C72: cleaning up such a group twice does no more than cleaning it up once. -/
theorem C72_twice_partial (h : Heap) (g : GRef) (ts : List TRef) (gg : GapGroup h g ts)
    (td : TidyOn (OnTiers h ts) h) (ac : Allocated h)  :
    ∃ h' h'', groupCleanup g h = .ok () h' ∧ groupCleanup g h' = .ok () h'' ∧ SameContents h' h'' ∧
      RelatedByContainment h'' ts := by
  obtain ⟨h', e, gg', td', ac', -, -, -, c1, c2⟩ := C72_group_cleanup_partial h g ts gg td ac
  obtain ⟨h'', e', gg'', -, -, -, -, -, d1, -⟩ := C72_group_cleanup_partial h' g ts gg' td' ac'
  refine ⟨h', h'', e, e', d1 ?_, gg''.related⟩
  intro t ht p hp
  by_cases hr : ∃ t ∈ ts, ∃ p ∈ gapsOf ((h.tseq t).vals.map h.span), RealGap p
  · obtain ⟨new, hn⟩ := c2 hr
    rw [(hn t ht).touching] at hp
    exact (nomatch hp)
  · have hno : ∀ t ∈ ts, ∀ p ∈ gapsOf ((h.tseq t).vals.map h.span), ¬ RealGap p :=
      fun t ht p hp hq => hr ⟨t, ht, p, hp, hq⟩
    have s := c1 hno
    have : h'.span = h.span := by funext x; unfold Heap.span; rw [s.start, s.stop]
    rw [s.tseq, this] at hp
    exact hno t ht p hp

/-! ## Such groups come from the constructor -/

/-- C72: `TierGroup(tiers)` makes such a group of tiers that have one tier for each class of the hierarchy, from the
    highest one down to some class, and are aligned at positive times, if the entries on them contain none but each
    other; the tiers should be in no group yet if a class is missing. -/
theorem C72_construct (h : Heap) (tiers ts : List TRef) (ch : ClassChain h ts) (hp : tiers.Perm ts) (hne : ts ≠ [])
    (top : ∀ t, ts[0]? = some t → ∃ c, h.ct.sup (h.tcls t) = some c ∧ h.ct.isSub c cTop = true)
    (low : ¬ ToBottom h ts → ∀ t ∈ ts, h.twithin t = none)
    (al : AlignedTiers h ts) (hf : ∀ t ∈ ts, Fillable h t) (td : TidyOn (OnTiers h ts) h) (ac : Allocated h)
    (own : ∀ v x, OnTiers h ts v → x ∈ (h.subs v).vals → OnTiers h ts x) :
    ∃ g h', newGroup tiers h = .ok g h' ∧ GapGroup h' g ts ∧ TidyOn (OnTiers h' ts) h' ∧ Allocated h' ∧
      SameContents h h' := by
  obtain ⟨h', e, c1, c2, c3, c4, -⟩ := newGroup_gap h tiers ts ch hp hne top low al hf td ac own
  exact ⟨h.nG, h', e, c1, c2, c3, c4⟩

/-! ## A case that meets the hypotheses -/

/-- two aligned tiers with two gaps each, not yet related -/
def exGapTiers : Heap :=
  { heap0 with
    nE := 7
    cls := fun r => if r < 3 then cWord else cPhone
    start := fun r => [1, 4, 6, 1, 2, 4, 6].getD r 0
    stop := fun r => [3, 5, 7, 2, 3, 5, 7].getD r 0
    label := fun r => ["ab", "c", "d", "a", "b", "c", "d"].getD r ""
    nT := 2
    tseq := fun t => if t = 0 then ⟨[0, 1, 2], some cWord⟩ else ⟨[3, 4, 5, 6], some cPhone⟩
    tcls := fun t => if t = 0 then cWord else cPhone
    tsup := fun t => if t = 0 then some 7 else some cWord
    tsub := fun t => if t = 0 then some cPhone else some 8 }

theorem exGapTiers_group : ∃ g h', newGroup [1, 0] exGapTiers = .ok g h' ∧ GapGroup h' g [0, 1] ∧
    TidyOn (OnTiers h' [0, 1]) h' ∧ Allocated h' ∧ SameContents exGapTiers h' := by
  refine C72_construct exGapTiers [1, 0] [0, 1] ⟨by decide, ?_, ?_, ?_, ?_⟩ (by decide) (by simp) ?_ ?_
    ⟨by decide, by decide, by decide, ?_, ?_⟩ ?_ ?_ ?_ ?_
  · intro i t t' h1 h2
    match i with
    | 0 => cases h1; cases h2; decide
    | i + 1 => simp at h2
  · intro i t t' h1 h2
    match i with
    | 0 => cases h1; cases h2; decide +kernel
    | i + 1 => simp at h2
  · intro t h1; cases h1; exact ⟨7, by decide, Or.inl (by decide +kernel)⟩
  · intro t h1; cases h1; exact ⟨8, by decide, Or.inl (by decide +kernel)⟩
  · intro t h1; cases h1; exact ⟨7, by decide +kernel, by decide +kernel⟩
  · exact fun q => absurd (by intro t h1; cases h1; exact ⟨8, by decide +kernel, by decide +kernel⟩) q
  · intro i t t' h1 h2
    match i with
    | 0 => cases h1; cases h2; decide +kernel
    | i + 1 => simp at h2
  · intro i t t' h1 h2
    match i with
    | 0 =>
      cases h1; cases h2
      exact ⟨by decide +kernel, by decide +kernel, by decide +kernel, by decide +kernel⟩
    | i + 1 => simp at h2
  · intro t ht
    have ht : t = 0 ∨ t = 1 := by simpa using ht
    rcases ht with rfl | rfl <;>
      exact ⟨by decide, by decide, by decide +kernel, by decide +kernel⟩
  · constructor
    · intro v x; simp [exGapTiers, heap0, SL.empty]
    · intro v x; simp [exGapTiers, heap0, SL.empty]
    · intro v; simp [exGapTiers, heap0, SL.empty]
    · intro v; simp [exGapTiers, heap0, SL.empty]
    · intro v; simp [exGapTiers, heap0, SL.empty]
    · intro v; simp [exGapTiers, heap0, SL.empty]
  · intro v x hx; simp [exGapTiers, heap0, SL.empty] at hx
  · intro v x _ hx; simp [exGapTiers, heap0, SL.empty] at hx

-- the hypotheses of C72 are met by a group with gaps: in each tier two intervals are added
example : ∃ g h h', newGroup [1, 0] exGapTiers = .ok g h ∧ groupCleanup g h = .ok () h' ∧
    (h'.tseq 0).vals.length = 5 ∧ (h'.tseq 1).vals.length = 6 ∧ RelatedByContainment h' [0, 1] := by
  obtain ⟨g, h, e, gg, td, ac, s⟩ := exGapTiers_group
  obtain ⟨h', e', gg', -, -, -, -, -, -, c⟩ := C72_group_cleanup_partial h g [0, 1] gg td ac
  have hsp : h.span = exGapTiers.span := by funext x; unfold Heap.span; rw [s.start, s.stop]
  obtain ⟨new, hn⟩ := c ⟨0, by decide, (3, 4), by rw [s.tseq, hsp]; decide +kernel, by
    unfold RealGap CloseTo; decide +kernel⟩
  refine ⟨g, h, h', e, e', ?_, ?_, gg'.related⟩
  · have q := hn 0 (by decide)
    have l := congrArg List.length q.spans
    rw [List.length_map, s.tseq, hsp, show (gapsOf (((exGapTiers.tseq 0).vals).map exGapTiers.span)).length = 2 by decide +kernel] at l
    rw [q.perm.length_eq, List.length_append, l, s.tseq]
    rfl
  · have q := hn 1 (by decide)
    have l := congrArg List.length q.spans
    rw [List.length_map, s.tseq, hsp, show (gapsOf (((exGapTiers.tseq 1).vals).map exGapTiers.span)).length = 2 by decide +kernel] at l
    rw [q.perm.length_eq, List.length_append, l, s.tseq]
    rfl

/-! ## Where it fails -/

/-- two tiers with two gaps each, from the given start on -/
def exGapGroup (z : Time) : M Unit := do
  let t ← newTierFrom [(z, 2, "w"), (3, 4, "v"), (5, 6, "u")] cWord "Word"
  let u ← newTierFrom [(z, 1, "a"), (1, 2, "b"), (3, 4, "c"), (5, 6, "d")] cPhone "Phone"
  let _ ← newGroup [t, u]
  pure ()

/-- C72 fails when a tier starts at time `0`: the intervals filling the gaps are at the end of the tiers. -/
theorem C72_zero_violated :
    let h := run0 (do exGapGroup 0; groupCleanup 0)
    (h.tseq 0).vals.map h.span = [(0, 2), (3, 4), (5, 6), (2, 3), (4, 5)] ∧
    (h.tseq 1).vals.map h.span = [(0, 1), (1, 2), (3, 4), (5, 6), (2, 3), (4, 5)] := by decide +kernel

-- with a later start they are in place
example :
    let h := run0 (do exGapGroup (1 / 2); groupCleanup 0)
    (h.tseq 0).vals.map h.span = [(1 / 2, 2), (2, 3), (3, 4), (4, 5), (5, 6)] := by decide +kernel

/-- a group with only a tier of phones, with gaps -/
def exPhonesOnly : M Unit := do
  let t ← newTierFrom [(1, 2, "w"), (3, 4, "v")] cPhone "Phone"
  let _ ← newGroup [t]
  pure ()

/-- C72 fails for a group without a tier for the highest class: the first cleanup fills the gap, but the next one
    raises `AttributeError`, as the new interval does not know its tier. -/
theorem C72_again_violated :
    ((do exPhonesOnly; groupCleanup 0 : M Unit) heap0).out = .ok () ∧
    ((do exPhonesOnly; groupCleanup 0; groupCleanup 0 : M Unit) heap0).out = .error .attributeError := by decide +kernel

end ATG
