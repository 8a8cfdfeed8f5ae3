import Verif.Lemmas.GroupAligned
import Verif.Lemmas.Walk
import Verif.Model.Base
/-!
# Tier groups: C22, C24, C25, C26
-/
namespace ATG

/-! ## C22: the order of the tiers -/

/-- after the tiers were arranged nothing in `TierGroup.__init__` changes the tier list -/
theorem groupInit_gtiers (g : GRef) (tiers ts : List TRef) (delay b : Bool) (h : Heap)
    (ha : arrange h tiers = .ok (ts, b)) :
    (groupInit g tiers delay h).heap.gtiers g = ts := by
  have hk : Keeps Skel (do
      M.forL tiers (fun t => do
        let h ← M.get
        M.forL (h.tseq t).vals (fun x => removeSuperset x))
      relateChain delay ts) :=
    Skel.bind (Skel.forL _ fun t => Keeps.get_bind fun h0 => Skel.forL _ fun x => Skel.removeSuperset x)
      fun _ => Skel.relateChain delay ts
  have e : groupInit g tiers delay h = (do
      M.forL tiers (fun t => do
        let h ← M.get
        M.forL (h.tseq t).vals (fun x => removeSuperset x))
      relateChain delay ts : M Unit) (seated h g ts b) := by
    unfold groupInit
    mstep M.get_apply h
    rw [ha]
    simp only []
    have es : (if b then setContainsGroup g ts else pure ()) h =
        .ok () (if b then contained h g ts else h) := by
      cases b
      · rfl
      · exact setContainsGroup_ok g ts h
    mstep es
    mstep (show M.modify (fun h => { h with gtiers := upd h.gtiers g ts }) (if b then contained h g ts else h) =
      .ok () (seated h g ts b) by cases b <;> rfl)
    rfl
  rw [e, hk (seated h g ts b)]
  cases b <;> simp [seated]

/-- C22: whatever the order in which the tiers are given, the group lists them from the highest to the
    lowest class (also when relating them raises). -/
theorem C22_order (g : GRef) (tiers ts : List TRef) (delay : Bool) (h : Heap) (ch : ClassChain h ts)
    (hp : tiers.Perm ts) (hne : ts ≠ []) : (groupInit g tiers delay h).heap.gtiers g = ts := by
  obtain ⟨b, hb⟩ := ch.arrange hp hne
  exact groupInit_gtiers g tiers ts delay b h hb

/-- C22: in every group that could be made, consecutive tiers are in the subset-class relation, all of them
    are among the given tiers, above the first there is the top of the hierarchy or no given tier, and below
    the last its bottom or no given tier. -/
theorem C22_adjacent (g : GRef) (tiers : List TRef) (delay : Bool) (h h' : Heap)
    (e : groupInit g tiers delay h = .ok () h') :
    h'.gtiers g ≠ [] ∧ (∀ t ∈ h'.gtiers g, t ∈ tiers) ∧
    (∀ i t t', (h'.gtiers g)[i]? = some t → (h'.gtiers g)[i + 1]? = some t' → h.tsub t = some (h.tcls t')) ∧
    (∃ t c, (h'.gtiers g)[0]? = some t ∧ h.tsup t = some c ∧
      (h.ct.isSub c cTop = true ∨ ∀ s ∈ tiers, h.tcls s ≠ c)) ∧
    ∃ t c, (h'.gtiers g)[(h'.gtiers g).length - 1]? = some t ∧ h.tsub t = some c ∧
      (h.ct.isSub c cBottom = true ∨ ∀ s ∈ tiers, h.tcls s ≠ c) := by
  have hh : (groupInit g tiers delay h).heap = h' := by rw [e]; rfl
  cases ha : arrange h tiers with
  | error er =>
    exfalso
    have : groupInit g tiers delay h = .err er h := by
      unfold groupInit
      mstep M.get_apply h
      rw [ha]; rfl
    rw [this] at e
    simp at e
  | ok r =>
    obtain ⟨ts, b⟩ := r
    have hg := groupInit_gtiers g tiers ts delay b h ha
    rw [hh] at hg
    rw [hg]
    cases tiers with
    | nil => simp [arrange] at ha
    | cons t0 rest =>
      unfold arrange at ha
      simp only [] at ha
      cases hu : arrangeUp h (t0 :: rest) ((t0 :: rest).length + 1) t0 with
      | error er => rw [hu] at ha; simp at ha
      | ok top =>
        rw [hu] at ha
        simp only [] at ha
        obtain ⟨u1, c, u2, u3⟩ := arrangeUp_spec _ _ _ _ _ hu
        obtain ⟨d1, d2, d3, t, c', d4, d5, d6⟩ := arrangeDown_spec _ _ _ _ _ _ ha
        have htop : top ∈ t0 :: rest := by
          rcases u1 with u1 | u1
          · rw [u1]; simp
          · exact u1
        refine ⟨?_, ?_, d3, ⟨top, c, d1, u2, u3⟩, t, c', d4, d5, ?_⟩
        · rintro rfl; simp at d1
        · intro s hs
          rcases d2 s hs with h1 | h1
          · rw [h1]; exact htop
          · exact h1
        · cases b with
          | true => exact Or.inl d6
          | false => exact Or.inr d6

/-- C22, termination: the two searches of `_arrange_tiers` need no more steps than there are tiers; one that
    needs more never ends (`RecursionError` stands for "out of fuel"). -/
theorem C22_search (h : Heap) (tiers : List TRef) (s : TRef) (hs : s ∈ tiers) :
    ((∃ n, arrangeUp h tiers n s ≠ .error .recursionError) →
      arrangeUp h tiers (tiers.length + 1) s ≠ .error .recursionError) ∧
    ((∃ n, arrangeDown h tiers n s ≠ .error .recursionError) →
      arrangeDown h tiers (tiers.length + 1) s ≠ .error .recursionError) :=
  ⟨fun ⟨n, hn⟩ e => hn (arrangeUp_forever h tiers s hs e n),
   fun ⟨n, hn⟩ e => hn (arrangeDown_forever h tiers s hs e n)⟩

/-- a word tier, a phone tier, and a tier of plain intervals -/
def exTiers : Heap := run0 (do
  let _ ← newTierFrom [(0, 2, "w")] cWord "Word"
  let _ ← newTierFrom [(0, 1, "p"), (1, 2, "q")] cPhone "Phone"
  let _ ← newTierFrom [(0, 2, "x")] cInterval "Other")

/-- C22 fails for tiers outside the hierarchy of the first one: they are dropped without notice. -/
theorem C22_dropped_violated : ∃ h g tiers,
    (groupInit g tiers false h).out = .ok () ∧ ¬ tiers.Perm ((groupInit g tiers false h).heap.gtiers g) :=
  ⟨exTiers, 0, [0, 1, 2], by decide +kernel, by decide +kernel⟩

/-- the same tiers after `Word.set_superset_class(Phone)`, which leaves a cycle `Word`–`Phone`–`Word` -/
def exCycle : Heap :=
  let ct := (setSupClass baseClasses cWord (some cPhone)).1
  ((do
    let _ ← newTierFrom [(0, 2, "w")] cWord "Word"
    let _ ← newTierFrom [(0, 1, "p"), (1, 2, "q")] cPhone "Phone" : M Unit) { heap0 with ct := ct }).heap

/-- C22 fails for a cycle of classes: the search for the highest tier never ends. -/
theorem C22_cycle_violated : ∀ n, arrangeUp exCycle [0, 1] n 0 = .error .recursionError :=
  arrangeUp_forever exCycle [0, 1] 0 (by decide) (by decide +kernel)

/-! ## C24: aligned tiers -/

theorem onTiers_perm {h : Heap} {tiers ts : List TRef} (hp : tiers.Perm ts) {x : Ref} (hx : x ∈ entriesOf h tiers) :
    OnTiers h ts x := by
  obtain ⟨t, ht, hx⟩ := mem_entriesOf.mp hx
  exact ⟨t, hp.mem_iff.mp ht, hx⟩

/-- C24: a group of tiers (given in any order) whose boundaries refine each other is related by containment
    at every level; times, labels, classes and tier contents stay as they were, and so do the links of a top
    interval that had no superset. An entry of the tiers that has a superset already is listed by it. -/
theorem C24_aligned (g : GRef) (tiers ts : List TRef) (delay : Bool) (h : Heap) (ch : ClassChain h ts)
    (hp : tiers.Perm ts) (hne : ts ≠ []) (al : AlignedTiers h ts) (td : TidyOn (OnTiers h ts) h) :
    ∃ h', groupInit g tiers delay h = .ok () h' ∧ h'.gtiers g = ts ∧
      RelatedByContainment h' ts ∧ SameContents h h' ∧
      ∀ t, ts[0]? = some t → ∀ x ∈ (h.tseq t).vals, h.sup x = none →
        h'.fol x = h.fol x ∧ h'.prev x = h.prev x := by
  obtain ⟨b, hb⟩ := ch.arrange hp hne
  obtain ⟨h', e, g1, s, r, l, -⟩ := groupInit_related g tiers ts delay b h hb
    (fun t ht => hp.mem_iff.mpr ht) al td (fun x hx => onTiers_perm hp hx)
  exact ⟨h', e, by rw [g1]; simp, r, s, l⟩

/-- C24 for the constructor `TierGroup(tiers)`. -/
theorem C24_construct (tiers ts : List TRef) (h : Heap) (ch : ClassChain h ts)
    (hp : tiers.Perm ts) (hne : ts ≠ []) (al : AlignedTiers h ts) (td : TidyOn (OnTiers h ts) h) :
    ∃ g h', newGroup tiers h = .ok g h' ∧ h'.gtiers g = ts ∧
      RelatedByContainment h' ts ∧ SameContents h h' := by
  obtain ⟨h1, e1⟩ : ∃ h1, newGroupObj false h = .ok h.nG h1 := ⟨_, rfl⟩
  have f1 : h1 = { h with nG := h1.nG, gtiers := h1.gtiers, gcont := h1.gcont, gpoint := h1.gpoint,
                          gwithin := h1.gwithin } := by
    unfold newGroupObj at e1
    simp only [Res.ok.injEq] at e1
    rw [← e1.2]
  obtain ⟨h', e, g1, r, s, -⟩ := C24_aligned h.nG tiers ts false h1
    (ch.congr (by rw [f1]) (by rw [f1]) (by rw [f1]) (by rw [f1])) hp hne
    (al.congr (by rw [f1]) (by rw [f1]) (by rw [f1]) (by rw [f1]) (by rw [f1]) (by rw [f1]) (by rw [f1]))
    (TidyOn.congr (by unfold OnTiers at td ⊢; rw [show h1.tseq = h.tseq by rw [f1]]; exact td) (by rw [f1]) (by rw [f1]) (by rw [f1]) (by rw [f1]) (by rw [f1]) (by rw [f1]) (by rw [f1]))
  refine ⟨h.nG, h', ?_, g1, r, ?_⟩
  · unfold newGroup
    mstep e1
    mstep e
    rfl
  · constructor
    · rw [s.start, f1]
    · rw [s.stop, f1]
    · rw [s.label, f1]
    · rw [s.cls, f1]
    · rw [s.nE, f1]
    · rw [s.tseq, f1]
    · rw [s.tcls, f1]
    · rw [s.tname, f1]
    · rw [s.ct, f1]

/-- C24, again: relating the group a second time (`re_relate`, as every grouped append does) leaves the
    relation as it was. -/
theorem C24_again (g : GRef) (tiers ts : List TRef) (delay : Bool) (h : Heap) (ch : ClassChain h ts)
    (hp : tiers.Perm ts) (hne : ts ≠ []) (al : AlignedTiers h ts) (td : TidyOn (OnTiers h ts) h) (hg : h.gpoint g = false) :
    ∃ h' h'', groupInit g tiers delay h = .ok () h' ∧ reRelate g h' = .ok () h'' ∧
      h''.gtiers g = ts ∧ RelatedByContainment h'' ts ∧ SameContents h h'' ∧
      ∀ i t t', ts[i]? = some t → ts[i + 1]? = some t' → ∀ u ∈ (h.tseq t).vals,
        (h''.subs u).vals = (h'.subs u).vals := by
  obtain ⟨b, hb⟩ := ch.arrange hp hne
  obtain ⟨h1, h', e, f, r⟩ := groupInit_run g tiers ts delay b h hb (fun t ht => hp.mem_iff.mpr ht) al td
    (fun x hx => onTiers_perm hp hx)
  obtain ⟨h2, e2, g1, s, r', -, htd⟩ := groupInit_related g tiers ts delay b h hb
    (fun t ht => hp.mem_iff.mpr ht) al td (fun x hx => onTiers_perm hp hx)
  have e12 : h2 = h' := by rw [e] at e2; cases e2; rfl
  subst e12
  have e0 := seated_frame h g ts b
  have hgp : h2.gpoint g = false := by rw [r.frame, f.frame, e0]; exact hg
  have td' : TidyOn (OnTiers h2 ts) h2 := by
    have := htd fun p hp' x hx ⟨t', ht', hx'⟩ => mem_entriesOf.mpr ⟨t', hp.mem_iff.mpr ht', hx'⟩
    unfold OnTiers at this ⊢
    rw [s.tseq]
    exact this
  have hgt : h2.gtiers g = ts := by rw [g1]; simp
  obtain ⟨h'', e', g2, r2, s2, -⟩ := C24_aligned g ts ts false h2
    (ch.congr (by rw [s.tcls]) (by rw [r.frame, f.frame, e0]) (by rw [r.frame, f.frame, e0]) (by rw [s.ct]))
    (List.Perm.refl _) hne
    (al.congr s.start s.stop s.tseq s.cls s.tcls s.label s.ct) td'
  refine ⟨h2, h'', e, ?_, g2, r2, ?_, ?_⟩
  · unfold reRelate
    mstep M.get_apply h2
    rw [hgp, hgt]
    exact e'
  · exact ⟨s2.start.trans s.start, s2.stop.trans s.stop, s2.label.trans s.label, s2.cls.trans s.cls,
      s2.nE.trans s.nE, s2.tseq.trans s.tseq, s2.tcls.trans s.tcls, s2.tname.trans s.tname, s2.ct.trans s.ct⟩
  · intro i t t' k1 k2 u hu
    rw [(r2.subs i t t' k1 k2 u (by rw [s2.tseq, s.tseq]; exact hu)).1,
      (r'.subs i t t' k1 k2 u (by rw [s.tseq]; exact hu)).1]
    rw [s2.tseq]
    apply List.filter_congr
    intro y _
    simp only [Inside, s2.start, s2.stop]

/-- Two words over three phones (entries 0, 1 on tier 0 and 2, 3, 4 on tier 1), nothing related yet. -/
def exAligned : Heap :=
  { heap0 with
    nE := 5
    cls := fun r => if r < 2 then cWord else cPhone
    start := fun r => [0, 2, 0, 1, 2].getD r 0
    stop := fun r => [2, 3, 1, 2, 3].getD r 0
    label := fun r => ["ab", "c", "a", "b", "c"].getD r ""
    nT := 2
    tseq := fun t => if t = 0 then ⟨[0, 1], some cWord⟩ else ⟨[2, 3, 4], some cPhone⟩
    tcls := fun t => if t = 0 then cWord else cPhone
    tsup := fun t => if t = 0 then some 7 else some cWord
    tsub := fun t => if t = 0 then some cPhone else some 8 }

theorem exAligned_chain : ClassChain exAligned [0, 1] where
  distinct := by decide
  down := by
    intro i t t' h1 h2
    match i with
    | 0 => cases h1; cases h2; decide
    | i + 1 => simp at h2
  inner := by
    intro i t t' h1 h2
    match i with
    | 0 => cases h1; cases h2; decide +kernel
    | i + 1 => simp at h2
  top := by intro t h1; cases h1; exact ⟨7, by decide, Or.inl (by decide +kernel)⟩
  bottom := by intro t h1; cases h1; exact ⟨8, by decide, Or.inl (by decide +kernel)⟩

theorem exAligned_aligned : AlignedTiers exAligned [0, 1] where
  once := by decide
  cls := by decide
  label := by decide
  chain := by
    intro i t t' h1 h2
    match i with
    | 0 => cases h1; cases h2; decide +kernel
    | i + 1 => simp at h2
  aligned := by
    intro i t t' h1 h2
    match i with
    | 0 =>
      cases h1; cases h2
      exact ⟨by decide +kernel, by decide +kernel, by decide +kernel, by decide +kernel⟩
    | i + 1 => simp at h2

theorem exAligned_tidy : Tidy exAligned where
  agree := by intro v x; simp [exAligned, heap0, SL.empty]
  nodup := by intro v; simp [exAligned, heap0, SL.empty]
  distinct := by intro v; simp [exAligned, heap0, SL.empty]
  cls := by intro v; simp [exAligned, heap0, SL.empty]
  label := by intro v; simp [exAligned, heap0, SL.empty]

-- a case meeting the hypotheses of C22_order and C24, the tiers given bottom first
example : ∃ h', groupInit 0 [1, 0] false exAligned = .ok () h' ∧ h'.gtiers 0 = [0, 1] ∧
    RelatedByContainment h' [0, 1] ∧ SameContents exAligned h' := by
  obtain ⟨h', e, g, r, s, -⟩ := C24_aligned 0 [1, 0] [0, 1] false exAligned exAligned_chain (by decide)
    (by simp) exAligned_aligned (exAligned_tidy.on _)
  exact ⟨h', e, g, r, s⟩

/-! ## C25, C26 -/

/-- C25 for aligned tiers: in every subset list of the group the first interval's `prev` and the last one's
    `fol` are boundaries. `_partial`: it fails when an upper interval has no lower one
    (`C25_empty_violated`). Missing: tiers that are neither aligned nor have such an interval. -/
theorem C25_boundaries_partial (g : GRef) (tiers ts : List TRef) (delay : Bool) (h : Heap) (ch : ClassChain h ts)
    (hp : tiers.Perm ts) (hne : ts ≠ []) (al : AlignedTiers h ts) (td : Tidy h) (i : Nat) (t t' : TRef)
    (h1 : ts[i]? = some t) (h2 : ts[i + 1]? = some t') (u : Ref) (hu : u ∈ (h.tseq t).vals) :
    let h' := (groupInit g tiers delay h).heap
    (∀ x, (h'.subs u).vals.head? = some x → h'.prev x = some .bumper) ∧
    (∀ x, (h'.subs u).vals.getLast? = some x → h'.fol x = some .bumper) := by
  obtain ⟨h', e, -, r, s, -⟩ := C24_aligned g tiers ts delay h ch hp hne al (td.on _)
  rw [e]
  have hl := r.linked i t t' h1 h2 u (by rw [s.tseq]; exact hu)
  exact ⟨hl.first, hl.last⟩

/-- two words, but phones only for the first one -/
def exEmptyWord : Heap := run0 (do
  let _ ← newTierFrom [(0, 2, "ab"), (2, 3, "c")] cWord "Word"
  let _ ← newTierFrom [(0, 1, "a"), (1, 2, "b")] cPhone "Phone"
  newGroup [0, 1])

/-- C25 fails when an upper interval has no lower one: the blank interval made for it is appended to the
    lower tier, which links the whole tier, across the upper boundaries. (Entry 3 is the last phone of word
    0, entry 4 the blank phone of word 1.) -/
theorem C25_empty_violated :
    (exEmptyWord.subs 0).vals = [2, 3] ∧ (exEmptyWord.subs 1).vals = [4] ∧
    exEmptyWord.fol 3 = some (.obj 4) ∧ exEmptyWord.prev 4 = some (.obj 3) := by decide +kernel

/-- two aligned words; the only phone of the first one is split by shortening it and appending a new one -/
def exAppendPhone : Heap := run0 (do
  let _ ← newTierFrom [(0, 2, "ab"), (2, 3, "c")] cWord "Word"
  let _ ← newTierFrom [(0, 2, "a"), (2, 3, "c")] cPhone "Phone"
  let _ ← newGroup [0, 1]
  setStop 2 1
  let r ← newEntry cPhone 1 2 "b"
  ivalAppend 0 r)

/-- C25 fails after an append to an upper interval of a group: the new interval is also appended to the
    lower tier, which links the whole tier. (Entry 4 is the new last phone of word 0, entry 3 the phone of
    word 1.) -/
theorem C25_append_violated :
    (exAppendPhone.subs 0).vals = [2, 4] ∧ (exAppendPhone.subs 1).vals = [3] ∧
    exAppendPhone.fol 4 = some (.obj 3) ∧ exAppendPhone.prev 3 = some (.obj 4) := by decide +kernel

/-- C26 for aligned tiers: every interval in a subset list of the group is on the tier below.
    `_partial`: it fails when a gap inside an upper interval is filled (`C26_gap_violated`). -/
theorem C26_on_tier_partial (g : GRef) (tiers ts : List TRef) (delay : Bool) (h : Heap) (ch : ClassChain h ts)
    (hp : tiers.Perm ts) (hne : ts ≠ []) (al : AlignedTiers h ts) (td : Tidy h) (i : Nat) (t t' : TRef)
    (h1 : ts[i]? = some t) (h2 : ts[i + 1]? = some t') (u : Ref) (hu : u ∈ (h.tseq t).vals) :
    let h' := (groupInit g tiers delay h).heap
    ∀ x ∈ (h'.subs u).vals, x ∈ (h'.tseq t').vals := by
  obtain ⟨h', e, -, r, s, -⟩ := C24_aligned g tiers ts delay h ch hp hne al (td.on _)
  rw [e]
  have hl := (r.subs i t t' h1 h2 u (by rw [s.tseq]; exact hu)).1
  intro h'' x hx
  have hx : x ∈ (h'.subs u).vals := hx
  rw [hl] at hx
  exact (List.mem_filter.mp hx).1

/-- a word whose phones leave a gap between 1 and 2 -/
def exGapWord : Heap := run0 (do
  let _ ← newTierFrom [(0, 3, "ab")] cWord "Word"
  let _ ← newTierFrom [(0, 1, "a"), (2, 3, "b")] cPhone "Phone"
  newGroup [0, 1])

/-- C26 fails when a gap inside an upper interval is filled: the filler (entry 3), a blank phone exactly as long
    as the gap, is in the subset list of the word, but not on the phone tier. -/
theorem C26_gap_violated :
    (exGapWord.subs 0).vals = [1, 3, 2] ∧ exGapWord.sup 3 = some 0 ∧ 3 ∉ (exGapWord.tseq 1).vals ∧
    exGapWord.start 3 = 1 ∧ exGapWord.stop 3 = 2 ∧ exGapWord.label 3 = "" ∧ exGapWord.cls 3 = cPhone := by
  decide +kernel

/-- a word with phones `a`, `b` (and `c` if there are three), and a gap of a nanosecond after `a` -/
def exTinyGap (three : Bool) : Heap := run0 (do
  let _ ← newTierFrom [(0, 3, "abc")] cWord "Word"
  let _ ← newTierFrom (if three then [(0, 1, "a"), (1 + 1 / 1000000000, 2, "b"), (2, 3, "c")]
    else [(0, 1, "a"), (1 + 1 / 1000000000, 3, "b")]) cPhone "Phone"
  newGroup [0, 1])

/-- C26 fails for a gap within rounding, which is no gap if there are two phones, but is filled if there is a third:
    all starts are compared with the first end only (`sequences/tiers.py:466`). -/
theorem C26_tolerance_violated :
    ((exTinyGap false).subs 0).vals = [1, 2] ∧ ((exTinyGap true).subs 0).vals = [1, 4, 2, 3] ∧
    4 ∉ ((exTinyGap true).tseq 1).vals ∧ (exTinyGap true).stop 4 - (exTinyGap true).start 4 = 1 / 1000000000 := by
  decide +kernel

end ATG
