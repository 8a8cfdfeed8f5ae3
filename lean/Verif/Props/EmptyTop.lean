import Verif.Lemmas.ProjectUp
import Verif.Props.GroupCleanup
/-!
# C75: cleaning up a group whose top tier is empty
-/
namespace ATG

/-- in a tier laid out one entry after the other, an interval with the times of an entry holds that entry only -/
theorem laid_inside {h : Heap} {l : List Ref} (hl : Laid (l.map h.span)) {x v : Ref} (hx : x ∈ l)
    (e : h.span v = h.span x) : l.filter (Inside h v ·) = [x] := by
  have hp : ∀ y ∈ l, h.start y < h.stop y := fun y hy => hl.1 (h.span y) (List.mem_map_of_mem hy)
  have d := List.pairwise_map.mp hl.2
  have e1 : h.start v = h.start x := congrArg Prod.fst e
  have e2 : h.stop v = h.stop x := congrArg Prod.snd e
  obtain ⟨s, t, rfl⟩ := List.append_of_mem hx
  have h1 := List.pairwise_append.mp d
  have h2 := List.pairwise_cons.mp h1.2.1
  rw [List.filter_append, List.filter_cons_of_pos (by simp [Inside, e1, e2, Std.le_refl])]
  have ha : s.filter (Inside h v ·) = [] := by
    rw [List.filter_eq_nil_iff]
    intro y hy
    have q1 : h.stop y ≤ h.start x := h1.2.2 y hy x (by simp)
    have q2 := hp y (by simp [hy])
    simp only [Inside, e1, e2]
    grind
  have hb : t.filter (Inside h v ·) = [] := by
    rw [List.filter_eq_nil_iff]
    intro y hy
    have q1 : h.stop x ≤ h.start y := h2.1 y hy
    have q2 := hp y (by simp [hy])
    simp only [Inside, e1, e2]
    grind
  rw [ha, hb]
  rfl

/-- C75: let the top tier of an interval group be empty and the tiers below it be aligned and related by containment, all times
    being positive if there are gaps. `cleanup()` succeeds and leaves a group of the same tiers that is related by
    containment from the top tier on: the top tier has exactly the times of the tier below, each of its intervals is new,
    blank, of the tier's class and holds exactly the one interval of the tier below with the same times. Nothing about the times,
    labels and classes of the old entries differs, the other tiers have their old contents, and the lower tiers
    are filled as in C72.
    `_partial`: with two empty tiers on top only one of them is filled (`C75_levels_violated`), and the next cleanup may raise
    (`C75_again_violated`). Missing: an empty tier that is not the top tier; lower tiers that are not aligned. -/
theorem C75_empty_top_partial (h : Heap) (g : GRef) (u l : TRef) (rest : List TRef) (t : EmptyTop h g u l rest)
    (td : TidyOn (OnTiers h (l :: rest)) h) (ac : Allocated h) :
    ∃ h', groupCleanup g h = .ok () h' ∧ GapGroup h' g (u :: l :: rest) ∧
      TidyOn (OnTiers h' (u :: l :: rest)) h' ∧ Allocated h' ∧
      (h'.tseq u).vals.map h'.span = (h'.tseq l).vals.map h'.span ∧
      (∀ v ∈ (h'.tseq u).vals, h.nE ≤ v ∧ h'.label v = "" ∧ h'.cls v = h.tcls u ∧
        ∃ x ∈ (h'.tseq l).vals, (h'.subs v).vals = [x] ∧ h'.span x = h'.span v) ∧
      (∀ x, x < h.nE → h'.start x = h.start x ∧ h'.stop x = h.stop x ∧ h'.label x = h.label x ∧ h'.cls x = h.cls x) ∧
      (∀ v, v ∉ u :: l :: rest → h'.tseq v = h.tseq v) ∧
      ((∀ v ∈ l :: rest, ∀ p ∈ gapsOf ((h.tseq v).vals.map h.span), ¬ RealGap p) →
        h'.nE = h.nE + (h.tseq l).vals.length ∧ ∀ v ∈ l :: rest, h'.tseq v = h.tseq v) ∧
      ((∃ v ∈ l :: rest, ∃ p ∈ gapsOf ((h.tseq v).vals.map h.span), RealGap p) →
        ∃ new : TRef → List Ref, ∀ v ∈ l :: rest, FilledTier h h' v (new v)) := by
  obtain ⟨h1, h2, h', e, p, s, w2, k2, r2, e3⟩ := emptyTop_run t td ac
  obtain ⟨h'', e4, k', r', w', hm, q1, q2⟩ := sweepRest_run k2 r2 (fun _ _ => trivial)
  rw [e3] at e4
  injection e4 with _ e4
  subst e4
  have m := p.unmoved t
  have htc2 : h2.tcls = h.tcls := by rw [s.tcls, p.frame]
  have hn1 : h.nE ≤ h2.nE := by rw [s.nE, p.nE]; omega
  have hsp2 : h2.span = h1.span := by funext x; unfold Heap.span; rw [s.start, s.stop]
  have hold : ∀ v ∈ l :: rest, (h2.tseq v).vals.map h2.span = (h.tseq v).vals.map h.span := by
    intro v hv
    rw [hsp2, s.tseq, m.spans hv]
  have hseq : ∀ v ∈ l :: rest, h2.tseq v = h.tseq v := by
    intro v hv
    rw [s.tseq, m.tseq v hv]
  have hu2 : (h2.tseq u).vals.map h2.span = (h.tseq l).vals.map h.span := by
    rw [hsp2, s.tseq, p.spans]
  have hgu : (∃ v ∈ u :: l :: rest, ∃ p ∈ gapsOf ((h2.tseq v).vals.map h2.span), RealGap p) ↔
      ∃ v ∈ l :: rest, ∃ p ∈ gapsOf ((h.tseq v).vals.map h.span), RealGap p := by
    constructor
    · rintro ⟨v, hv, b, hb, hr⟩
      rcases List.mem_cons.mp hv with rfl | hv
      · rw [hu2] at hb; exact ⟨l, by simp, b, hb, hr⟩
      · rw [hold v hv] at hb; exact ⟨v, hv, b, hb, hr⟩
    · rintro ⟨v, hv, b, hb, hr⟩
      exact ⟨v, List.mem_cons_of_mem _ hv, b, by rw [hold v hv]; exact hb, hr⟩
  have hblank2 : ∀ r ∈ (h2.tseq u).vals, h.nE ≤ r ∧ r < h2.nE ∧ h2.label r = "" ∧ h2.cls r = h.tcls u := by
    intro r hr
    rw [s.tseq] at hr
    have b := p.blank r hr
    rw [s.label, s.cls, s.nE]
    have hr' := hr
    rw [p.vals, List.mem_range'_1] at hr'
    rw [p.nE]
    exact ⟨hr'.1, hr'.2, b.1, b.2.1⟩
  -- the tiers afterwards
  have hfin : (h'.tseq u).vals.map h'.span = (h'.tseq l).vals.map h'.span ∧
      (∀ v ∈ (h'.tseq u).vals, h.nE ≤ v ∧ h'.label v = "" ∧ h'.cls v = h.tcls u) := by
    by_cases hr : ∃ v ∈ u :: l :: rest, ∃ p ∈ gapsOf ((h2.tseq v).vals.map h2.span), RealGap p
    · obtain ⟨new, hn⟩ := q2 hr
      have fu := hn u (by simp)
      have fl := hn l (by simp)
      have hkeep : ∀ v ∈ u :: l :: rest, (h2.tseq v).vals.map h'.span = (h2.tseq v).vals.map h2.span := by
        intro v hv
        refine List.map_congr_left fun x hx => ?_
        obtain ⟨a1, a2, -⟩ := w'.value x ((k2.stack.tiers v hv).old x hx)
        unfold Heap.span
        rw [a1, a2]
      refine ⟨laid_ext _ _ fu.laid fl.laid fun b => ?_, ?_⟩
      · rw [(fu.perm.map h'.span).mem_iff, (fl.perm.map h'.span).mem_iff, List.map_append, List.map_append,
          fu.spans, fl.spans, hkeep u (by simp), hkeep l (by simp), hu2, hold l (by simp)]
      · intro v hv
        rcases List.mem_append.mp (fu.perm.mem_iff.mp hv) with a | a
        · obtain ⟨b1, b2, b3, b4⟩ := hblank2 v a
          obtain ⟨-, -, c3, c4, -⟩ := w'.value v b2
          exact ⟨b1, c3.trans b3, c4.trans b4⟩
        · obtain ⟨b1, -, b3, b4⟩ := fu.fresh v a
          exact ⟨Nat.le_trans hn1 b1, b3, by rw [b4, htc2]⟩
    · have s' := q1 (fun v hv b hb hq => hr ⟨v, hv, b, hb, hq⟩)
      have hsp : h'.span = h2.span := by funext x; unfold Heap.span; rw [s'.start, s'.stop]
      rw [hsp, s'.tseq, s'.label, s'.cls]
      refine ⟨by rw [hu2, hold l (by simp)], fun v hv => ?_⟩
      obtain ⟨b1, b2, b3, b4⟩ := hblank2 v hv
      exact ⟨b1, b3, b4⟩
  refine ⟨h', e, { toTierStack := k'.stack, related := r' }, k'.tidy.mono fun x hx => k'.inL x (mem_entriesOf.mpr hx), k'.alloc,
    hfin.1, ?_, ?_, ?_, ?_, ?_⟩
  · intro v hv
    obtain ⟨a1, a2, a3⟩ := hfin.2 v hv
    refine ⟨a1, a2, a3, ?_⟩
    have : h'.span v ∈ (h'.tseq l).vals.map h'.span := by rw [← hfin.1]; exact List.mem_map_of_mem hv
    obtain ⟨x, hx, ex⟩ := List.mem_map.mp this
    refine ⟨x, hx, ?_, ex⟩
    rw [(r'.subs 0 u l rfl rfl v hv).1]
    exact laid_inside (k'.stack.tiers l (by simp)).laid hx ex.symm
  · intro x hx
    obtain ⟨a1, a2, a3, a4, -⟩ := w'.value x (by romega)
    have a := (p.away x (Or.inl hx)).1
    rw [a1, a2, a3, a4, s.start, s.stop, s.label, s.cls]
    exact ⟨a.start, a.stop, a.label, a.cls⟩
  · intro v hv
    rw [w'.other v hv, s.tseq]
    exact p.other v fun e => hv (by simp [e])
  · intro hno
    have s' := q1 (fun v hv b hb hq => by
      obtain ⟨v', hv', b', hb', hq'⟩ := hgu.mp ⟨v, hv, b, hb, hq⟩
      exact hno v' hv' b' hb' hq')
    refine ⟨by rw [s'.nE, s.nE, p.nE], fun v hv => by rw [s'.tseq, hseq v hv]⟩
  · intro hr
    obtain ⟨new, hn⟩ := q2 (hgu.mpr hr)
    refine ⟨new, fun v hv => ?_⟩
    have f := hn v (List.mem_cons_of_mem _ hv)
    refine ⟨?_, ?_, ?_, ?_, f.touching, f.laid⟩
    · intro x hx
      obtain ⟨b1, b2, b3, b4⟩ := f.fresh x hx
      exact ⟨Nat.le_trans hn1 b1, b2, b3, by rw [b4, htc2]⟩
    · rw [← hold v hv]; exact f.spans
    · rw [← hseq v hv]; exact f.kept
    · rw [← hseq v hv]; exact f.perm

/-! ## A case that meets the hypotheses -/

/-- an empty tier of words above a tier of phones with a gap -/
def exNoWords : M Unit := do
  let u ← newTierFrom [] cWord "Word"
  let t ← newTierFrom [(1, 2, "a"), (2, 3, "b"), (4, 5, "c")] cPhone "Phone"
  let _ ← newGroup [u, t]
  pure ()

/-- the same as a heap -/
def exNoWordsHeap : Heap :=
  { heap0 with
    nE := 3
    cls := fun _ => cPhone
    start := fun r => [1, 2, 4].getD r 0
    stop := fun r => [2, 3, 5].getD r 0
    label := fun r => ["a", "b", "c"].getD r ""
    intier := fun _ => some 1
    nT := 2
    tseq := fun t => if t = 0 then SL.empty else ⟨[0, 1, 2], some cPhone⟩
    tcls := fun t => if t = 0 then cWord else cPhone
    tsup := fun t => if t = 0 then some 7 else some cWord
    tsub := fun t => if t = 0 then some cPhone else some 8
    twithin := fun _ => some 0
    nG := 1
    gtiers := fun _ => [0, 1]
    gcont := fun _ => some [0, 1] }

theorem exNoWords_empty : EmptyTop exNoWordsHeap 0 0 1 [] := by
  refine ⟨by decide +kernel, by decide +kernel, by decide +kernel, ⟨by decide +kernel, ?_, ?_, ?_, ?_⟩, ⟨7, by decide +kernel⟩, ?_,
    by decide +kernel, by decide +kernel, by decide +kernel, by decide +kernel, by decide +kernel,
    ⟨by decide +kernel, by decide +kernel, by decide +kernel, ?_, ?_⟩, ⟨?_, ?_, ?_, ?_, ?_, ?_⟩, ?_, by decide +kernel, by decide +kernel⟩
  · intro i t t' h1 h2
    match i with
    | 0 => cases h1; cases h2; decide +kernel
    | i + 1 => simp at h2
  · intro i t t' h1 h2
    match i with
    | 0 => cases h1; cases h2; decide +kernel
    | i + 1 => simp at h2
  · intro t h1; cases h1; exact ⟨7, by decide +kernel, Or.inl (by decide +kernel)⟩
  · intro t h1; cases h1; exact ⟨8, by decide +kernel, Or.inl (by decide +kernel)⟩
  · intro t h1; cases h1; exact ⟨8, by decide +kernel⟩
  · intro i t t' h1 h2; simp at h2
  · intro i t t' h1 h2; simp at h2
  · intro i t t' h1 h2; simp at h2
  · intro i t t' h1 h2; simp at h2
  · intro i t t' h1 h2; simp at h2
  · intro i t t' h1 h2; simp at h2
  · intro t h1; cases h1; decide +kernel
  · intro i t t' h1 h2; simp at h2
  · intro t ht
    have ht : t = 1 := by simpa using ht
    subst ht
    exact ⟨by decide +kernel, by decide +kernel, by decide +kernel, by decide +kernel⟩

theorem exNoWords_tidy : TidyOn (OnTiers exNoWordsHeap [1]) exNoWordsHeap ∧ Allocated exNoWordsHeap := by
  constructor
  · constructor
    · intro v x; simp [exNoWordsHeap, heap0, SL.empty]
    · intro v x; simp [exNoWordsHeap, heap0, SL.empty]
    · intro v; simp [exNoWordsHeap, heap0, SL.empty]
    · intro v; simp [exNoWordsHeap, heap0, SL.empty]
    · intro v; simp [exNoWordsHeap, heap0, SL.empty]
    · intro v; simp [exNoWordsHeap, heap0, SL.empty]
  · intro v x hx; simp [exNoWordsHeap, heap0, SL.empty] at hx

example : ∃ h', groupCleanup 0 exNoWordsHeap = .ok () h' ∧ RelatedByContainment h' [0, 1] := by
  obtain ⟨h', e, gg, -⟩ := C75_empty_top_partial exNoWordsHeap 0 0 1 [] exNoWords_empty exNoWords_tidy.1 exNoWords_tidy.2
  exact ⟨h', e, gg.related⟩

-- the words made have the times of the phones, the gap being filled in both tiers
example :
    let h := run0 (do exNoWords; groupCleanup 0)
    (h.tseq 0).vals.map h.span = [(1, 2), (2, 3), (3, 4), (4, 5)] ∧
    (h.tseq 1).vals.map h.span = [(1, 2), (2, 3), (3, 4), (4, 5)] ∧
    (h.tseq 0).vals.map h.label = ["", "", "", ""] ∧
    (h.tseq 1).vals.map h.label = ["a", "b", "", "c"] := by decide +kernel

/-! ## Where it fails -/

/-- two empty tiers above one with the given intervals -/
def exTwoEmpty (l : List (Time × Time × String)) : M Unit := do
  let cs ← liftC fun ct => customClasses ct ["A", "B", "C"] []
  match cs with
  | [a, b, c] => do
    let t ← newTierFrom [] a "A"
    let u ← newTierFrom [] b "B"
    let v ← newTierFrom l c "C"
    let _ ← newGroup [t, u, v]
    pure ()
  | _ => pure ()

/-- C75 fails for two empty tiers on top: the tiers are looked through once, from the top, so only the second of
    them is filled. -/
theorem C75_levels_violated :
    let h := run0 (do exTwoEmpty [(1, 2, "a"), (2, 3, "b")]; groupCleanup 0)
    (h.tseq 0).vals = [] ∧ (h.tseq 1).vals.map h.span = [(1, 2), (2, 3)] ∧
    (h.tseq 2).vals.map h.span = [(1, 2), (2, 3)] := by decide +kernel

/-- With a gap, the next cleanup then raises `AttributeError` halfway: the interval put into the gap does not know its
    tier. -/
theorem C75_again_violated :
    ((do exTwoEmpty [(1, 2, "a"), (3, 4, "b")]; groupCleanup 0 : M Unit) heap0).out = .ok () ∧
    let r := (do exTwoEmpty [(1, 2, "a"), (3, 4, "b")]; groupCleanup 0; groupCleanup 0 : M Unit) heap0
    r.out = .error .attributeError ∧ (r.heap.tseq 0).vals.map r.heap.span = [(1, 2)] := by decide +kernel

end ATG
