import Verif.Lemmas.GridSweep
import Verif.Props.TgCleanup
/-!
# C73: cleaning up a textgrid whose tiers have gaps
-/
namespace ATG

theorem Aligned.least {h : Heap} {U L : List Ref} (al : Aligned h U L) {a : Time} (e : Least h.start U a) :
    Least h.start L a := by
  obtain ⟨⟨u, hu, hua⟩, hmin⟩ := e
  refine ⟨?_, ?_⟩
  · obtain ⟨-, ⟨x, hx, hxa⟩, -, -⟩ := (al.tiled u hu).facts
    exact ⟨x, (List.mem_filter.mp hx).1, hxa.trans hua⟩
  · intro x hx
    obtain ⟨v, hv, hi⟩ := al.covered x hx
    have := hmin v hv
    have := (inside_iff.mp hi).1
    grind

theorem Aligned.greatest {h : Heap} {U L : List Ref} (al : Aligned h U L) {a : Time} (e : Greatest h.stop U a) :
    Greatest h.stop L a := by
  obtain ⟨⟨u, hu, hua⟩, hmax⟩ := e
  refine ⟨?_, ?_⟩
  · obtain ⟨-, -, ⟨x, hx, hxa⟩, -⟩ := (al.tiled u hu).facts
    exact ⟨x, (List.mem_filter.mp hx).1, hxa.trans hua⟩
  · intro x hx
    obtain ⟨v, hv, hi⟩ := al.covered x hx
    have := hmax v hv
    have := (inside_iff.mp hi).2
    grind

theorem AlignedTiers.extent {h : Heap} {ts : List TRef} (al : AlignedTiers h ts) {lo hi : Time}
    (h0 : ∀ t, ts[0]? = some t → Least h.start (h.tseq t).vals lo ∧ Greatest h.stop (h.tseq t).vals hi) :
    ∀ t ∈ ts, Least h.start (h.tseq t).vals lo ∧ Greatest h.stop (h.tseq t).vals hi := by
  have : ∀ (i : Nat) t, ts[i]? = some t → Least h.start (h.tseq t).vals lo ∧ Greatest h.stop (h.tseq t).vals hi := by
    intro i
    induction i with
    | zero => exact h0
    | succ i ih =>
      intro t ht
      obtain ⟨hi', -⟩ := List.getElem?_eq_some_iff.mp ht
      have e : ts[i]? = some ts[i] := List.getElem?_eq_getElem (by omega)
      have al' := al.aligned i _ _ e ht
      exact ⟨al'.least (ih _ e).1, al'.greatest (ih _ e).2⟩
  intro t ht
  obtain ⟨i, hi⟩ := List.mem_iff_getElem?.mp ht
  exact this i t hi

theorem exists_least (f : Ref → Time) : ∀ (l : List Ref), l ≠ [] → ∃ m, Least f l m
  | [a], _ => ⟨f a, ⟨a, by simp, rfl⟩, by intro x hx; have : x = a := by simpa using hx
                                          rw [this]; exact Rat.le_refl⟩
  | a :: b :: l, _ => by
    obtain ⟨m, ⟨y, hy, hm⟩, hl⟩ := exists_least f (b :: l) (by simp)
    by_cases hc : f a ≤ m
    · refine ⟨f a, ⟨a, by simp, rfl⟩, ?_⟩
      intro x hx
      rcases List.mem_cons.mp hx with rfl | hx
      · exact Rat.le_refl
      · have := hl x hx
        grind
    · refine ⟨m, ⟨y, by simp [hy], hm⟩, ?_⟩
      intro x hx
      rcases List.mem_cons.mp hx with rfl | hx
      · grind
      · exact hl x hx

theorem exists_greatest (f : Ref → Time) : ∀ (l : List Ref), l ≠ [] → ∃ m, Greatest f l m
  | [a], _ => ⟨f a, ⟨a, by simp, rfl⟩, by intro x hx; have : x = a := by simpa using hx
                                          rw [this]; exact Rat.le_refl⟩
  | a :: b :: l, _ => by
    obtain ⟨m, ⟨y, hy, hm⟩, hl⟩ := exists_greatest f (b :: l) (by simp)
    by_cases hc : m ≤ f a
    · refine ⟨f a, ⟨a, by simp, rfl⟩, ?_⟩
      intro x hx
      rcases List.mem_cons.mp hx with rfl | hx
      · exact Rat.le_refl
      · have := hl x hx
        grind
    · refine ⟨m, ⟨y, by simp [hy], hm⟩, ?_⟩
      intro x hx
      rcases List.mem_cons.mp hx with rfl | hx
      · grind
      · exact hl x hx

/-- the tiers of such a group reach from its start to its end -/
theorem GapGrid.flush {h : Heap} {gs : List GRef} (a : GapGrid h gs) {g : GRef} (hg : g ∈ gs)
    (hn : ∀ t ∈ h.gtiers g, (h.tseq t).vals ≠ []) : ∃ lo hi, Flush h g lo hi := by
  have gg := a.groups g hg
  obtain ⟨t0, ht0⟩ : ∃ t, (h.gtiers g)[0]? = some t := by
    cases hc : h.gtiers g with
    | nil => exact absurd hc gg.ne
    | cons t r => exact ⟨t, rfl⟩
  have hm0 := List.mem_of_getElem? ht0
  obtain ⟨lo, hlo⟩ := exists_least h.start _ (hn t0 hm0)
  obtain ⟨hi, hhi⟩ := exists_greatest h.stop _ (hn t0 hm0)
  have q := gg.aligned.extent (lo := lo) (hi := hi) fun t ht => by
    rw [ht0] at ht
    cases ht
    exact ⟨hlo, hhi⟩
  refine ⟨lo, hi, gg.gpoint, gg.ne, gg.chain.nodup, fun t ht => ?_, fun t ht => (q t ht).1, fun t ht => (q t ht).2⟩
  have f := gg.tiers t ht
  refine ⟨a.interval g hg t ht, f.ecls, ?_, f.old, gg.aligned.cls t ht, gg.aligned.label t ht, f.laid⟩
  obtain ⟨i, hi⟩ := List.mem_iff_getElem?.mp ht
  cases i with
  | zero =>
    obtain ⟨c, hc, -⟩ := gg.chain.top t hi
    rw [hc]; rfl
  | succ i =>
    obtain ⟨hl, -⟩ := List.getElem?_eq_some_iff.mp hi
    rw [(gg.chain.down i _ t (List.getElem?_eq_getElem (by omega)) hi).2]
    rfl

/-- filling the gaps of a tier does not change where it starts and ends -/
theorem FilledTier.extent {h h' : Heap} {t : TRef} {new : List Ref} (q : FilledTier h h' t new)
    (f : GridFrame h h') (hf : Fillable h t) {lo hi : Time} (hl : Least h.start (h.tseq t).vals lo)
    (hh : Greatest h.stop (h.tseq t).vals hi) :
    Least h'.start (h'.tseq t).vals lo ∧ Greatest h'.stop (h'.tseq t).vals hi := by
  have hnew : ∀ x ∈ new, lo ≤ h'.start x ∧ h'.stop x ≤ hi := by
    intro x hx
    have hm := List.mem_map_of_mem (f := h'.span) hx
    rw [q.spans, mem_gapsOf_iff hf.laid] at hm
    obtain ⟨p, hp, e1⟩ := hm.left
    obtain ⟨r, hr, e2⟩ := hm.right
    obtain ⟨y, hy, rfl⟩ := List.mem_map.mp hp
    obtain ⟨z, hz, rfl⟩ := List.mem_map.mp hr
    have l1 := hl.2 y hy
    have l2 := hf.laid.1 _ hp
    have l3 := hh.2 z hz
    have l4 := hf.laid.1 _ hr
    simp only [Heap.span] at e1 e2 l2 l4
    grind
  constructor
  · obtain ⟨⟨x, hx, e⟩, hmin⟩ := hl
    refine ⟨⟨x, q.kept.subset hx, by rw [(f.value x (hf.old x hx)).1]; exact e⟩, ?_⟩
    intro y hy
    rcases List.mem_append.mp (q.perm.mem_iff.mp hy) with hy | hy
    · rw [(f.value y (hf.old y hy)).1]; exact hmin y hy
    · exact (hnew y hy).1
  · obtain ⟨⟨x, hx, e⟩, hmax⟩ := hh
    refine ⟨⟨x, q.kept.subset hx, by rw [(f.value x (hf.old x hx)).2.1]; exact e⟩, ?_⟩
    intro y hy
    rcases List.mem_append.mp (q.perm.mem_iff.mp hy) with hy | hy
    · rw [(f.value y (hf.old y hy)).2.1]; exact hmax y hy
    · exact (hnew y hy).2

theorem least_unique {f : Ref → Time} {l : List Ref} {a b : Time} (ha : Least f l a) (hb : Least f l b) : a = b := by
  obtain ⟨⟨x, hx, e⟩, h1⟩ := ha
  obtain ⟨⟨y, hy, e'⟩, h2⟩ := hb
  have := h1 y hy
  have := h2 x hx
  grind

theorem greatest_unique {f : Ref → Time} {l : List Ref} {a b : Time} (ha : Greatest f l a) (hb : Greatest f l b) : a = b := by
  obtain ⟨⟨x, hx, e⟩, h1⟩ := ha
  obtain ⟨⟨y, hy, e'⟩, h2⟩ := hb
  have := h1 y hy
  have := h2 x hx
  grind

/-- filling gaps does not change the extents -/
theorem GapGrid.flush_kept {h h1 : Heap} {gs : List GRef} (gr : GapGrid h gs) (gr1 : GapGrid h1 gs) (f : GridFrame h h1)
    (q : ∀ g ∈ gs, GroupFilled h h1 g) : ∀ g ∈ gs, ∀ lo hi, Flush h g lo hi → Flush h1 g lo hi := by
  intro g hg lo hi fl
  have hgt : h1.gtiers = h.gtiers := by rw [f.frame]
  have hext : ∀ t ∈ h.gtiers g, Least h1.start (h1.tseq t).vals lo ∧ Greatest h1.stop (h1.tseq t).vals hi := by
    intro t ht
    have ft := (gr.groups g hg).tiers t ht
    by_cases hh : HasGap h g
    · obtain ⟨new, hnew⟩ := (q g hg).2 hh
      exact (hnew t ht).extent f ft (fl.first t ht) (fl.last t ht)
    · rw [(q g hg).1 hh t ht]
      have e1 := fl.first t ht
      have e2 := fl.last t ht
      refine ⟨⟨?_, ?_⟩, ⟨?_, ?_⟩⟩
      · obtain ⟨x, hx, e⟩ := e1.1
        exact ⟨x, hx, by rw [(f.value x (ft.old x hx)).1]; exact e⟩
      · intro x hx
        rw [(f.value x (ft.old x hx)).1]; exact e1.2 x hx
      · obtain ⟨x, hx, e⟩ := e2.1
        exact ⟨x, hx, by rw [(f.value x (ft.old x hx)).2.1]; exact e⟩
      · intro x hx
        rw [(f.value x (ft.old x hx)).2.1]; exact e2.2 x hx
  obtain ⟨lo', hi', fl'⟩ := gr1.flush hg (by
    rw [hgt]
    intro t ht e
    obtain ⟨⟨x, hx, -⟩, -⟩ := (hext t ht).1
    rw [e] at hx
    cases hx)
  obtain ⟨t, ht⟩ := List.exists_mem_of_ne_nil _ fl.nonempty
  rw [least_unique (hext t ht).1 (fl'.first t (by rw [hgt]; exact ht)),
    greatest_unique (hext t ht).2 (fl'.last t (by rw [hgt]; exact ht))]
  exact fl'

/-- cleaning up the groups of such a textgrid -/
theorem cleanGroups_run (h : Heap) (a : ARef) (gr : GapGrid h (h.agroups a)) :
    ∃ h1, cleanGroups a h = .ok () h1 ∧ GapGrid h1 (h.agroups a) ∧ GridFrame h h1 ∧
      (∀ g ∈ h.agroups a, GroupFilled h h1 g) ∧
      ∀ g ∈ h.agroups a, ∀ lo hi, Flush h g lo hi → Flush h1 g lo hi := by
  obtain ⟨h1, e, gr1, f, q, -⟩ := gr.sweep (h.agroups a) gr.nodup fun g hg => hg
  exact ⟨h1, e, gr1, f, q, gr.flush_kept gr1 f q⟩

/-- C73: let the groups of a textgrid consist of interval tiers, one for each class of its hierarchy, aligned, related
    and without empty tiers, at positive times where there are gaps. `cleanup()` succeeds. Let `lo g` and `hi g` be the start and end
    of group `g`. If the groups agree in start and end, within numpy's tolerance, then the gaps of each group
    are filled, one blank interval per gap, and all intervals of each group are related by containment. Otherwise
    there is a state `h1` that is such a result of filling the gaps, and each tier then gets at most one
    interval in front and one behind, as stated, and nothing else.
    `_partial`: the intervals in front and behind are not related (`C73_padding_violated`); a gap in a tier that starts
    at `0` is not filled in place (`C72_zero_violated`). Missing: groups without the highest
    tier, unaligned or empty tiers. -/
theorem C73_cleanup_partial (h : Heap) (a : ARef) (hne : h.agroups a ≠ []) (gr : GapGrid h (h.agroups a))
    (hn : ∀ g ∈ h.agroups a, ∀ t ∈ h.gtiers g, (h.tseq t).vals ≠ []) :
    ∃ (lo hi : GRef → Time) (smin smax emin emax : Time) (h1 h' : Heap),
      (∀ g ∈ h.agroups a, groupXmin h g = .ok (lo g) ∧ groupXmax h g = .ok (hi g)) ∧
      Extents h a lo hi smin smax emin emax ∧ atgCleanup a h = .ok () h' ∧
      GapGrid h1 (h.agroups a) ∧ (∀ g ∈ h.agroups a, GroupFilled h h1 g) ∧
      (h1.ct = h.ct ∧ h1.agroups = h.agroups ∧ h1.gtiers = h.gtiers ∧ h1.tname = h.tname ∧ h1.tcls = h.tcls ∧
        h1.nT = h.nT ∧ h1.nG = h.nG) ∧
      (∀ x, x < h.nE → h'.span x = h.span x ∧ h'.label x = h.label x) ∧
      (CloseTo smin smax ∧ CloseTo emin emax → h' = h1) ∧
      (¬ (CloseTo smin smax ∧ CloseTo emin emax) → ∀ g ∈ h.agroups a, h'.gtiers g = h.gtiers g ∧
        ∀ t ∈ h.gtiers g, ∃ pre post, (h'.tseq t).vals = pre ++ (h1.tseq t).vals ++ post ∧
          (CloseTo (lo g) smin → pre = []) ∧ (¬ CloseTo (lo g) smin → pre.map h'.span = [(smin, lo g)]) ∧
          (CloseTo (hi g) smax → post = []) ∧ (¬ CloseTo (hi g) smax → post.map h'.span = [(hi g, emax)]) ∧
          ∀ r ∈ pre ++ post, h1.nE ≤ r ∧ h'.label r = "" ∧ h'.cls r = h.tcls t) := by
  have hex : ∀ g, ∃ p : Time × Time, g ∈ h.agroups a → Flush h g p.1 p.2 := by
    intro g
    by_cases hg : g ∈ h.agroups a
    · obtain ⟨lo, hi, fl⟩ := gr.flush hg (hn g hg)
      exact ⟨(lo, hi), fun _ => fl⟩
    · exact ⟨(0, 0), fun q => absurd q hg⟩
  obtain ⟨P, hP⟩ := Classical.axiomOfChoice hex
  obtain ⟨smin, x1⟩ := exists_least (fun g => (P g).1) (h.agroups a) hne
  obtain ⟨smax, x2⟩ := exists_greatest (fun g => (P g).1) (h.agroups a) hne
  obtain ⟨emin, x3⟩ := exists_least (fun g => (P g).2) (h.agroups a) hne
  obtain ⟨emax, x4⟩ := exists_greatest (fun g => (P g).2) (h.agroups a) hne
  obtain ⟨h1, e1, gr1, f, q, hfl⟩ := cleanGroups_run h a gr
  have hag : h1.agroups = h.agroups := by rw [f.frame]
  have hgt : h1.gtiers = h.gtiers := by rw [f.frame]
  have htc : h1.tcls = h.tcls := by rw [f.frame]
  have fl1 : FlushGroups h1 a (fun g => (P g).1) (fun g => (P g).2) := by
    refine ⟨?_, ?_⟩
    · rw [hag]
      exact fun g hg => hfl g hg _ _ (hP g hg)
    · rw [hag]; exact gr1.tiers
  have ex : Extents h a (fun g => (P g).1) (fun g => (P g).2) smin smax emin emax := ⟨x1, x2, x3, x4⟩
  have ex1 : Extents h1 a (fun g => (P g).1) (fun g => (P g).2) smin smax emin emax := by
    constructor <;> rw [hag] <;> assumption
  by_cases hc : CloseTo smin smax ∧ CloseTo emin emax
  · refine ⟨fun g => (P g).1, fun g => (P g).2, smin, smax, emin, emax, h1, h1,
      fun g hg => ⟨(hP g hg).xmin, (hP g hg).xmax⟩, ex, ?_, gr1, q, by rw [f.frame]; exact ⟨rfl, rfl, rfl, rfl, rfl, rfl, rfl⟩, ?_, fun _ => rfl, fun k => absurd hc k⟩
    · exact C39_agree_partial h h1 a _ _ smin smax emin emax e1 fl1 ex1 hc.1 hc.2
    · intro x hx
      obtain ⟨v1, v2, v3, -⟩ := f.value x hx
      exact ⟨by unfold Heap.span; rw [v1, v2], v3⟩
  · obtain ⟨h', e', old, tiers, -⟩ := C39_pads_partial h h1 a _ _ smin smax emin emax e1 fl1 ex1 hc
    refine ⟨fun g => (P g).1, fun g => (P g).2, smin, smax, emin, emax, h1, h',
      fun g hg => ⟨(hP g hg).xmin, (hP g hg).xmax⟩, ex, e', gr1, q, by rw [f.frame]; exact ⟨rfl, rfl, rfl, rfl, rfl, rfl, rfl⟩, ?_, fun k => absurd k hc, fun _ => ?_⟩
    · intro x hx
      obtain ⟨v1, v2, v3, -⟩ := f.value x hx
      obtain ⟨o1, o2⟩ := old x (Nat.lt_of_lt_of_le hx f.nE)
      exact ⟨o1.trans (by unfold Heap.span; rw [v1, v2]), o2.trans v3⟩
    · rw [hag, hgt, htc] at tiers
      exact tiers

/-- C73: if moreover no tier has a gap, the groups agree in start and end, and the intervals of the first tier of each
    group are within this tier, `cleanup()` changes nothing at all.
    `_partial`, as `C73_cleanup_partial` is. -/
theorem C73_idle_partial (h : Heap) (a : ARef) (hne : h.agroups a ≠ []) (gr : GapGrid h (h.agroups a))
    (hn : ∀ g ∈ h.agroups a, ∀ t ∈ h.gtiers g, (h.tseq t).vals ≠ []) (hno : ∀ g ∈ h.agroups a, ¬ HasGap h g)
    (hr : ∀ g ∈ h.agroups a, Rooted h (h.gtiers g)) (lo hi : Time)
    (hx : ∀ g ∈ h.agroups a, groupXmin h g = .ok lo ∧ groupXmax h g = .ok hi) : atgCleanup a h = .ok () h := by
  have e1 : cleanGroups a h = .ok () h := by
    refine forL_noop _ _ _ ?_
    intro g hg
    mstep M.get_apply h
    rw [if_neg (by rw [(gr.groups g hg).gpoint]; simp)]
    exact gr.idle hg (hr g hg) (hno g hg)
  have fl : FlushGroups h a (fun _ => lo) (fun _ => hi) := by
    refine ⟨fun g hg => ?_, gr.tiers⟩
    obtain ⟨l, r, fl⟩ := gr.flush hg (hn g hg)
    obtain ⟨x1, x2⟩ := hx g hg
    rw [fl.xmin] at x1
    rw [fl.xmax] at x2
    injection x1 with x1
    injection x2 with x2
    subst x1 x2
    exact fl
  obtain ⟨g0, hg0⟩ := List.exists_mem_of_ne_nil _ hne
  exact C39_agree_partial h h a _ _ lo lo hi hi e1 fl
    ⟨⟨⟨g0, hg0, rfl⟩, fun _ _ => Rat.le_refl⟩, ⟨⟨g0, hg0, rfl⟩, fun _ _ => Rat.le_refl⟩,
      ⟨⟨g0, hg0, rfl⟩, fun _ _ => Rat.le_refl⟩, ⟨⟨g0, hg0, rfl⟩, fun _ _ => Rat.le_refl⟩⟩ (CloseTo.refl _) (CloseTo.refl _)

/-- C73: such a group can be added to such groups: `TierGroup(ts)` for tiers that are in none of them. -/
theorem C73_construct (h : Heap) (gs : List GRef) (a : GapGrid h gs) (hgs : ∀ g ∈ gs, g < h.nG) (ts : List TRef)
    (ch : ClassChain h ts) (hne : ts ≠ [])
    (top : ∀ t, ts[0]? = some t → ∃ c, h.ct.sup (h.tcls t) = some c ∧ h.ct.isSub c cTop = true)
    (low : ¬ ToBottom h ts → ∀ t ∈ ts, h.twithin t = none)
    (al : AlignedTiers h ts) (hf : ∀ t ∈ ts, Fillable h t) (hiv : ∀ t ∈ ts, h.ct.isSub (h.tcls t) cPoint = false)
    (cl : SupClosed h ts) (hnt : ∀ t ∈ ts, ∀ g ∈ gs, t ∉ h.gtiers g)
    (hne' : ∀ x, OnTiers h ts x → ∀ g ∈ gs, ¬ OnTiers h (h.gtiers g) x) :
    ∃ h', newGroup ts h = .ok h.nG h' ∧ GapGrid h' (gs ++ [h.nG]) ∧ SameContents h h' ∧
      (∀ g ∈ gs, h'.gtiers g = h.gtiers g ∧ Unmoved h h' (h.gtiers g)) ∧
      ∀ us, SupClosed h us → (∀ x, OnTiers h ts x → ¬ OnTiers h us x) → SupClosed h' us := by
  obtain ⟨h', e, gr, -, s, m, u, o⟩ := a.add hgs ts ch hne top low al hf hiv cl hnt hne'
  refine ⟨h', e, gr, s, fun g hg => ⟨?_, u _ fun x hx => hne' x hx g hg⟩, o⟩
  rw [m.frame]
  exact upd_ne _ _ _ _ fun e => Nat.lt_irrefl _ (e ▸ hgs g hg)

/-! ## A case that meets the hypotheses -/

/-- two groups' worth of tiers, with gaps -/
def exGridTiers : Heap :=
  { heap0 with
    nE := 9
    cls := fun r => if r < 3 then cWord else if r < 7 then cPhone else if r < 8 then cWord else cPhone
    start := fun r => [1, 4, 6, 1, 2, 4, 6, 2, 2].getD r 0
    stop := fun r => [3, 5, 7, 2, 3, 5, 7, 5, 5].getD r 0
    label := fun r => ["ab", "c", "d", "a", "b", "c", "d", "e", "e"].getD r ""
    nT := 4
    tseq := fun t => if t = 0 then ⟨[0, 1, 2], some cWord⟩ else if t = 1 then ⟨[3, 4, 5, 6], some cPhone⟩
      else if t = 2 then ⟨[7], some cWord⟩ else ⟨[8], some cPhone⟩
    tcls := fun t => if t = 0 ∨ t = 2 then cWord else cPhone
    tsup := fun t => if t = 0 ∨ t = 2 then some 7 else some cWord
    tsub := fun t => if t = 0 ∨ t = 2 then some cPhone else some 8
    nA := 1
    agroups := fun _ => [0, 1] }

theorem exGridTiers_grid : ∃ h, (do let _ ← newGroup [0, 1]; newGroup [2, 3] : M GRef) exGridTiers = .ok 1 h ∧
    GapGrid h [0, 1] ∧ h.agroups 0 = [0, 1] ∧ SameContents exGridTiers h ∧ h.gtiers 0 = [0, 1] ∧ h.gtiers 1 = [2, 3] ∧
    h.tsup = exGridTiers.tsup ∧ h.tsub = exGridTiers.tsub ∧ h.nA = 1 := by
  have hsub : ∀ v, (exGridTiers.subs v).vals = [] := fun v => rfl
  have hsup : ∀ v, exGridTiers.sup v = none := fun v => rfl
  have g0 : GapGrid exGridTiers [] := by
    refine ⟨List.nodup_nil, List.nodup_nil, ?_, ?_, ?_, ?_, ⟨?_, ?_, ?_, ?_, ?_⟩, ?_⟩
    · intro g hg; cases hg
    · intro g hg; cases hg
    · intro g hg; cases hg
    · intro g hg; cases hg
    · intro v x; rw [hsub, hsup]; simp
    · intro v; rw [hsub]; simp
    · intro v; rw [hsub]; simp
    · intro v; rw [hsub]; simp
    · intro v; rw [hsub]; simp
    · intro v x hx; rw [hsub] at hx; cases hx
  obtain ⟨h1, e1, gr1, hn1, s1, m1, -, o1⟩ := g0.add (by simp) [0, 1]
    ⟨by decide, by
        intro i t t' h1 h2
        match i with
        | 0 => cases h1; cases h2; decide
        | i + 1 => simp at h2, by
        intro i t t' h1 h2
        match i with
        | 0 => cases h1; cases h2; decide +kernel
        | i + 1 => simp at h2, by
        intro t h1; cases h1; exact ⟨7, by decide, Or.inl (by decide +kernel)⟩, by
        intro t h1; cases h1; exact ⟨8, by decide, Or.inl (by decide +kernel)⟩⟩ (by simp)
    (by intro t h1; cases h1; exact ⟨7, by decide +kernel, by decide +kernel⟩)
    (fun q => absurd (by intro t h1; cases h1; exact ⟨8, by decide +kernel, by decide +kernel⟩) q)
    ⟨by decide, by decide, by decide, by
        intro i t t' h1 h2
        match i with
        | 0 => cases h1; cases h2; decide +kernel
        | i + 1 => simp at h2, by
        intro i t t' h1 h2
        match i with
        | 0 =>
          cases h1; cases h2
          exact ⟨by decide +kernel, by decide +kernel, by decide +kernel, by decide +kernel⟩
        | i + 1 => simp at h2⟩
    (by
      intro t ht
      have ht : t = 0 ∨ t = 1 := by simpa using ht
      rcases ht with rfl | rfl <;> exact ⟨by decide, by decide, by decide +kernel, by decide +kernel⟩)
    (by decide +kernel) (by intro v x hx; rw [hsup] at hx; cases hx) (by simp) (by simp)
  have hG : exGridTiers.nG = 0 := rfl
  rw [hG] at e1 gr1 hn1
  have hgt1 : h1.gtiers 0 = [0, 1] := by rw [m1.frame]; rfl
  obtain ⟨h2, e2, gr2, hn2, s2, m2, -, -⟩ := gr1.add (fun g hg => by rw [show g = 0 by simpa using hg, hn1]; decide) [2, 3]
    ⟨by rw [s1.tcls]; decide, by
        intro i t t' k1 k2
        rw [s1.tcls, show h1.tsub = exGridTiers.tsub by rw [m1.frame], show h1.tsup = exGridTiers.tsup by rw [m1.frame]]
        match i with
        | 0 => cases k1; cases k2; decide
        | i + 1 => simp at k2, by
        intro i t t' k1 k2
        rw [s1.tcls, s1.ct]
        match i with
        | 0 => cases k1; cases k2; decide +kernel
        | i + 1 => simp at k2, by
        intro t k1; cases k1
        rw [s1.ct, show h1.tsup = exGridTiers.tsup by rw [m1.frame]]
        exact ⟨7, by decide, Or.inl (by decide +kernel)⟩, by
        intro t k1; cases k1
        rw [s1.ct, show h1.tsub = exGridTiers.tsub by rw [m1.frame]]
        exact ⟨8, by decide, Or.inl (by decide +kernel)⟩⟩ (by simp)
    (by intro t k1; cases k1; rw [s1.ct, s1.tcls]; exact ⟨7, by decide +kernel, by decide +kernel⟩)
    (fun q => absurd (by
        intro t k1; cases k1; rw [s1.ct, show h1.tsub = exGridTiers.tsub by rw [m1.frame]]
        exact ⟨8, by decide +kernel, by decide +kernel⟩) q)
    (AlignedTiers.congr (h := exGridTiers) ⟨by decide, by decide, by decide, by
        intro i t t' h1 h2
        match i with
        | 0 => cases h1; cases h2; decide +kernel
        | i + 1 => simp at h2, by
        intro i t t' h1 h2
        match i with
        | 0 =>
          cases h1; cases h2
          exact ⟨by decide +kernel, by decide +kernel, by decide +kernel, by decide +kernel⟩
        | i + 1 => simp at h2⟩ s1.start s1.stop s1.tseq s1.cls s1.tcls s1.label s1.ct)
    (by
      intro t ht
      have ht : t = 2 ∨ t = 3 := by simpa using ht
      refine Fillable.congr (h := exGridTiers) ?_ s1
      rcases ht with rfl | rfl <;> exact ⟨by decide, by decide, by decide +kernel, by decide +kernel⟩)
    (by rw [s1.ct, s1.tcls]; decide +kernel)
    (o1 [2, 3] (by intro v x hx; rw [hsup] at hx; cases hx) (by
      rintro x ⟨t, ht, hx⟩ ⟨t', ht', hx'⟩
      exact (show ∀ t ∈ [0, 1], ∀ x ∈ (exGridTiers.tseq t).vals, ∀ t' ∈ [2, 3], x ∉ (exGridTiers.tseq t').vals by
        decide) t ht x hx t' ht' hx'))
    (by
      intro t ht g hg
      have : g = 0 := by simpa using hg
      rw [this, hgt1]
      revert t; decide)
    (by
      rintro x ⟨t, ht, hx⟩ g hg ⟨t', ht', hx'⟩
      have : g = 0 := by simpa using hg
      rw [this, hgt1] at ht'
      rw [s1.tseq] at hx hx'
      exact (show ∀ t ∈ [2, 3], ∀ x ∈ (exGridTiers.tseq t).vals, ∀ t' ∈ [0, 1], x ∉ (exGridTiers.tseq t').vals by
        decide) t ht x hx t' ht' hx')
  rw [hn1] at e2 gr2
  refine ⟨h2, ?_, gr2, ?_, ?_, ?_, ?_, ?_, ?_, ?_⟩
  · mstep e1
    exact e2
  · rw [m2.frame, m1.frame]; rfl
  · constructor
    · rw [s2.start, s1.start]
    · rw [s2.stop, s1.stop]
    · rw [s2.label, s1.label]
    · rw [s2.cls, s1.cls]
    · rw [s2.nE, s1.nE]
    · rw [s2.tseq, s1.tseq]
    · rw [s2.tcls, s1.tcls]
    · rw [s2.tname, s1.tname]
    · rw [s2.ct, s1.ct]
  · rw [m2.frame, hn1]
    exact hgt1
  · rw [m2.frame, hn1]
    rfl
  · rw [m2.frame, m1.frame]
  · rw [m2.frame, m1.frame]
  · rw [m2.frame, m1.frame]; rfl

-- the hypotheses of C73 are met by a textgrid whose groups have gaps and differ in extent
example : ∃ h h', (do let _ ← newGroup [0, 1]; newGroup [2, 3] : M GRef) exGridTiers = .ok 1 h ∧
    atgCleanup 0 h = .ok () h' ∧ HasGap h 0 ∧ groupXmin h 0 = .ok 1 ∧ groupXmin h 1 = .ok 2 := by
  obtain ⟨h, e, gr, ha, s, g0, g1, -⟩ := exGridTiers_grid
  have hsp : h.span = exGridTiers.span := by funext x; unfold Heap.span; rw [s.start, s.stop]
  obtain ⟨lo, hi, -, -, -, -, -, h', hx, -, e', -⟩ := C73_cleanup_partial h 0 (by rw [ha]; simp) (by rw [ha]; exact gr) (by
    rw [ha]
    intro g hg
    have : g = 0 ∨ g = 1 := by simpa using hg
    rcases this with rfl | rfl
    · rw [g0, s.tseq]; decide
    · rw [g1, s.tseq]; decide)
  refine ⟨h, h', e, e', ⟨0, by rw [g0]; simp, (3, 4), by rw [s.tseq, hsp]; decide +kernel, by
    unfold RealGap CloseTo; decide +kernel⟩, ?_, ?_⟩
  · rw [C44_group_xmin]
    unfold NoEmptyTier groupEntries
    rw [g0, s.tseq, s.start]
    decide +kernel
  · rw [C44_group_xmin]
    unfold NoEmptyTier groupEntries
    rw [g1, s.tseq, s.start]
    decide +kernel

/-! ## Where it fails -/

/-- two groups of different extent -/
def exUneven : M Unit := do
  let t ← newTierFrom [(1, 2, "w"), (2, 4, "v")] cWord "Word"
  let u ← newTierFrom [(1, 2, "a"), (2, 3, "b"), (3, 4, "c")] cPhone "Phone"
  let g ← newGroup [t, u]
  let t ← newTierFrom [(2, 3, "w")] cWord "Word"
  let u ← newTierFrom [(2, 3, "a")] cPhone "Phone"
  let k ← newGroup [t, u]
  let _ ← newAtgOf [g, k]
  pure ()

/-- C73 fails for groups of different extent: the new word `7` and the new phone `8` at the start of the second group
    have the same times, but are not related; only a second `cleanup()` relates them. -/
theorem C73_padding_violated :
    (let h := run0 (do exUneven; atgCleanup 0)
     7 ∈ (h.tseq 2).vals ∧ 8 ∈ (h.tseq 3).vals ∧ h.span 7 = (1, 2) ∧ h.span 8 = (1, 2) ∧ (h.subs 7).vals = [] ∧
       h.sup 8 = none) ∧
    (let h := run0 (do exUneven; atgCleanup 0; atgCleanup 0)
     (h.subs 7).vals = [8] ∧ h.sup 8 = some 7) := by decide +kernel

end ATG
