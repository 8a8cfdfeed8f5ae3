import Verif.Lemmas.Weave2
import Verif.Lemmas.Drill
import Verif.Props.Cleanup
/-!
# C16: cleaning up an interval
-/
namespace ATG

/-- `w` is an interval outside any group whose subset intervals, at least one, are of the subset class `d`,
    lie inside it, have positive durations and do not overlap; the subset lists around are in order. -/
structure Roomy (h : Heap) (w : Ref) (d : CRef) : Prop where
  tidy : Tidy h
  alloc : Alloc h
  old : w < h.nE
  sub : h.ct.sub (h.cls w) = some d
  notBottom : h.ct.isSub d cBottom = false
  nonempty : (h.subs w).vals ≠ []
  ecls : (h.subs w).ecls = some d
  cls : ∀ y ∈ (h.subs w).vals, h.cls y = d
  laid : Laid ((h.subs w).vals.map h.span)
  inside : ∀ y ∈ (h.subs w).vals, h.start w ≤ h.start y ∧ h.stop y ≤ h.stop w
  alone : ∀ t, h.intier w = some t → withinTruthy h t = none

/-- `l` covers `w`, up to numpy's tolerance -/
structure Covers (h : Heap) (w : Ref) (l : List Ref) : Prop where
  first : ∀ x, l.head? = some x → CloseTo (h.start w) (h.start x)
  next : ∀ (i : Nat) x y, l[i]? = some x → l[i + 1]? = some y → CloseTo (h.stop x) (h.start y)
  last : ∀ x, l.getLast? = some x → CloseTo (h.stop w) (h.stop x)

/-- `l` covers `w` exactly wherever an entry not in `l0` is involved -/
structure FillsExactly (h : Heap) (w : Ref) (l0 l : List Ref) : Prop where
  first : ∀ x, l.head? = some x → x ∉ l0 → h.start x = h.start w
  next : ∀ (i : Nat) x y, l[i]? = some x → l[i + 1]? = some y → x ∉ l0 ∨ y ∉ l0 → h.stop x = h.start y
  last : ∀ x, l.getLast? = some x → x ∉ l0 → h.stop x = h.stop w

/-- cleaning up an interval that is covered already -/
theorem ivalCleanup_covered (n : Nat) (h : Heap) (w : Ref) (d : CRef) (hd : h.ct.sub (h.cls w) = some d)
    (hne : (h.subs w).vals ≠ []) (hs : cleanupSpans h w = []) : ivalCleanupN (n + 1) w true h = .ok () h := by
  unfold ivalCleanupN
  mstep rfl
  mstep (show isSubO (h.ct.sub (h.cls w)) cBottom h = Res.ok (h.ct.isSub d cBottom) h by rw [hd]; rfl)
  cases h.ct.isSub d cBottom with
  | true => rfl
  | false =>
    simp only [Bool.false_eq_true, if_false, hd]
    rw [if_neg (by
      intro q
      apply hne
      exact List.length_eq_zero_iff.mp (by omega))]
    simp only [Bool.not_true, Bool.false_eq_true, if_false, hs]
    rfl

theorem ivalCleanup_eq (w : Ref) : ivalCleanup w = ivalCleanupN (999 + 1) w true := by
  unfold ivalCleanup cleanupFuel; rfl

/-- C16 for an interval with at least one subset interval: afterwards the list covers the interval within
    numpy's tolerance, and exactly wherever a new interval is involved; it stays inside the interval, without
    overlaps. The former subset intervals keep their order, times, labels and superset, all others are new
    blanks of the subset class that belong to `w` and have no subset intervals of their own. If any was added
    the list is linked. No other subset list changes, and a second `cleanup()` changes nothing.
    `_partial`: gaps within tolerance remain (`C16_validate_violated`). Missing: intervals in groups. -/
theorem C16_fills_partial (h : Heap) (w : Ref) (d : CRef) (ro : Roomy h w d) :
    ∃ h', ivalCleanup w h = .ok () h' ∧
      Covers h' w (h'.subs w).vals ∧ FillsExactly h' w (h.subs w).vals (h'.subs w).vals ∧
      Laid ((h'.subs w).vals.map h'.span) ∧
      (∀ x ∈ (h'.subs w).vals, h.start w ≤ h'.start x ∧ h'.stop x ≤ h.stop w) ∧
      (h.subs w).vals.Sublist (h'.subs w).vals ∧
      (∀ x ∈ (h'.subs w).vals, x ∉ (h.subs w).vals → h.nE ≤ x ∧ h'.cls x = d ∧ h'.label x = "" ∧
        h'.sup x = some w ∧ h'.within x = some (.ival w) ∧ (h'.subs x).vals = []) ∧
      (∀ x, x < h.nE → h'.cls x = h.cls x ∧ h'.start x = h.start x ∧ h'.stop x = h.stop x ∧
        h'.label x = h.label x ∧ h'.sup x = h.sup x ∧ (x ≠ w → h'.subs x = h.subs x) ∧
        (x ∉ (h.subs w).vals → h'.fol x = h.fol x ∧ h'.prev x = h.prev x ∧ h'.within x = h.within x)) ∧
      ((h'.subs w).vals ≠ (h.subs w).vals → DoublyLinked h' (h'.subs w).vals) ∧
      Tidy h' ∧ ivalCleanup w h' = .ok () h' := by
  have hle : h.start w ≤ h.stop w := by
    obtain ⟨x, hx⟩ := List.exists_mem_of_ne_nil _ ro.nonempty
    have h1 := ro.inside x hx
    have h2 : h.start x < h.stop x := ro.laid.1 (h.span x) (List.mem_map_of_mem hx)
    grind
  have hf : Fits (h.start w) ((h.subs w).vals.map h.span) (h.stop w) := by
    apply fits_of _ _ _ hle ro.laid
    intro p hp
    obtain ⟨x, hx, rfl⟩ := List.mem_map.mp hp
    exact ro.inside x hx
  obtain ⟨h', T, e, ap, hTp, hsub, hw⟩ := ivalCleanup_fill 999 w d h ro.tidy ro.alloc ro.old ro.sub ro.notBottom
    ro.nonempty ro.ecls ro.cls hf ro.alone
  generalize hG : cleanupSpans h w = G at *
  have hold : ∀ x, x < h.nE → SameEntry h (blankedAll h d G) x := fun x hx => blankedAll_same d G h x hx
  have fcls : h'.cls = (blankedAll h d G).cls := by rw [ap.frame]
  have fst : h'.start = (blankedAll h d G).start := by rw [ap.frame]
  have fsp : h'.stop = (blankedAll h d G).stop := by rw [ap.frame]
  have flb : h'.label = (blankedAll h d G).label := by rw [ap.frame]
  have hws : h'.start w = h.start w := by rw [fst, (hold w ro.old).start]
  have hwe : h'.stop w = h.stop w := by rw [fsp, (hold w ro.old).stop]
  have hTnew : ∀ x ∈ T, h.nE ≤ x ∧ ∃ s e, IsBlank (blankedAll h d G) d s e x := by
    intro x hx
    have := hTp.mem_iff.mp hx
    rw [List.mem_range'] at this
    obtain ⟨i, hi, rfl⟩ := this
    refine ⟨by romega, G[i].1, G[i].2, ?_⟩
    have := blankedAll_new d G h i G[i].1 G[i].2 (by simp [hi])
    rw [Nat.one_mul]
    exact this
  have hmem : ∀ x, x ∈ (h'.subs w).vals ↔ x ∈ (h.subs w).vals ∨ x ∈ T := by
    intro x
    rw [ap.perm.mem_iff, List.mem_append, (hold w ro.old).subs]
  obtain ⟨wl, wb⟩ := woven_laid _ _ _ hf
  obtain ⟨c1, c2, c3, -, -⟩ := woven_close ((h.subs w).vals.map h.span) (h.start w) (h.stop w)
  obtain ⟨x1, x2, x3⟩ := woven_exact ((h.subs w).vals.map h.span) (h.start w) (h.stop w)
  have hmne : (h.subs w).vals.map h.span ≠ [] := by simpa using ro.nonempty
  have hsp : ∀ x ∈ (h.subs w).vals, h'.span x = h.span x := by
    intro x hx
    unfold Heap.span
    rw [fst, fsp, (hold x (ro.alloc w x hx).2).start, (hold x (ro.alloc w x hx).2).stop]
  have hback : ∀ x ∈ (h'.subs w).vals, h'.span x ∈ (h.subs w).vals.map h.span → x ∈ (h.subs w).vals := by
    intro x hx hm
    obtain ⟨y, hy, he⟩ := List.mem_map.mp hm
    have hpw : (h'.subs w).vals.Pairwise fun a b => h'.start a < h'.start b := by
      have := wl.sorted
      rw [← hw, List.pairwise_map] at this
      exact this
    have he' : h'.start y = h'.start x := by
      have : h'.span y = h'.span x := by rw [hsp y hy, he]
      exact congrArg Prod.fst this
    rcases pairwise_trich hpw hx (hsub.subset hy) with q | q | q
    · rw [q]; exact hy
    · grind
    · grind
  have hhead : ∀ x, (h'.subs w).vals.head? = some x →
      (woven (h.start w) ((h.subs w).vals.map h.span) (h.stop w)).head? = some (h'.span x) := by
    intro x hx; rw [← hw, List.head?_map, hx]; rfl
  have hlast : ∀ x, (h'.subs w).vals.getLast? = some x →
      (woven (h.start w) ((h.subs w).vals.map h.span) (h.stop w)).getLast? = some (h'.span x) := by
    intro x hx; rw [← hw, List.getLast?_map, hx]; rfl
  have hget : ∀ (i : Nat) x, (h'.subs w).vals[i]? = some x →
      (woven (h.start w) ((h.subs w).vals.map h.span) (h.stop w))[i]? = some (h'.span x) := by
    intro i x hx; rw [← hw, List.getElem?_map, hx]; rfl
  have hne' : (h'.subs w).vals ≠ [] := by
    intro q
    apply ro.nonempty
    rw [q] at hsub
    exact List.sublist_nil.mp hsub
  refine ⟨h', by rw [ivalCleanup_eq]; exact e, ⟨?_, ?_, ?_⟩, ⟨?_, ?_, ?_⟩, ?_, ?_, hsub, ?_, ?_, ?_, ap.tidy, ?_⟩
  · intro x hx
    rw [hws, ← allclose_iff]; exact c1 (h'.span x) (hhead x hx) hmne
  · intro i x y hx hy
    rw [← allclose_iff]; exact c2 i (h'.span x) (h'.span y) (hget i x hx) (hget (i + 1) y hy)
  · intro x hx
    rw [hwe, ← allclose_iff]; exact c3 (h'.span x) (hlast x hx)
  · intro x hx hn
    rw [hws]
    apply Classical.byContradiction
    intro q
    exact hn (hback x (List.mem_of_head? hx) (x1 (h'.span x) (hhead x hx) q))
  · intro i x y hx hy hn
    apply Classical.byContradiction
    intro q
    have := x2 i (h'.span x) (h'.span y) (hget i x hx) (hget (i + 1) y hy) q
    have hx' := hback x (List.mem_of_getElem? hx) this.1
    have hy' := hback y (List.mem_of_getElem? hy) this.2
    exact hn.elim (fun z => z hx') (fun z => z hy')
  · intro x hx hn
    rw [hwe]
    apply Classical.byContradiction
    intro q
    exact hn (hback x (List.mem_of_getLast? hx) (x3 (h'.span x) (hlast x hx) q))
  · rw [hw]; exact wl
  · intro x hx
    exact wb (h'.span x) (by rw [← hw]; exact List.mem_map_of_mem hx)
  · intro x hx hn
    have hxT : x ∈ T := ((hmem x).mp hx).resolve_left hn
    obtain ⟨h1, s, e2, hb⟩ := hTnew x hxT
    have hxw : x ≠ w := by
      have := ro.old; intro q; rw [q] at h1; romega
    rw [fcls, flb, ap.sup, if_pos hxT, ap.within, if_pos (Or.inl hxT), ap.others x hxw, hb.cls, hb.label, hb.subs]
    exact ⟨h1, rfl, rfl, rfl, rfl, rfl⟩
  · intro x hx
    have hxT : x ∉ T := by
      intro q; have := (hTnew x q).1; romega
    rw [fcls, fst, fsp, flb, ap.sup, if_neg hxT]
    have s := hold x hx
    refine ⟨s.cls, s.start, s.stop, s.label, s.sup, ?_, ?_⟩
    · intro hxw
      rw [ap.others x hxw, s.subs]
    · intro hxs
      have hl := ap.links x (by rw [(hold w ro.old).subs]; exact hxs) hxT
      rw [hl.1, hl.2, s.fol, s.prev, ap.within, if_neg (by
        rw [(hold w ro.old).subs]; exact fun q => q.elim hxT (fun q => hxs q.2)), s.within]
      exact ⟨rfl, rfl, rfl⟩
  · intro hne
    apply ap.linked
    intro q
    rw [ap.same q, (hold w ro.old).subs] at hne
    exact hne rfl
  · rw [ivalCleanup_eq]
    apply ivalCleanup_covered 999 h' w d _ hne'
    · have := cleanupSpans_perm h' w hne'
      rw [hw, hws, hwe, holes_woven] at this
      exact List.perm_nil.mp this
    · have : h'.ct = (blankedAll h d G).ct := by rw [ap.frame]
      have htier : ∀ G h, (blankedAll h d G).ct = h.ct := by
        intro G
        induction G with
        | nil => intro h; rfl
        | cons g G ih => intro h; exact ih (blanked h d g.1 g.2)
      rw [this, htier, fcls, (hold w ro.old).cls]
      exact ro.sub

/-- a word from `1` to `9` with the phones `1..a` and `b..c` -/
def exRoomy (a b c : Time) : Heap :=
  { heap0 with
    nE := 3
    cls := fun r => if r = 0 then cWord else cPhone
    start := fun r => if r = 2 then b else 1
    stop := fun r => if r = 0 then 9 else if r = 1 then a else c
    label := fun r => if r = 0 then "w" else "p"
    subs := fun r => if r = 0 then ⟨[1, 2], some cPhone⟩ else SL.empty
    sup := fun r => if r = 1 ∨ r = 2 then some 0 else none }

theorem exRoomy_roomy (a b c : Time) (h1 : 1 < a) (h2 : a ≤ b) (h3 : b < c) (h4 : c ≤ 9) :
    Roomy (exRoomy a b c) 0 cPhone where
  tidy := by
    refine ⟨?_, ?_, ?_, ?_, ?_⟩
    · intro v x
      by_cases q : v = 0
      · subst q; simp [exRoomy]; grind
      · by_cases q2 : x = 1 ∨ x = 2
        · simp [exRoomy, q, q2, SL.empty]; exact fun e => q e.symm
        · simp [exRoomy, q, q2, SL.empty]
    · intro v
      by_cases q : v = 0
      · subst q; simp [exRoomy]
      · simp [exRoomy, q, SL.empty]
    · intro v
      by_cases q : v = 0
      · subst q
        have hne : b ≠ 1 := by grind
        simp [exRoomy, SameValue, hne, Ne.symm hne]
      · simp [exRoomy, q, SL.empty]
    · intro v
      by_cases q : v = 0
      · subst q; simp [exRoomy]
      · simp [exRoomy, q, SL.empty]
    · intro v
      by_cases q : v = 0
      · subst q; simp [exRoomy]
      · simp [exRoomy, q, SL.empty]
  alloc := by
    intro v x hx
    by_cases q : v = 0
    · subst q; rcases (by simpa [exRoomy] using hx : x = 1 ∨ x = 2) with rfl | rfl <;> simp [exRoomy] <;> decide
    · simp [exRoomy, q, SL.empty] at hx
  old := by show 0 < 3; decide
  sub := show baseClasses.sub cWord = some cPhone by decide +kernel
  notBottom := show baseClasses.isSub cPhone cBottom = false by decide +kernel
  nonempty := by simp [exRoomy]
  ecls := rfl
  cls := by simp [exRoomy]
  laid := by simp [exRoomy, Laid, Heap.span]; grind
  inside := by simp [exRoomy]; grind
  alone := by simp [exRoomy, heap0]

-- a gap in the middle and one at the end
example : ∃ h', ivalCleanup 0 (exRoomy 2 4 5) = .ok () h' ∧ Covers h' 0 (h'.subs 0).vals ∧
    (h'.subs 0).vals = [1, 4, 2, 3] := by
  obtain ⟨h', e, hc, -⟩ := C16_fills_partial _ 0 cPhone (exRoomy_roomy 2 4 5 (by grind) (by grind) (by grind) (by grind))
  refine ⟨h', e, hc, ?_⟩
  have : h' = (ivalCleanup 0 (exRoomy 2 4 5)).heap := by rw [e]; rfl
  rw [this]
  decide +kernel

/-- C16 fails on `validate()`, whose tolerance is relative to the end of the former interval where that of
    `cleanup()` is relative to the start of the latter: a gap may be too small to be filled and too great to
    be accepted. -/
theorem C16_validate_violated : ∃ h w d, Roomy h w d ∧
    ivalCleanup w h = .ok () h ∧ validate h w = false := by
  refine ⟨exRoomy 2 (2 + 2 / 100000 + 1 / 100000000 + 1 / 10000000000) 9, 0, cPhone,
    exRoomy_roomy _ _ _ (by grind) (by grind) (by grind) (by grind), ?_, by decide +kernel⟩
  rw [ivalCleanup_eq]
  exact ivalCleanup_covered 999 _ 0 cPhone (by decide +kernel) (by simp [exRoomy]) (by decide +kernel)

/-- Where the subset intervals are not inside, `cleanup()` makes an interval that ends before it starts. -/
theorem C16_overhang_violated : ∃ h w, SortedByStart h (h.subs w).vals ∧
    (∀ x ∈ (h.subs w).vals, h.start x < h.stop x) ∧
    (ivalCleanup w h).out = .ok () ∧
    ∃ x ∈ ((ivalCleanup w h).heap.subs w).vals,
      (ivalCleanup w h).heap.stop x < (ivalCleanup w h).heap.start x := by
  refine ⟨exRoomy 2 4 10, 0, ?_, ?_, ?_, 3, ?_, ?_⟩
  · decide +kernel
  · decide +kernel
  · decide +kernel
  · decide +kernel
  · decide +kernel

/-- C16 for an interval without subset intervals: `cleanup()` makes one blank interval for each class below
    that of `w` (at most 999 of them), each with the times of `w` and holding the next one, the first of
    them being the only subset interval of `w`; all the lists are linked and nothing else changes. If there
    is no class below, nothing happens at all. -/
theorem C16_empty (h : Heap) (w : Ref) (ds : List CRef) (hl : ds.length ≤ 999) (td : Tidy h) (al : Alloc h)
    (hw : w < h.nE) (he : h.subs w = SL.empty) (hd : Descends h.ct (h.cls w) ds)
    (hfree : ∀ t, h.intier w = some t → withinTruthy h t = none) :
    ∃ h', ivalCleanup w h = .ok () h' ∧ Drilled h h' w ds := by
  obtain ⟨h', e, dr⟩ := ivalCleanup_drill ds (999 - ds.length) w h td al hw he hd hfree
  refine ⟨h', ?_, dr⟩
  rw [ivalCleanup_eq, show 999 + 1 = ds.length + 1 + (999 - ds.length) by omega]
  exact e

/-- three classes, one above the other, and an interval of the first -/
def exDeep : Heap :=
  { heap0 with
    ct := (customClasses baseClasses ["A", "B", "C"] []).1
    nE := 1
    cls := fun _ => 11
    start := fun _ => 2
    stop := fun _ => 5
    label := fun _ => "a" }

example : ∃ h', ivalCleanup 0 exDeep = .ok () h' ∧ Drilled exDeep h' 0 [12, 13] := by
  refine C16_empty exDeep 0 [12, 13] (by simp) ?_ ?_ (by show 0 < 1; decide) rfl ?_ (by simp [exDeep, heap0])
  · refine ⟨?_, ?_, ?_, ?_, ?_⟩ <;> simp [exDeep, heap0, SL.empty]
  · intro v x; simp [exDeep, heap0, SL.empty]
  · exact ⟨by decide +kernel, by decide +kernel, by decide +kernel, by decide +kernel, 10, by decide +kernel,
      by decide +kernel⟩

end ATG
