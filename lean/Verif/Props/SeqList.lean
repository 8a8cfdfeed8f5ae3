import Verif.Lemmas.SeqList
import Verif.Lemmas.Overlap
import Verif.Model.Base
/-!
# C01–C05, C08: `SequenceList`
-/
namespace ATG

/-! ## C01 construction -/

/-- C01: entries of one class give exactly those entries, in order of start time, and nothing else
    changes. -/
theorem C01_construct (h : Heap) (l : List Ref) (c : CRef) (hne : l ≠ [])
    (hc : ∀ x ∈ l, h.cls x = c) :
    ∃ vals, slMk l h = .ok ⟨vals, some c⟩ h ∧ vals.Perm l ∧ SortedByStart h vals := by
  refine ⟨slSort h l, ?_, slSort_perm h l, slSort_sorted h l⟩
  rw [slMk_ok h l (by intro x hx y hy; rw [hc x hx, hc y hy])]
  cases l with
  | nil => exact absurd rfl hne
  | cons x xs => simp [headCls, hc x (by simp)]

/-- C01: a list that is already in order is kept as it is. -/
theorem C01_construct_sorted (h : Heap) (l : List Ref) (c : CRef) (hne : l ≠ [])
    (hc : ∀ x ∈ l, h.cls x = c) (hs : SortedByStart h l) :
    slMk l h = .ok ⟨l, some c⟩ h := by
  rw [slMk_ok h l (by intro x hx y hy; rw [hc x hx, hc y hy]), slSort_of_sorted h l hs]
  cases l with
  | nil => exact absurd rfl hne
  | cons x xs => simp [headCls, hc x (by simp)]

/-- C01: with distinct start times the result does not depend on the sorting algorithm: every sorted
    rearrangement of the entries is the one constructed. -/
theorem C01_order_unique (h : Heap) (l l' : List Ref) (c : CRef) (hne : l ≠ [])
    (hc : ∀ x ∈ l, h.cls x = c) (hp : l'.Perm l) (hs : SortedByStart h l')
    (hd : ∀ x ∈ l, ∀ y ∈ l, h.start x = h.start y → x = y) :
    slMk l h = .ok ⟨l', some c⟩ h := by
  obtain ⟨v, hv, hvp, hvs⟩ := C01_construct h l c hne hc
  rw [hv]
  have := sorted_perm_unique h.start v l' (hvp.trans hp.symm) hvs hs
    (fun x hx y hy => hd x (hvp.mem_iff.mp hx) y (hvp.mem_iff.mp hy))
  rw [this]

/-- C01: entries of different classes are rejected and nothing changes. -/
theorem C01_reject (h : Heap) (l : List Ref) (x y : Ref) (hx : x ∈ l) (hy : y ∈ l)
    (hxy : h.cls x ≠ h.cls y) : slMk l h = .err .valueError h :=
  slMk_err h l (fun hh => hxy (hh x hx y hy))

/-- C01: no arguments, empty list. -/
theorem C01_empty (h : Heap) : slMk [] h = .ok ⟨[], none⟩ h := rfl

/-- three intervals out of order -/
def exThree : Heap := heapOf [(3, 5, 6, "c"), (3, 1, 2, "a"), (3, 3, 4, "b")]

-- the hypotheses of `C01_construct` and `C01_order_unique` are met, and the result is a real reordering
example : (∀ x ∈ [0, 1, 2], exThree.cls x = 3) ∧ [1, 2, 0].Perm [0, 1, 2] ∧
    SortedByStart exThree [1, 2, 0] := by decide +kernel
example : (slMk [0, 1, 2] exThree).out = .ok ⟨[1, 2, 0], some 3⟩ := by decide +kernel
example : (slMk [0, 1] (heapOf [(cWord, 0, 1, "a"), (cPhone, 0, 1, "b")])).out = .error .valueError := by
  decide +kernel

/-! ## C02 membership -/

/-- C02: `x in list` is identity or equality of value. -/
theorem C02_contains (h : Heap) (l : List Ref) (x : Ref) :
    slContains h l x = true ↔
      x ∈ l ∨ ∃ y ∈ l, h.isPoint y = h.isPoint x ∧ h.start y = h.start x ∧ h.stop y = h.stop x ∧
        h.label y = h.label x := slContains_iff h l x

-- a different object with the same value is `in` the list; one differing in the label only is not
example : let h := heapOf [(3, 1, 2, "a"), (3, 1, 2, "a"), (3, 1, 2, "b")]
    slContains h [0] 1 = true ∧ slContains h [0] 2 = false := by decide +kernel

/-! ## C03 addition -/

/-- C03: `a + b` for a list `a` of class `c` and new entries of a related class: all of `a` plus the
    entries of `b` not yet in `a`, in order of start time, all cast to `c`; nothing but the class of
    those entries changes (in particular not `a`). -/
theorem C03_add (put : SL → M Unit) (a : SL) (b new : List Ref) (h : Heap) (c d : CRef)
    (hnew : new = b.filter fun x => ¬ Listed h a.vals x)
    (hne : new ≠ []) (hac : a.ecls = some c) (hd : ∀ x ∈ new, h.cls x = d)
    (hrel : h.ct.isSub d c = true ∨ h.ct.isSub c d = true)
    (hp : ∀ x, x ∈ a.vals ∨ x ∈ new → h.isPoint x = h.ct.isSub c cPoint) :
    ∃ vals, slAdd put a b h = .ok ⟨vals, some c⟩
        { h with cls := fun r => if r ∈ a.vals ∨ r ∈ new then c else h.cls r } ∧
      vals.Perm (a.vals ++ new) ∧ SortedByStart h vals := by
  have e : newOf h a.vals b = new := by
    rw [hnew]; unfold newOf
    congr 1; funext x
    by_cases hx : Listed h a.vals x
    · simp [(slContains_iff h a.vals x).mpr hx, hx]
    · simp [(slContains_false_iff h a.vals x).mpr hx, hx]
  refine ⟨slSort h (a.vals ++ new), ?_, slSort_perm h _, slSort_sorted h _⟩
  rw [← e] at hne hd hp ⊢
  rw [slAdd_ok put a b h c d hne hac hd (by rcases hrel with e | e <;> simp [e])
      (by
        intro x hx
        rw [List.mem_append] at hx
        exact (hp x hx).symm)]
  simp only [castAll, List.mem_append]

/-- C03: nothing new, `a` itself is returned. -/
theorem C03_add_nothing (put : SL → M Unit) (a : SL) (b : List Ref) (h : Heap)
    (hb : ∀ x ∈ b, Listed h a.vals x) : slAdd put a b h = .ok a h := by
  apply slAdd_none_new
  unfold newOf
  rw [List.filter_eq_nil_iff]
  intro x hx; simp [(slContains_iff h a.vals x).mpr (hb x hx)]

/-- C03: new entries of an unrelated class are rejected and nothing changes. -/
theorem C03_add_reject (put : SL → M Unit) (a : SL) (b : List Ref) (h : Heap) (c : CRef) (x : Ref)
    (hx : x ∈ b) (hxn : ¬ Listed h a.vals x) (hac : a.ecls = some c)
    (hrel : h.ct.isSub (h.cls x) c = false ∧ h.ct.isSub c (h.cls x) = false) :
    slAdd put a b h = .err .valueError h := by
  have hxm := (mem_newOf h a.vals b x).mpr ⟨hx, hxn⟩
  by_cases hs : ∀ y ∈ newOf h a.vals b, ∀ z ∈ newOf h a.vals b, h.cls y = h.cls z
  · exact slAdd_err put a b h c (h.cls x) (List.ne_nil_of_mem hxm) hac (fun y hy => hs y hy x hxm)
      (by simp [hrel])
  · exact slAdd_err_mixed put a b h hs

/-- C03: new entries of several classes are rejected and nothing changes. -/
theorem C03_add_reject_mixed (put : SL → M Unit) (a : SL) (b : List Ref) (h : Heap) (x y : Ref)
    (hx : x ∈ b) (hxn : ¬ Listed h a.vals x) (hy : y ∈ b) (hyn : ¬ Listed h a.vals y)
    (hxy : h.cls x ≠ h.cls y) : slAdd put a b h = .err .valueError h :=
  slAdd_err_mixed put a b h (fun hh =>
    hxy (hh x ((mem_newOf h a.vals b x).mpr ⟨hx, hxn⟩) y ((mem_newOf h a.vals b y).mpr ⟨hy, hyn⟩)))

/-- C03 on an empty list without entry class: the sum is `b` in order, and (the code's only side effect
    on the left operand) its entry class is set. -/
theorem C03_add_empty (w : Ref) (b : List Ref) (h : Heap) (d : CRef) (hw : h.subs w = SL.empty)
    (hb : b ≠ []) (hd : ∀ x ∈ b, h.cls x = d) :
    ∃ vals, slAdd (fun sl => M.modify fun h => { h with subs := upd h.subs w sl }) (h.subs w) b h =
        .ok ⟨vals, some d⟩ { h with subs := upd h.subs w ⟨[], some d⟩ } ∧
      vals.Perm b ∧ SortedByStart h vals := by
  refine ⟨slSort h b, ?_, slSort_perm h b, slSort_sorted h b⟩
  cases e : b with
  | nil => exact absurd e hb
  | cons x xs =>
    rw [hw]
    exact slAdd_ok_empty _ (fun sl h => { h with subs := upd h.subs w sl }) (fun _ _ => rfl)
      (fun _ _ => ⟨rfl, rfl⟩) (x :: xs) h d x xs rfl (e ▸ hd)

-- a list of phones, one new phone and one value-equal copy: only the new one is added, in order
example : let h := heapOf [(cPhone, 1, 2, "a"), (cPhone, 3, 4, "b"), (cPhone, 2, 3, "n"),
      (cPhone, 3, 4, "b")]
    (slAdd (fun _ => pure ()) ⟨[0, 1], some cPhone⟩ [2, 3] h).out = .ok ⟨[0, 2, 1], some cPhone⟩ := by
  decide +kernel
-- a plain interval added to a list of phones is cast
example : let h := heapOf [(cPhone, 1, 2, "a"), (cInterval, 3, 4, "b")]
    (slAdd (fun _ => pure ()) ⟨[0], some cPhone⟩ [1] h).heap.cls 1 = cPhone ∧
    h.ct.isSub cPhone cInterval = true ∧ h.isPoint 1 = h.ct.isSub cPhone cPoint := by decide +kernel
-- a word added to a list of phones is rejected
example : let h := heapOf [(cPhone, 1, 2, "a"), (cWord, 3, 4, "b")]
    (slAdd (fun _ => pure ()) ⟨[0], some cPhone⟩ [1] h).out = .error .valueError := by decide +kernel

/-! ## C04 append keeps the list sorted -/

/-- C04 as stated: appending to a sorted list gives a sorted list with the old entries plus the new
    one. -/
def C04_statement : Prop :=
  ∀ (h : Heap) (a : SL) (x : Ref) (c : CRef), SortedByStart h a.vals → a.ecls = some c →
    h.cls x = c → ¬ Listed h a.vals x →
    ∃ vals, slAppend a x h = .ok ⟨vals, some c⟩ h ∧ vals.Perm (x :: a.vals) ∧ SortedByStart h vals

/-- C04 fails: appending `[1,2]` to the list `[0,1], [2,3]` puts it at the end, because one of the
    starts is 0 (`all(self.starts)`, `sequence_list.py:204`). -/
theorem C04_violated : ¬ C04_statement := by
  intro hst
  let h := heapOf [(cPhone, 0, 1, "a"), (cPhone, 2, 3, "c"), (cPhone, 1, 2, "b")]
  have hs : SortedByStart h [0, 1] := by decide +kernel
  obtain ⟨v, hv, _, hvs⟩ := hst h ⟨[0, 1], some cPhone⟩ 2 cPhone hs rfl (by decide +kernel)
    (by decide +kernel)
  have e : (slAppend ⟨[0, 1], some cPhone⟩ 2 h).out = .ok ⟨[0, 1, 2], some cPhone⟩ := by decide +kernel
  rw [hv] at e
  simp only [Res.out, Except.ok.injEq, SL.mk.injEq] at e
  rw [e.1] at hvs
  have : ¬ SortedByStart h [0, 1, 2] := by decide +kernel
  exact this hvs

/-- C04, the part that holds: if no start in the list is 0, or the new entry starts last, the list stays
    sorted, with the old entries plus the new one; the old entries keep their order; only the class of
    the new entry changes. Missing from C04: lists with an entry starting at 0. -/
theorem C04_append_partial (h : Heap) (a : SL) (x : Ref) (c : CRef) (hs : SortedByStart h a.vals)
    (hc : a.ecls = some c) (hx : ¬ Listed h a.vals x)
    (hrel : h.ct.isSub c (h.cls x) = true ∨ h.ct.isSub (h.cls x) c = true)
    (hp : h.isPoint x = h.ct.isSub c cPoint)
    (hz : (∀ y ∈ a.vals, h.start y ≠ 0) ∨ (∀ y ∈ a.vals, h.start y ≤ h.start x)) :
    ∃ vals, slAppend a x h = .ok ⟨vals, some c⟩ { h with cls := upd h.cls x c } ∧
      vals.Perm (x :: a.vals) ∧ SortedByStart h vals ∧ a.vals.Sublist vals := by
  refine ⟨insAt h a.vals x, slAppend_ok a x h c hx hc (by rcases hrel with e | e <;> simp [e]) hp.symm,
    insAt_perm h a.vals x, ?_, ?_⟩
  · unfold insAt
    split
    · rw [insertIdx_takeWhile]; exact insBy_sorted _ _ _ hs
    · rename_i hn
      unfold SortedByStart
      rw [List.pairwise_append]
      refine ⟨hs, by simp, ?_⟩
      intro y hy z hz'
      simp at hz'; subst hz'
      rcases hz with e | e
      · exfalso
        apply hn
        simp only [Bool.and_eq_true, decide_eq_true_eq, List.all_eq_true, List.mem_map]
        refine ⟨List.length_pos_of_mem hy, ?_⟩
        rintro t ⟨u, hu, rfl⟩
        exact e u hu
      · exact e y hy
  · unfold insAt
    split
    · rw [insertIdx_takeWhile]; exact insBy_sublist _ _ _
    · exact List.sublist_append_left _ _

/-- C04 for a list without entry class (a new, empty list): the entry gives the class. -/
theorem C04_append_empty (h : Heap) (x : Ref) :
    slAppend ⟨[], none⟩ x h = .ok ⟨[x], some (h.cls x)⟩ h := by
  rw [slAppend_ok_none _ x h (by simp [Listed]) rfl]; simp [insAt]

-- non-zero starts: inserted in the middle
example : let h := heapOf [(cPhone, 1, 2, "a"), (cPhone, 3, 4, "c"), (cPhone, 2, 3, "b")]
    (slAppend ⟨[0, 1], some cPhone⟩ 2 h).out = .ok ⟨[0, 2, 1], some cPhone⟩ := by decide +kernel
-- a start of 0, but the new entry is last
example : let h := heapOf [(cPhone, 0, 1, "a"), (cPhone, 1, 2, "b")]
    (slAppend ⟨[0], some cPhone⟩ 1 h).out = .ok ⟨[0, 1], some cPhone⟩ := by decide +kernel

/-! ## C05 append is idempotent -/

/-- C05: appending what is already in the list changes nothing. -/
theorem C05_append_old (a : SL) (x : Ref) (h : Heap) (hx : Listed h a.vals x) :
    slAppend a x h = .ok a h := slAppend_old a x h hx

/-- C05: after a successful append the entry is in the list. -/
theorem C05_append_listed (a a' : SL) (x : Ref) (h h' : Heap) (e : slAppend a x h = .ok a' h') :
    Listed h' a'.vals x := by
  by_cases hx : Listed h a.vals x
  · rw [slAppend_old a x h hx] at e; cases e; exact hx
  · left
    cases hc : a.ecls with
    | none => rw [slAppend_ok_none a x h hx hc] at e; cases e; exact (insAt_perm h _ x).mem_iff.mpr (by simp)
    | some c =>
      cases hrel : (h.ct.isSub c (h.cls x) || h.ct.isSub (h.cls x) c) with
      | false => rw [slAppend_err a x h c hx hc hrel] at e; cases e
      | true =>
        by_cases hp : h.ct.isSub c cPoint = h.isPoint x
        · rw [slAppend_ok a x h c hx hc hrel hp] at e; cases e; exact (insAt_perm h _ x).mem_iff.mpr (by simp)
        · rw [slAppend_err_cast a x h c hx hc hrel hp] at e; cases e

/-- C05: appending twice is the same as appending once, in every case including errors. -/
theorem C05_append_twice (a : SL) (x : Ref) (h : Heap) :
    (do let a' ← slAppend a x; slAppend a' x) h = slAppend a x h := by
  cases e : slAppend a x h with
  | err er h' => exact M.bind_err e
  | ok a' h' =>
    rw [M.bind_ok e, slAppend_old a' x h' (C05_append_listed a a' x h h' e)]

/-- C05: the number of occurrences of a new entry becomes exactly one, others are unaffected. -/
theorem C05_append_count (a a' : SL) (x : Ref) (h h' : Heap) (hx : ¬ Listed h a.vals x)
    (e : slAppend a x h = .ok a' h') (y : Ref) :
    a'.vals.count y = a.vals.count y + if y = x then 1 else 0 := by
  have key : (insAt h a.vals x).count y = a.vals.count y + if y = x then 1 else 0 := by
    rw [(insAt_perm h a.vals x).count_eq, List.count_cons]
    by_cases hyx : y = x
    · subst hyx; simp
    · have : ¬ x = y := fun h => hyx h.symm
      simp [hyx, this]
  cases hc : a.ecls with
  | none => rw [slAppend_ok_none a x h hx hc] at e; cases e; exact key
  | some c =>
    cases hrel : (h.ct.isSub c (h.cls x) || h.ct.isSub (h.cls x) c) with
    | false => rw [slAppend_err a x h c hx hc hrel] at e; cases e
    | true =>
      by_cases hp : h.ct.isSub c cPoint = h.isPoint x
      · rw [slAppend_ok a x h c hx hc hrel hp] at e; cases e; exact key
      · rw [slAppend_err_cast a x h c hx hc hrel hp] at e; cases e

example : let h := heapOf [(cPhone, 1, 2, "a"), (cPhone, 1, 2, "a"), (cPhone, 2, 3, "b")]
    (slAppend ⟨[0], some cPhone⟩ 1 h).out = .ok ⟨[0], some cPhone⟩ ∧
    (slAppend ⟨[0], some cPhone⟩ 2 h).out = .ok ⟨[0, 2], some cPhone⟩ := by decide +kernel

/-! ## C08 overlap check -/

/-- C08: for spans of positive duration the check is exact. -/
theorem C08_overlap (spans : List (Time × Time)) (hpos : ∀ p ∈ spans, p.1 < p.2) :
    checkNoOverlaps spans = true ↔
      ∀ i j (hi : i < spans.length) (hj : j < spans.length), i < j → ¬ Overlap spans[i] spans[j] := by
  have : checkNoOverlaps spans = true ↔ nOverlaps spans ≤ spans.length := by
    simp [checkNoOverlaps]
  rw [this, nOverlaps_le_iff spans hpos, List.pairwise_iff_getElem]

/-- C08: without positive durations the check can miss an overlap: two point-like entries make up for
    it. -/
theorem C08_zero_duration :
    checkNoOverlaps [(0, 2), (1, 3), (10, 10), (11, 11)] = true ∧ Overlap (0, 2) (1, 3) := by
  decide +kernel

example : checkNoOverlaps [(0, 2), (1, 3)] = false ∧ checkNoOverlaps [(0, 1), (1, 3)] = true := by
  decide +kernel

end ATG
