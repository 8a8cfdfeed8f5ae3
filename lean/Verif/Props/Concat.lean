import Verif.Lemmas.Concat
import Verif.Lemmas.Link
import Verif.Lemmas.Remove
import Verif.Props.Queries
/-!
# C07, C54, C59: concatenation
-/
namespace ATG

/-! ## C07 `SequenceList.concat` -/

/-- `T` is the greatest end of the entries, zero if there are none -/
def LastEnd (h : Heap) (l : List Ref) (T : Time) : Prop :=
  (l = [] ∧ T = 0) ∨ ((∃ y ∈ l, h.stop y = T) ∧ ∀ y ∈ l, h.stop y ≤ T)

theorem LastEnd.inc {h : Heap} {l : List Ref} {T : Time} (m : LastEnd h l T) :
    (maxL (l.map h.stop)).getD 0 = T := by
  rcases m with ⟨rfl, rfl⟩ | ⟨h1, h2⟩
  · rfl
  · have : maxL (l.map h.stop) = some T := by rw [maxL_iff]; simpa using ⟨h1, h2⟩
    rw [this]; rfl

/-- The second list of a concatenation: entries of one class related to `c`, each a tree of its own, not
    containing any entry of the first list. -/
structure Concatenable (h : Heap) (a b : List Ref) (c d : CRef) (rank : Ref → Nat) : Prop where
  forest : Forest h rank
  depth : ∀ x ∈ b, rank x < shiftFuel
  nodup : b.Nodup
  nonempty : b ≠ []
  apart : ∀ x ∈ b, ∀ y ∈ b, x ≠ y → ¬ Desc h x y
  fresh : ∀ x ∈ b, ∀ y ∈ a, ¬ Desc h x y
  clsA : ∀ y ∈ a, h.cls y = c
  clsB : ∀ x ∈ b, h.cls x = d
  related : h.ct.isSub d c = true ∨ h.ct.isSub c d = true
  points : h.ct.isSub d cPoint = h.ct.isSub c cPoint
  sorted : SortedByStart h a
  later : ∀ x ∈ b, 0 ≤ h.start x
  proper : (∀ y ∈ a, h.start y < h.stop y) ∨ ((∀ y ∈ a, h.start y ≤ h.stop y) ∧ ∀ x ∈ b, 0 < h.start x)

/-- C07 (what holds): after `a.concat(b)` the list has its old entries followed by those of `b` in time
    order, and exactly the entries of `b`, with everything below them, moved, by the greatest end in
    `a`.

    Missing for the full statement: an empty (or already contained) `b`, and the use of the list
    afterwards, for both of which it is false (`C07_nothing_new_violated`, `C07_remove_violated`,
    `C07_append_violated`). -/
theorem C07_concat_partial (h : Heap) (a : CL) (b : List Ref) (c d : CRef) (rank : Ref → Nat) (T : Time)
    (hk : a.kind ≠ .cyclic) (hc : a.ecls = some c) (j : Concatenable h a.vals b c d rank)
    (hM : LastEnd h a.vals T) :
    ∃ h' l, clConcat a b h = .ok ⟨a.vals ++ l, some c, .wrapped⟩ h' ∧ l.Perm b ∧ SortedByStart h l ∧
      SortedByStart h' (a.vals ++ l) ∧
      (∀ y, (∃ x ∈ b, Desc h x y) → h'.start y = h.start y + T ∧ h'.stop y = h.stop y + T) ∧
      (∀ y, ¬ (∃ x ∈ b, Desc h x y) → h'.start y = h.start y ∧ h'.stop y = h.stop y) ∧
      h' = { h with start := h'.start, stop := h'.stop, cls := fun r => if r ∈ b then c else h.cls r } := by
  have hperm := slSort_perm h b
  have hmem : ∀ x, x ∈ slSort h b ↔ x ∈ b := fun x => hperm.mem_iff
  obtain ⟨h1, hs, m1, m2, m3⟩ := shiftList_ok T rank h j.forest (slSort h b)
    (fun x hx => j.depth x ((hmem x).mp hx)) (hperm.nodup_iff.mpr j.nodup)
    (fun x hx y hy => j.apart x ((hmem x).mp hx) y ((hmem y).mp hy))
  simp only [hmem] at m1 m2
  have hct : h1.ct = h.ct := by rw [m3]
  have hcls : h1.cls = h.cls := by rw [m3]
  have hmv : ∀ x ∈ b, h1.start x = h.start x + T := fun x hx => (m1 x ⟨x, hx, .refl _⟩).1
  have hst : ∀ y ∈ a.vals, h1.start y = h.start y := fun y hy =>
    (m2 y (by rintro ⟨x, hx, hd⟩; exact j.fresh x hx y hy hd)).1
  have hlt : ∀ y ∈ a.vals, ∀ x ∈ b, h1.start y < h1.start x := by
    intro y hy x hx
    rw [hst y hy, hmv x hx]
    have hle : h.stop y ≤ T := by
      rcases hM with ⟨e, -⟩ | ⟨-, h2⟩
      · rw [e] at hy; cases hy
      · exact h2 y hy
    have h0 := j.later x hx
    rcases j.proper with hp | ⟨hp, hq⟩
    · have := hp y hy; grind
    · have := hp y hy; have := hq x hx; grind
  have hnl : ∀ x ∈ b, ¬ Listed h1 a.vals x := by
    rintro x hx (hm | ⟨y, hy, s⟩)
    · have := hlt x hm x hx; grind
    · have := hlt y hy x hx
      have e := s.2.1
      grind
  have hnew : newOf h1 a.vals (slSort h b) = slSort h b := by
    unfold newOf
    rw [List.filter_eq_self]
    intro x hx
    simp [(slContains_false_iff _ _ _).mpr (hnl x ((hmem x).mp hx))]
  have hsne : slSort h b ≠ [] := by
    intro e; rw [e] at hperm; exact j.nonempty hperm.symm.eq_nil
  have hsb : SortedByStart h1 (slSort h b) := by
    have := slSort_sorted h b
    refine List.Pairwise.imp_of_mem ?_ this
    intro x y hx hy hxy
    rw [hmv x ((hmem x).mp hx), hmv y ((hmem y).mp hy)]; grind
  have hsall : SortedByStart h1 (a.vals ++ slSort h b) := by
    refine List.pairwise_append.mpr ⟨?_, hsb, fun y hy x hx => ?_⟩
    · refine List.Pairwise.imp_of_mem ?_ j.sorted
      intro x y hx hy hxy
      rw [hst x hx, hst y hy]; exact hxy
    · have := hlt y hy x ((hmem x).mp hx); grind
  have hadd := slAdd_ok (fun _ => pure ()) ⟨a.vals, a.ecls⟩ (slSort h b) h1 c d
    (by simpa [hnew] using hsne) hc
    (by intro x hx; simp only [hnew] at hx; rw [hcls]; exact j.clsB x ((hmem x).mp hx))
    (by rw [hct]; rcases j.related with e | e <;> simp [e])
    (by
      intro x hx
      simp only [hnew] at hx
      simp only [Heap.isPoint, hct, hcls]
      rcases List.mem_append.mp hx with hx | hx
      · rw [j.clsA x hx]
      · rw [j.clsB x ((hmem x).mp hx), j.points])
  simp only [hnew] at hadd
  rw [slSort_of_sorted h1 _ hsall] at hadd
  have hrun : clConcat a b h = .ok ⟨a.vals ++ slSort h b, some c, .wrapped⟩
      (castAll h1 (a.vals ++ slSort h b) c) := by
    unfold clConcat
    mstep slMk_cls h h b d j.clsB rfl
    rw [if_neg hk]
    mstep M.get_apply h
    rw [hM.inc]
    mstep hs
    mstep M.get_apply h1
    rw [if_neg (by
      intro e
      cases e2 : slSort h b with
      | nil => exact hsne e2
      | cons x xs =>
        have hx : x ∈ slSort h b := by simp [e2]
        have := List.all_eq_true.mp e x hx
        rw [(slContains_false_iff _ _ _).mpr (hnl x ((hmem x).mp hx))] at this
        cases this)]
    mstep hadd
    rfl
  refine ⟨_, slSort h b, hrun, hperm, slSort_sorted h b, hsall, m1, m2, ?_⟩
  unfold castAll
  rw [m3]
  congr 1
  funext r
  simp only [List.mem_append, hmem]
  by_cases hb : r ∈ b
  · simp [hb]
  · by_cases ha : r ∈ a.vals
    · simp [hb, ha, j.clsA r ha]
    · simp [hb, ha]

/-- C07: concatenating onto a new (empty) list takes over the entries of `b` in time order, unmoved. -/
theorem C07_concat_onto_empty (h : Heap) (b : List Ref) (d : CRef) (rank : Ref → Nat)
    (f : Forest h rank) (hdep : ∀ x ∈ b, rank x < shiftFuel) (hnd : b.Nodup) (hne : b ≠ [])
    (hap : ∀ x ∈ b, ∀ y ∈ b, x ≠ y → ¬ Desc h x y) (hd : ∀ x ∈ b, h.cls x = d) :
    ∃ l, clConcat ⟨[], none, .plain⟩ b h = .ok ⟨l, some d, .wrapped⟩ h ∧ l.Perm b ∧
      SortedByStart h l := by
  have hperm := slSort_perm h b
  have hmem : ∀ x, x ∈ slSort h b ↔ x ∈ b := fun x => hperm.mem_iff
  obtain ⟨h1, hs, m1, m2, m3⟩ := shiftList_ok 0 rank h f (slSort h b)
    (fun x hx => hdep x ((hmem x).mp hx)) (hperm.nodup_iff.mpr hnd)
    (fun x hx y hy => hap x ((hmem x).mp hx) y ((hmem y).mp hy))
  have e0 : h1 = h := by
    have e1 : h1.start = h.start := by
      funext y
      by_cases hy : ∃ x ∈ slSort h b, Desc h x y
      · rw [(m1 y hy).1]; grind
      · exact (m2 y hy).1
    have e2 : h1.stop = h.stop := by
      funext y
      by_cases hy : ∃ x ∈ slSort h b, Desc h x y
      · rw [(m1 y hy).2]; grind
      · exact (m2 y hy).2
    rw [m3, e1, e2]
  rw [e0] at hs
  cases e : slSort h b with
  | nil => rw [e] at hperm; exact absurd hperm.symm.eq_nil hne
  | cons x xs =>
    refine ⟨slSort h b, ?_, hperm, slSort_sorted h b⟩
    unfold clConcat
    mstep slMk_cls h h b d hd rfl
    rw [if_neg (by simp)]
    mstep M.get_apply h
    mstep (show shiftList (slSort h b) 0 h = _ from hs)
    mstep M.get_apply h
    rw [if_neg (by simp [e, slContains])]
    mstep slAdd_ok_empty (fun _ => pure ()) (fun _ h => h) (fun _ _ => rfl) (fun _ _ => ⟨rfl, rfl⟩)
      (slSort h b) h d x xs e (fun y hy => hd y ((hmem y).mp hy))
    rw [slSort_of_sorted h _ (slSort_sorted h b)]
    rfl

/-- C07 fails: when `b` brings nothing new — it is empty, for example — the list ends up containing
    itself, and from then on every use of it raises a `RecursionError`. -/
theorem C07_nothing_new_violated (h : Heap) (a : CL) (hk : a.kind ≠ .cyclic) :
    ∃ a', clConcat a [] h = .ok a' h ∧ clLen a' = .error .recursionError ∧
      (∀ i, clGet a' i = .error .recursionError) ∧
      (∀ x h', clAppend a' x h' = .err .recursionError h') ∧
      (∀ x h', clRemove h' a' x = .error .recursionError) ∧
      (∀ h', clConcat a' [] h' = .err .recursionError h') := by
  refine ⟨{ a with kind := .cyclic }, ?_, by simp [clLen], fun i => by simp [clGet], ?_, ?_, ?_⟩
  · unfold clConcat
    mstep (show slMk [] h = .ok SL.empty h from rfl)
    rw [if_neg hk]
    rfl
  · intro x h'; simp [clAppend]
  · intro x h'; simp [clRemove]
  · intro h'
    unfold clConcat
    mstep (show slMk [] h' = .ok SL.empty h' from rfl)
    simp

/-- C07 fails: after a `concat` no entry can be removed from the list. -/
theorem C07_remove_violated (h : Heap) (a : CL) (hk : a.kind = .wrapped) (x : Ref) (hx : x ∈ a.vals) :
    clRemove h a x = .error .attributeError := by
  cases e : slIndexOf h a.vals x with
  | none =>
    unfold slIndexOf at e
    rw [List.findIdx?_eq_none_iff] at e
    have := e x hx
    simp at this
  | some i => simp [clRemove, hk, e]

/-- Before any `concat`, `remove` takes exactly the given entry out and leaves the others in their order; it raises `ValueError` when neither
    the entry nor one of the same value is in the list. -/
theorem C07_plain_remove (h : Heap) (a : CL) (hk : a.kind = .plain) (x : Ref) :
    (x ∈ a.vals → (∀ y ∈ a.vals, SameValue h y x → y = x) → clRemove h a x = .ok { a with vals := a.vals.erase x }) ∧
    (¬ Listed h a.vals x → clRemove h a x = .error .valueError) := by
  constructor
  · intro hx hd
    obtain ⟨i, hi⟩ := slIndexOf_isSome h a.vals x (Or.inl hx)
    unfold clRemove
    simp only [hk, hi, eraseIdx_slIndexOf h a.vals x hx hd i hi]
  · intro hn
    cases e : slIndexOf h a.vals x with
    | none => unfold clRemove; simp only [hk, e]
    | some i =>
      exfalso
      unfold slIndexOf at e
      rw [List.findIdx?_eq_some_iff_getElem] at e
      obtain ⟨hi, q, -⟩ := e
      exact hn (Or.inr ⟨_, List.getElem_mem hi, (tup_eq_iff h _ x).mp (by simpa using q)⟩)

/-- C07 fails: after a `concat` a new entry of the same class cannot be appended to the list, unless some
    entry starts at zero. -/
theorem C07_append_violated (h : Heap) (a : CL) (hk : a.kind = .wrapped) (c : CRef) (x : Ref)
    (hc : a.ecls = some c) (hx : h.cls x = c) (hn : ¬ Listed h a.vals x) (hne : a.vals ≠ [])
    (h0 : ∀ y ∈ a.vals, h.start y ≠ 0) : (clAppend a x h).out = .error .attributeError := by
  unfold clAppend
  rw [if_neg (by rw [hk]; simp)]
  rw [M.bind_ok (M.get_apply h)]
  rw [if_neg (by rw [(slContains_false_iff _ _ _).mpr hn]; simp)]
  rw [M.bind_ok (slAppend_ok ⟨a.vals, a.ecls⟩ x h c hn hc (by
    rw [hx]; unfold ClassTab.isSub; cases c <;> simp [ClassTab.isSubN]) (by rw [Heap.isPoint, hx]))]
  rw [if_pos ⟨hk, List.length_pos_iff.mpr hne, by
    rw [List.all_eq_true]
    intro t ht
    obtain ⟨y, hy, rfl⟩ := List.mem_map.mp ht
    simpa using h0 y hy⟩]
  rfl

/-- two lists of words -/
def exLists : Heap := run0 (do
  let _ ← newEntry cWord 1 2 "a"
  let _ ← newEntry cWord 2 4 "b"
  let _ ← newEntry cWord 1 3 "c"
  let _ ← newEntry cWord 0 1 "d"
  pure ())
/-- after `concat` the removal of the first word is an error -/
example :
    let r := clConcat ⟨[0, 1], some cWord, .plain⟩ [2, 3] exLists
    r.out = .ok ⟨[0, 1, 3, 2], some cWord, .wrapped⟩ ∧
    [0, 1, 3, 2].map (fun x => (r.heap.start x, r.heap.stop x)) = [(1, 2), (2, 4), (4, 5), (5, 7)] ∧
    clRemove r.heap ⟨[0, 1, 3, 2], some cWord, .wrapped⟩ 0 = .error .attributeError := by
  decide +kernel

/-- before, the removal succeeds -/
example : clRemove exLists ⟨[0, 1, 3, 2], some cWord, .plain⟩ 1 = .ok ⟨[0, 3, 2], some cWord, .plain⟩ ∧
    clRemove exLists ⟨[0, 1, 3], some cWord, .plain⟩ 2 = .error .valueError := by
  refine ⟨(C07_plain_remove exLists ⟨[0, 1, 3, 2], some cWord, .plain⟩ rfl 1).1 (by decide +kernel) (by decide +kernel), ?_⟩
  exact (C07_plain_remove exLists ⟨[0, 1, 3], some cWord, .plain⟩ rfl 2).2 (by decide +kernel)

theorem exLists_subs (x : Ref) : (exLists.subs x).vals = [] := by
  have : exLists.subs = upd (upd (upd (upd heap0.subs 0 SL.empty) 1 SL.empty) 2 SL.empty) 3 SL.empty := rfl
  rw [this]
  have h0 : (heap0.subs x).vals = [] := rfl
  simp only [upd]
  split <;> (try split) <;> (try split) <;> (try split) <;> first | rfl | exact h0

theorem desc_of_no_subs {h : Heap} (hs : ∀ x, (h.subs x).vals = []) {x y : Ref} (d : Desc h x y) :
    x = y := by
  cases d with
  | refl => rfl
  | step _ z _ hz _ => rw [hs x] at hz; cases hz

example : Concatenable exLists [0, 1] [2, 3] cWord cWord (fun _ => 0) where
  forest := by
    refine ⟨fun x y hy => ?_, fun v w x hx => ?_, fun w => ?_⟩
    · rw [exLists_subs] at hy; cases hy
    · rw [exLists_subs] at hx; cases hx
    · rw [exLists_subs]; simp
  depth := by simp [shiftFuel]
  nodup := by simp
  nonempty := by simp
  apart := fun x _ y _ hxy d => hxy (desc_of_no_subs exLists_subs d)
  fresh := by
    intro x hx y hy d
    have := desc_of_no_subs exLists_subs d
    subst this
    simp only [List.mem_cons, List.not_mem_nil, or_false] at hx hy
    romega
  clsA := by decide +kernel
  clsB := by decide +kernel
  related := by decide +kernel
  points := by decide +kernel
  sorted := by decide +kernel
  later := by decide +kernel
  proper := by decide +kernel
example : LastEnd exLists [0, 1] 4 := by unfold LastEnd; decide +kernel

/-! ## C59 `tier.concat` -/

/-- C59 (what holds): concatenating a non-empty tier of intervals onto a tier moves the new entries (and
    what is below them) by the end of the old ones, and the tier then lists both, in order, linked, and
    as their tier.

    Missing for the full statement: an empty second tier, for which it is false
    (`C59_empty_violated`). -/
theorem C59_tier_partial (h : Heap) (t u : TRef) (c d s : CRef) (rank : Ref → Nat) (T : Time)
    (ht : h.tcls t = c) (hu : h.tcls u = d) (hi : h.ct.isSub c cPoint = false) (hs : h.tsup t = some s)
    (hc : (h.tseq t).ecls = some c) (ha : (h.tseq t).vals.Nodup)
    (j : Concatenable h (h.tseq t).vals (h.tseq u).vals c d rank) (hT : LastEnd h (h.tseq t).vals T)
    (hl : ∀ x ∈ (h.tseq t).vals ++ (h.tseq u).vals, h.label x ≠ "#") :
    ∃ h' l, tierConcat t u h = .ok () h' ∧ l.Perm (h.tseq u).vals ∧
      (h'.tseq t).vals = (h.tseq t).vals ++ l ∧ SortedByStart h' (h'.tseq t).vals ∧
      DoublyLinked h' (h'.tseq t).vals ∧ (∀ x ∈ (h'.tseq t).vals, h'.intier x = some t ∧ h'.cls x = c) ∧
      (∀ y, (∃ x ∈ (h.tseq u).vals, Desc h x y) →
        h'.start y = h.start y + T ∧ h'.stop y = h.stop y + T) ∧
      (∀ y, ¬ (∃ x ∈ (h.tseq u).vals, Desc h x y) → h'.start y = h.start y ∧ h'.stop y = h.stop y) := by
  obtain ⟨h1, l, hr, hp, hsl, hsa, m1, m2, m3⟩ := C07_concat_partial h
    ⟨(h.tseq t).vals, (h.tseq t).ecls, .plain⟩ (h.tseq u).vals c d rank T (by simp) hc j hT
  have hlm : ∀ x, x ∈ l ↔ x ∈ (h.tseq u).vals := fun x => hp.mem_iff
  have hcl : ∀ x ∈ (h.tseq t).vals ++ l, h1.cls x = c := by
    intro x hx
    rw [m3]
    simp only []
    rcases List.mem_append.mp hx with hx | hx
    · split
      · rfl
      · exact j.clsA x hx
    · rw [if_pos ((hlm x).mp hx)]
  have hnd : ((h.tseq t).vals ++ l).Nodup := by
    rw [List.nodup_append]
    refine ⟨ha, hp.nodup_iff.mpr j.nodup, ?_⟩
    rintro x hx _ hy rfl
    exact j.fresh x ((hlm x).mp hy) x hx (.refl _)
  have hne : (h.tseq t).vals ++ l ≠ [] := by
    intro e
    have : l = [] := (List.append_eq_nil_iff.mp e).2
    rw [this] at hp; exact j.nonempty hp.symm.eq_nil
  -- the setter
  let h2 : Heap := { h1 with
    tcont := upd h1.tcont t (match h1.tcont t with
      | .alias => .detached (h1.tseq t).vals
      | k => k)
    tseq := upd h1.tseq t ⟨(h.tseq t).vals ++ l, some c⟩ }
  have hv2 : (h2.tseq t).vals = (h.tseq t).vals ++ l := by simp [h2]
  have hprec := tierPrecedence_ok t h2 s
    (by show h1.ct.isSub (h1.tcls t) cPoint = false; rw [m3]; simp only []; rw [ht]; exact hi)
    (by show h1.tsup t = some s; rw [m3]; exact hs)
    (by rw [hv2]; exact hnd)
    (by rw [hv2]; intro x hx y hy; exact (hcl x hx).trans (hcl y hy).symm)
    (by
      rw [hv2]; intro x hx
      show h1.label x ≠ "#"
      rw [m3]
      refine hl x ?_
      rcases List.mem_append.mp hx with hx | hx
      · simp [hx]
      · simp [(hlm x).mp hx])
  have hset : tierSetSeq t ⟨(h.tseq t).vals ++ l, some c⟩ h1 = tierPrecedence t h2 := by
    unfold tierSetSeq
    mstep M.get_apply h1
    rw [if_neg (by
      show ¬ h1.ct.isSub (h1.tcls t) cPoint = true
      rw [m3]; simp only []; rw [ht, hi]; simp)]
    mstep slMk_cls h1 h1 _ c hcl rfl
    rw [slSort_of_sorted h1 _ hsa, if_neg hne]
    mstep (show replaceSeq t _ h1 = .ok () h2 from rfl)
    rfl
  have hrun : tierConcat t u h = tierPrecedence t h2 := by
    unfold tierConcat
    mstep M.get_apply h
    rw [if_pos (by rw [ht, hu]; rcases j.related with e | e <;> simp [e])]
    mstep hr
    rw [if_neg (by simp)]
    exact hset
  rw [hprec] at hrun
  refine ⟨_, l, hrun, hp, hv2, ?_, ?_, ?_, m1, m2⟩
  · show SortedByStart _ (h2.tseq t).vals
    rw [hv2]; exact hsa
  · exact linked_of _ _ (by rw [hv2]; exact hnd) _ _ rfl rfl
  · intro x hx
    have hx : x ∈ (h2.tseq t).vals := hx
    refine ⟨by simp only [if_pos hx], ?_⟩
    rw [hv2] at hx
    exact hcl x hx

/-- C59 fails for every empty second tier of a related class: instead of leaving the tier as it is, the
    call raises a `RecursionError`. -/
theorem C59_empty_violated (h : Heap) (t u : TRef) (he : (h.tseq u).vals = [])
    (hrel : h.ct.isSub (h.tcls t) (h.tcls u) = true ∨ h.ct.isSub (h.tcls u) (h.tcls t) = true) :
    tierConcat t u h = .err .recursionError h := by
  obtain ⟨a', hr, hl, -⟩ := C07_nothing_new_violated h ⟨(h.tseq t).vals, (h.tseq t).ecls, .plain⟩ (by simp)
  have hk : a'.kind = .cyclic := by
    unfold clLen at hl
    split at hl
    · assumption
    · cases hl
  unfold tierConcat
  mstep M.get_apply h
  rw [if_pos (by rcases hrel with e | e <;> simp [e]), he]
  mstep hr
  rw [if_pos hk]
  rfl

/-- C59: tiers of unrelated classes are refused with nothing changed. -/
theorem C59_unrelated (h : Heap) (t u : TRef) (h1 : h.ct.isSub (h.tcls t) (h.tcls u) = false)
    (h2 : h.ct.isSub (h.tcls u) (h.tcls t) = false) : tierConcat t u h = .err .valueError h := by
  unfold tierConcat
  mstep M.get_apply h
  rw [if_neg (by simp [h1, h2])]
  rfl

/-- a tier of two words, one of one word, an empty one -/
def exConcatTiers : Heap := run0 (do
  let _ ← newTierFrom [(0, 1, "a"), (1, 3, "b")] cWord "Word"
  let _ ← newTierFrom [(0, 2, "c")] cWord "Word"
  let _ ← newTierFrom [] cWord "Word"
  pure ())
example : (((tierConcat 0 1) exConcatTiers).heap.tseq 0).vals = [0, 1, 2] ∧
    ((tierConcat 0 1) exConcatTiers).heap.start 2 = 3 ∧
    ((tierConcat 0 1) exConcatTiers).heap.fol 1 = some (.obj 2) ∧
    ((tierConcat 0 2) exConcatTiers).out = .error .recursionError := by decide +kernel

/-! ## C54 `PointsGroup.concat` -/

/-- C54 fails for every second group with a point in it: the call raises an `AttributeError` (points have
    no `super_instance`) and no point is added. -/
theorem C54_violated (h : Heap) (g g' : GRef) (T : Time) (hc : classCheck h g g' = true)
    (hx : groupXmax h g = .ok T) (u : TRef) (hu : u ∈ h.gtiers g') (hne : (h.tseq u).vals ≠ []) :
    pointsConcat g g' h = .err .attributeError h := by
  unfold pointsConcat
  mstep M.get_apply h
  rw [if_pos hc, hx]
  simp only []
  have hlen : (h.gtiers g).length = (h.gtiers g').length := by
    simp only [classCheck, Bool.and_eq_true, beq_iff_eq] at hc; exact hc.1
  have key : ∀ (l l' : List TRef), l.length = l'.length → u ∈ l' →
      M.forL (l.zip l') (fun p => do
        let h ← M.get
        M.forL (h.tseq p.2).vals (fun _ => M.throw .attributeError)) h = .err .attributeError h := by
    intro l
    induction l with
    | nil => intro l' hl hu; cases l' with
      | nil => cases hu
      | cons => simp at hl
    | cons a as ih =>
      intro l' hl hu
      cases l' with
      | nil => cases hu
      | cons b bs =>
        rw [List.zip_cons_cons, M.forL_cons]
        cases e : (h.tseq b).vals with
        | cons x xs =>
          rw [show (do
            let h ← M.get
            M.forL (h.tseq (a, b).2).vals (fun _ => M.throw .attributeError) : M Unit) h =
              Res.err .attributeError h by
            mstep M.get_apply h
            simp only [e, M.forL_cons, M.throw_apply]]
        | nil =>
          rw [show (do
            let h ← M.get
            M.forL (h.tseq (a, b).2).vals (fun _ => M.throw .attributeError) : M Unit) h =
              Res.ok () h by
            mstep M.get_apply h
            simp only [e, M.forL_nil]]
          simp only []
          refine ih bs (by simpa using hl) ?_
          rcases List.mem_cons.mp hu with rfl | hu
          · exact absurd e hne
          · exact hu
  exact key _ _ hlen hu

/-- C54 (what holds): a second group without any point leaves everything as it is; a different number of
    tiers or different class names are refused.

    Missing for the full statement: groups with points (`C54_violated`). -/
theorem C54_empty_partial (h : Heap) (g g' : GRef) (T : Time) :
    (classCheck h g g' = true → groupXmax h g = .ok T → (∀ u ∈ h.gtiers g', (h.tseq u).vals = []) →
      pointsConcat g g' h = .ok () h) ∧
    ((h.gtiers g).length ≠ (h.gtiers g').length → pointsConcat g g' h = .err .valueError h) ∧
    ((h.gtiers g).map (fun t => h.ct.name (h.tcls t)) ≠ (h.gtiers g').map (fun t => h.ct.name (h.tcls t)) →
      pointsConcat g g' h = .err .valueError h) := by
  refine ⟨?_, ?_, ?_⟩
  · intro hc hx hem
    unfold pointsConcat
    mstep M.get_apply h
    rw [if_pos hc, hx]
    simp only []
    have key : ∀ (l : List (TRef × TRef)), (∀ p ∈ l, (h.tseq p.2).vals = []) →
        M.forL l (fun p => do
          let h ← M.get
          M.forL (h.tseq p.2).vals (fun _ => M.throw .attributeError)) h = .ok () h := by
      intro l
      induction l with
      | nil => intro _; rfl
      | cons p ps ih =>
        intro hp
        rw [M.forL_cons]
        rw [show (do
            let h ← M.get
            M.forL (h.tseq p.2).vals (fun _ => M.throw .attributeError) : M Unit) h =
              Res.ok () h by
            mstep M.get_apply h
            simp only [hp p (by simp), M.forL_nil]]
        exact ih fun q hq => hp q (by simp [hq])
    exact key _ fun p hp => hem p.2 (List.of_mem_zip hp).2
  · intro hl
    unfold pointsConcat
    mstep M.get_apply h
    rw [if_neg (by simp [classCheck, hl])]
    rfl
  · intro hl
    unfold pointsConcat
    mstep M.get_apply h
    rw [if_neg (by simp [classCheck, hl])]
    rfl

/-- two groups of one point tier each -/
def exPointGroups : Heap := run0 (do
  let a ← newEntry cPoint 1 1 "a"
  let t ← newPointTier [a] cPoint "p"
  let b ← newEntry cPoint 2 2 "b"
  let u ← newPointTier [b] cPoint "q"
  let _ ← newPointsGroup [t]
  let _ ← newPointsGroup [u]
  pure ())
example : classCheck exPointGroups 0 1 = true ∧ groupXmax exPointGroups 0 = .ok 1 ∧
    exPointGroups.gtiers 1 = [1] ∧ (exPointGroups.tseq 1).vals = [1] := by decide +kernel

end ATG
