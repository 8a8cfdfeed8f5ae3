import Verif.Lemmas.Link
/-!
# Removing an interval from its superset
-/
namespace ATG

/-- Entries of one class, each once, with distinct values and ordinary labels. -/
structure GoodList (h : Heap) (l : List Ref) : Prop where
  nodup : l.Nodup
  distinct : ∀ x ∈ l, ∀ y ∈ l, SameValue h x y → x = y
  cls : ∀ x ∈ l, ∀ y ∈ l, h.cls x = h.cls y
  label : ∀ x ∈ l, h.label x ≠ "#"

theorem GoodList.sub {h : Heap} {l l' : List Ref} (g : GoodList h l) (hs : l'.Sublist l) :
    GoodList h l' :=
  ⟨g.nodup.sublist hs, fun x hx y hy => g.distinct x (hs.subset hx) y (hs.subset hy),
   fun x hx y hy => g.cls x (hs.subset hx) y (hs.subset hy), fun x hx => g.label x (hs.subset hx)⟩

theorem GoodList.congr {h h' : Heap} {l : List Ref} (g : GoodList h l) (e1 : h'.cls = h.cls)
    (e2 : h'.label = h.label) (e3 : h'.start = h.start) (e4 : h'.stop = h.stop)
    (e5 : h'.ct = h.ct) : GoodList h' l := by
  refine ⟨g.nodup, ?_, ?_, ?_⟩
  · intro x hx y hy hh
    apply g.distinct x hx y hy
    simpa [SameValue, Heap.isPoint, e1, e2, e3, e4, e5] using hh
  · rw [e1]; exact g.cls
  · rw [e2]; exact g.label

theorem slIndexOf_isSome (h : Heap) (l : List Ref) (x : Ref) (hx : Listed h l x) :
    ∃ i, slIndexOf h l x = some i := by
  cases e : slIndexOf h l x with
  | some i => exact ⟨i, rfl⟩
  | none =>
    exfalso
    unfold slIndexOf at e
    rw [List.findIdx?_eq_none_iff] at e
    rcases hx with hx | ⟨y, hy, hs⟩
    · have := e x hx; simp at this
    · have := e y hy; rw [(tup_eq_iff h y x).mpr hs] at this; simp at this

theorem slIndexOf_lt (h : Heap) (l : List Ref) (x : Ref) (i : Nat) (e : slIndexOf h l x = some i) :
    i < l.length := by
  unfold slIndexOf at e
  rw [List.findIdx?_eq_some_iff_findIdx_eq] at e
  exact e.1

/-- with distinct values the first match is the entry itself -/
theorem eraseIdx_slIndexOf (h : Heap) (l : List Ref) (x : Ref) (hx : x ∈ l)
    (hd : ∀ y ∈ l, SameValue h y x → y = x) (i : Nat) (e : slIndexOf h l x = some i) :
    l.eraseIdx i = l.erase x := by
  induction l generalizing i with
  | nil => simp at hx
  | cons a l ih =>
    unfold slIndexOf at e
    rw [List.findIdx?_cons] at e
    by_cases ha : a = x
    · subst ha
      simp at e
      subst e
      simp
    · have hne : ¬ SameValue h a x := fun hh => ha (hd a (by simp) hh)
      have hb : (h.tup a == h.tup x) = false := by
        rw [beq_eq_false_iff_ne, ne_eq, tup_eq_iff]; exact hne
      rw [hb] at e
      simp only [Bool.false_eq_true, if_false, Option.map_eq_some_iff] at e
      obtain ⟨j, hj, rfl⟩ := e
      have hxl : x ∈ l := by
        rcases List.mem_cons.mp hx with e | e
        · exact absurd e.symm ha
        · exact e
      rw [List.eraseIdx_cons_succ, List.erase_cons_tail (by simpa using ha)]
      rw [ih hxl (fun y hy => hd y (by simp [hy])) j hj]

theorem not_listed_erase (h : Heap) (l : List Ref) (x : Ref) (g : GoodList h l) (hx : x ∈ l) :
    ¬ Listed h (l.erase x) x := by
  rintro (hh | ⟨y, hy, hs⟩)
  · exact (List.Nodup.not_mem_erase g.nodup) hh
  · have hyl := List.mem_of_mem_erase hy
    have := g.distinct y hyl x hx hs
    subst this
    exact (List.Nodup.not_mem_erase g.nodup) hy

/-- the heap after `x` was taken out of `w` -/
def removed (h : Heap) (w x : Ref) : Heap :=
  { h with
    subs := upd h.subs w ⟨(h.subs w).vals.erase x, (h.subs w).ecls⟩
    sup := upd h.sup x none
    within := upd h.within x none
    fol := folOf ((h.subs w).vals.erase x) h.fol
    prev := prevOf none ((h.subs w).vals.erase x) h.prev }

/-- the heap after `x` forgot its superset -/
def forgot (h : Heap) (x : Ref) : Heap :=
  { h with sup := upd h.sup x none, within := upd h.within x none }

theorem removeSupersetN_none (n : Nat) (x : Ref) (h : Heap) (hs : h.sup x = none) :
    removeSupersetN (n + 1) x h = .ok () h := by
  unfold removeSupersetN
  mstep M.get_apply h
  rw [hs]; rfl

theorem removeSupersetN_forgot (n : Nat) (x w : Ref) (h : Heap) (hs : h.sup x = some w)
    (hx : ¬ Listed h (h.subs w).vals x) :
    removeSupersetN (n + 1) x h = .ok () (forgot h x) := by
  unfold removeSupersetN
  mstep M.get_apply h
  rw [hs]
  simp only [(slContains_false_iff h (h.subs w).vals x).mpr hx, Bool.false_eq_true, if_false]
  mstep M.pure_apply () h
  rfl

theorem removeSuperset_none (x : Ref) (h : Heap) (hs : h.sup x = none) :
    removeSuperset x h = .ok () h := by
  unfold removeSuperset; rw [hs]; exact removeSupersetN_none 0 x h hs

theorem removeSuperset_forgot (x w : Ref) (h : Heap) (hs : h.sup x = some w)
    (hx : ¬ Listed h (h.subs w).vals x) : removeSuperset x h = .ok () (forgot h x) := by
  unfold removeSuperset; rw [hs]; exact removeSupersetN_forgot _ x w h hs hx

theorem removeFromSubsetN_ok (n : Nat) (w x : Ref) (h : Heap) (hs : h.sup x = some w)
    (hx : x ∈ (h.subs w).vals) (g : GoodList h (h.subs w).vals) :
    removeFromSubsetN (n + 2) w x h = .ok () (removed h w x) := by
  unfold removeFromSubsetN
  mstep M.get_apply h
  have hL : Listed h (h.subs w).vals x := Or.inl hx
  rw [if_pos ((slContains_iff h (h.subs w).vals x).mpr hL)]
  obtain ⟨i, hi⟩ := slIndexOf_isSome h _ x hL
  rw [hi]
  simp only []
  rw [eraseIdx_slIndexOf h _ x hx (fun y hy hh => g.distinct y hy x hx hh) i hi]
  mstep (show putSubs w _ h = .ok () _ from rfl)
  have hnl := not_listed_erase h _ x g hx
  mstep removeSupersetN_forgot n x w _ hs (by
    simp only [upd_same]
    exact hnl)
  mstep M.modify_apply _ _
  mstep M.get_apply _
  have gg := g.sub (List.erase_sublist (a := x) (l := (h.subs w).vals))
  simp only [forgot, upd_same]
  rw [setPrecedence_ok _ _ gg.nodup (by intro a ha b hb; exact gg.cls a ha b hb)
    (by intro a ha; exact gg.label a ha)]
  simp [removed, upd_upd']
where
  upd_upd' {α} (f : Nat → α) (k : Nat) (v w : α) : upd (upd f k v) k w = upd f k w := by
    funext i; simp only [upd]; split <;> rfl

theorem removeSupersetN_ok (n : Nat) (w x : Ref) (h : Heap) (hs : h.sup x = some w)
    (hx : x ∈ (h.subs w).vals) (g : GoodList h (h.subs w).vals) :
    removeSupersetN (n + 3) x h = .ok () (removed h w x) := by
  unfold removeSupersetN
  mstep M.get_apply h
  rw [hs]
  have hL : Listed h (h.subs w).vals x := Or.inl hx
  simp only [(slContains_iff h (h.subs w).vals x).mpr hL, if_true]
  mstep removeFromSubsetN_ok n w x h hs hx g
  show Res.ok () _ = _
  simp [removed, removeFromSubsetN_ok.upd_upd']

theorem removeSuperset_ok (w x : Ref) (h : Heap) (hs : h.sup x = some w)
    (hx : x ∈ (h.subs w).vals) (g : GoodList h (h.subs w).vals) :
    removeSuperset x h = .ok () (removed h w x) := by
  unfold removeSuperset; rw [hs]; exact removeSupersetN_ok _ w x h hs hx g

theorem removeFromSubset_ok (w x : Ref) (h : Heap) (hs : h.sup x = some w)
    (hx : x ∈ (h.subs w).vals) (g : GoodList h (h.subs w).vals) :
    removeFromSubset w x h = .ok () (removed h w x) := by
  unfold removeFromSubset; rw [hs]
  show removeFromSubsetN (removeFuel h w + removeFuel h w) w x h = _
  have : removeFuel h w + removeFuel h w =
    (2 * (h.subs w).vals.length + (2 * (h.subs w).vals.length + 3) + 1) + 2 := by
    unfold removeFuel; omega
  rw [this]; exact removeFromSubsetN_ok _ w x h hs hx g

theorem removeFromSubset_absent (w x : Ref) (h : Heap) (hx : ¬ Listed h (h.subs w).vals x) :
    removeFromSubset w x h = .ok () h := by
  unfold removeFromSubset
  generalize hn : (removeFuel h w + match h.sup x with | none => 1 | some v => removeFuel h v) = n
  cases n with
  | zero => simp [removeFuel] at hn
  | succ n =>
    unfold removeFromSubsetN
    mstep M.get_apply h
    rw [if_neg (by rw [(slContains_false_iff h _ x).mpr hx]; simp)]
    rfl

/-- `w.subset_list.remove(x)`: the list and the superset are updated, the siblings are not re-linked -/
theorem subsRemove_ok (w x : Ref) (h : Heap) (hs : h.sup x = some w)
    (hx : x ∈ (h.subs w).vals) (g : GoodList h (h.subs w).vals) :
    subsRemove w x h = .ok () { removed h w x with fol := h.fol, prev := h.prev } := by
  unfold subsRemove slRemoveAt
  mstep M.get_apply h
  have hL : Listed h (h.subs w).vals x := Or.inl hx
  obtain ⟨i, hi⟩ := slIndexOf_isSome h _ x hL
  rw [hi]
  simp only []
  rw [eraseIdx_slIndexOf h _ x hx (fun y hy hh => g.distinct y hy x hx hh) i hi]
  mstep (show putSubs w _ h = .ok () _ from rfl)
  have hnl := not_listed_erase h _ x g hx
  rw [removeSuperset_forgot x w _ (by exact hs) (by
    simp only [upd_same]
    exact hnl)]
  simp [removed, forgot]

theorem ivalPop_ok (w x : Ref) (h : Heap) (hs : h.sup x = some w)
    (hx : x ∈ (h.subs w).vals) (g : GoodList h (h.subs w).vals) :
    ivalPop w x h = .ok () (removed h w x) := by
  unfold ivalPop
  mstep M.get_apply h
  have hL : Listed h (h.subs w).vals x := Or.inl hx
  rw [if_pos ((slContains_iff h (h.subs w).vals x).mpr hL)]
  mstep subsRemove_ok w x h hs hx g
  mstep M.get_apply _
  have gg := g.sub (List.erase_sublist (a := x) (l := (h.subs w).vals))
  have e : (removed h w x).subs w = ⟨(h.subs w).vals.erase x, (h.subs w).ecls⟩ := by simp [removed]
  rw [e]
  rw [setPrecedence_ok _ _ gg.nodup (by intro a ha b hb; exact gg.cls a ha b hb)
    (by intro a ha; exact gg.label a ha)]
  simp [removed]

/-! ## fuel -/

/-- From this fuel on, more fuel does not change `remove_superset`. -/
theorem removeSupersetN_fuel (k : Nat) : ∀ (h : Heap) (x w : Ref), h.sup x = some w →
    (h.subs w).vals.length = k → ∀ d, removeSupersetN (2 * k + 1 + d) x h = removeSupersetN (2 * k + 1) x h := by
  induction k with
  | zero =>
    intro h x w hs hk d
    have hx : ¬ Listed h (h.subs w).vals x := by
      rw [List.length_eq_zero_iff] at hk; rw [hk]; simp [Listed]
    have e : 2 * 0 + 1 + d = d + 1 := by omega
    rw [e, removeSupersetN_forgot d x w h hs hx, removeSupersetN_forgot 0 x w h hs hx]
  | succ k ih =>
    intro h x w hs hk d
    by_cases hx : Listed h (h.subs w).vals x
    · have e1 : 2 * (k + 1) + 1 + d = ((2 * k + 1 + d) + 1) + 1 := by omega
      have e2 : 2 * (k + 1) + 1 = ((2 * k + 1) + 1) + 1 := by omega
      rw [e1, e2]
      obtain ⟨i, hi⟩ := slIndexOf_isSome h _ x hx
      have hrem : removeFromSubsetN ((2 * k + 1 + d) + 1) w x h =
          removeFromSubsetN ((2 * k + 1) + 1) w x h := by
        unfold removeFromSubsetN
        simp only [M.bind_apply, M.get_apply, (slContains_iff h _ x).mpr hx, if_true, hi, putSubs,
          M.modify_apply]
        rw [ih _ x w (by exact hs) (by
          simp only [upd_same]
          rw [List.length_eraseIdx_of_lt (slIndexOf_lt h _ x i hi)]; omega) d]
      unfold removeSupersetN
      simp only [M.bind_apply, M.get_apply, hs, (slContains_iff h _ x).mpr hx, if_true, hrem]
    · have e1 : 2 * (k + 1) + 1 + d = (2 * (k + 1) + d) + 1 := by omega
      rw [e1, removeSupersetN_forgot _ x w h hs hx, removeSupersetN_forgot _ x w h hs hx]

/-- The fuel of the model is enough: `remove_superset` gives the same result with any greater fuel. -/
theorem removeSuperset_fuel (x w : Ref) (h : Heap) (hs : h.sup x = some w) (d : Nat) :
    removeSupersetN (removeFuel h w + d) x h = removeSuperset x h := by
  unfold removeSuperset; rw [hs]
  show _ = removeSupersetN (removeFuel h w) x h
  have e1 : removeFuel h w + d = 2 * (h.subs w).vals.length + 1 + (2 + d) := by unfold removeFuel; omega
  have e2 : removeFuel h w = 2 * (h.subs w).vals.length + 1 + 2 := by unfold removeFuel; omega
  rw [e1, e2, removeSupersetN_fuel _ h x w hs rfl, removeSupersetN_fuel _ h x w hs rfl]

end ATG
