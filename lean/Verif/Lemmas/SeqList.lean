import Verif.Lemmas.Prec
import Verif.Spec.Basic
/-!
# Lemmas about `SequenceList` operations
-/
namespace ATG

/-! ## sorting -/

theorem insBy_perm (key : Ref → Time) (x : Ref) (l : List Ref) : (insBy key x l).Perm (x :: l) := by
  induction l with
  | nil => simp [insBy]
  | cons y ys ih =>
    simp only [insBy]
    split
    · exact List.Perm.refl _
    · exact (List.Perm.cons y ih).trans (List.Perm.swap x y ys)

theorem sortBy_perm (key : Ref → Time) (l : List Ref) : (sortBy key l).Perm l := by
  induction l with
  | nil => simp [sortBy]
  | cons x xs ih =>
    show (insBy key x (sortBy key xs)).Perm (x :: xs)
    exact (insBy_perm key x _).trans (ih.cons x)

theorem insBy_sorted (key : Ref → Time) (x : Ref) (l : List Ref)
    (hl : l.Pairwise fun a b => key a ≤ key b) :
    (insBy key x l).Pairwise fun a b => key a ≤ key b := by
  induction l with
  | nil => simp [insBy]
  | cons y ys ih =>
    simp only [insBy]
    rw [List.pairwise_cons] at hl
    split
    · rename_i hxy
      rw [List.pairwise_cons]
      refine ⟨?_, List.pairwise_cons.mpr hl⟩
      intro a ha
      rcases List.mem_cons.mp ha with e | e
      · subst e; exact hxy
      · have := hl.1 a e; grind
    · rename_i hxy
      rw [List.pairwise_cons]
      refine ⟨?_, ih hl.2⟩
      intro a ha
      rcases List.mem_cons.mp ((insBy_perm key x ys).mem_iff.mp ha) with e | e
      · subst e; grind
      · exact hl.1 a e

theorem sortBy_sorted (key : Ref → Time) (l : List Ref) :
    (sortBy key l).Pairwise fun a b => key a ≤ key b := by
  induction l with
  | nil => simp [sortBy]
  | cons x xs ih => exact insBy_sorted key x _ ih

theorem adjLe_iff (key : Ref → Time) (l : List Ref) :
    adjLe (l.map key) = true ↔ l.Pairwise fun a b => key a ≤ key b := by
  induction l with
  | nil => simp [adjLe]
  | cons x xs ih =>
    cases xs with
    | nil => simp [adjLe]
    | cons y ys =>
      simp only [List.map_cons, adjLe, Bool.and_eq_true, decide_eq_true_eq] at ih ⊢
      rw [ih, List.pairwise_cons (a := x)]
      constructor
      · rintro ⟨h1, h2⟩
        refine ⟨?_, h2⟩
        intro a ha
        rcases List.mem_cons.mp ha with e | e
        · subst e; exact h1
        · have := (List.pairwise_cons.mp h2).1 a e; grind
      · rintro ⟨h1, h2⟩
        exact ⟨h1 y (by simp), h2⟩

theorem slSort_perm (h : Heap) (l : List Ref) : (slSort h l).Perm l := by
  unfold slSort; split
  · exact List.Perm.refl _
  · exact sortBy_perm _ _

theorem slSort_sorted (h : Heap) (l : List Ref) : SortedByStart h (slSort h l) := by
  unfold slSort; split
  · rename_i e; exact (adjLe_iff h.start l).mp e
  · exact sortBy_sorted _ _

theorem slSort_of_sorted (h : Heap) (l : List Ref) (hs : SortedByStart h l) : slSort h l = l := by
  unfold slSort; rw [if_pos ((adjLe_iff h.start l).mpr hs)]

theorem slSort_congr (h h' : Heap) (l : List Ref) (e : h.start = h'.start) :
    slSort h l = slSort h' l := by simp [slSort, e]

/-- a sorted rearrangement of entries with distinct starts is unique -/
theorem sorted_perm_unique (key : Ref → Time) (l l' : List Ref) (hp : l.Perm l')
    (hs : l.Pairwise fun a b => key a ≤ key b) (hs' : l'.Pairwise fun a b => key a ≤ key b)
    (hd : ∀ x ∈ l, ∀ y ∈ l, key x = key y → x = y) : l = l' := by
  induction l generalizing l' with
  | nil => simp at hp; exact hp.symm
  | cons x xs ih =>
    cases l' with
    | nil => simp at hp
    | cons y ys =>
      rw [List.pairwise_cons] at hs hs'
      have hxy : x = y := by
        apply hd x (by simp) y (hp.mem_iff.mpr (by simp))
        have h1 : key y ≤ key x := by
          rcases List.mem_cons.mp (hp.mem_iff.mp (List.mem_cons_self (a := x) (l := xs))) with e | e
          · rw [e]; grind
          · exact hs'.1 x e
        have h2 : key x ≤ key y := by
          rcases List.mem_cons.mp (hp.mem_iff.mpr (List.mem_cons_self (a := y) (l := ys))) with e | e
          · rw [e]; grind
          · exact hs.1 y e
        grind
      subst hxy
      congr 1
      exact ih ys (hp.cons_inv) hs.2 hs'.2
        (fun a ha b hb => hd a (by simp [ha]) b (by simp [hb]))

/-! ## construction -/

theorem sameClass_iff (h : Heap) (l : List Ref) :
    sameClass h l = true ↔ ∀ x ∈ l, ∀ y ∈ l, h.cls x = h.cls y := by
  cases l with
  | nil => simp [sameClass]
  | cons x xs =>
    simp only [sameClass, List.all_eq_true, beq_iff_eq]
    constructor
    · intro hh a ha b hb
      have ha' : h.cls a = h.cls x := by
        rcases List.mem_cons.mp ha with e | e
        · rw [e]
        · exact hh a e
      have hb' : h.cls b = h.cls x := by
        rcases List.mem_cons.mp hb with e | e
        · rw [e]
        · exact hh b e
      rw [ha', hb']
    · intro hh y hy; exact hh y (by simp [hy]) x (by simp)

/-- `entry_class` of a list built from `l` -/
def headCls (h : Heap) : List Ref → Option CRef
  | [] => none
  | x :: _ => some (h.cls x)

theorem slMk_ok (h : Heap) (l : List Ref) (hc : ∀ x ∈ l, ∀ y ∈ l, h.cls x = h.cls y) :
    slMk l h = .ok ⟨slSort h l, headCls h l⟩ h := by
  cases l with
  | nil => simp [slMk, SL.empty, headCls, slSort, adjLe]
  | cons x xs => simp [slMk, headCls, (sameClass_iff h _).mpr hc]

theorem slMk_cls (h h0 : Heap) (l : List Ref) (c : CRef) (hc : ∀ x ∈ l, h.cls x = c)
    (hs : h.start = h0.start) :
    slMk l h = .ok ⟨slSort h0 l, if l = [] then none else some c⟩ h := by
  rw [slMk_ok h l (by intro x hx y hy; rw [hc x hx, hc y hy]), slSort_congr h h0 l hs]
  cases l with
  | nil => simp [headCls]
  | cons a tl => simp [headCls, hc a (by simp)]

theorem slMk_err (h : Heap) (l : List Ref) (hc : ¬ ∀ x ∈ l, ∀ y ∈ l, h.cls x = h.cls y) :
    slMk l h = .err .valueError h := by
  cases l with
  | nil => simp at hc
  | cons x xs =>
    have : sameClass h (x :: xs) = false := by
      cases e : sameClass h (x :: xs) with
      | false => rfl
      | true => exact absurd ((sameClass_iff h _).mp e) hc
    simp [slMk, this]

/-! ## membership -/

theorem tup_eq_iff (h : Heap) (x y : Ref) : h.tup x = h.tup y ↔ SameValue h x y := by
  simp [Heap.tup, SameValue]

theorem slContains_iff (h : Heap) (l : List Ref) (x : Ref) :
    slContains h l x = true ↔ Listed h l x := by
  simp [slContains, Listed, tup_eq_iff]

theorem slContains_false_iff (h : Heap) (l : List Ref) (x : Ref) :
    slContains h l x = false ↔ ¬ Listed h l x := by
  rw [← slContains_iff]; simp

theorem SameValue.refl (h : Heap) (x : Ref) : SameValue h x x := ⟨rfl, rfl, rfl, rfl⟩

/-! ## casting -/

theorem castTo_ok (c : CRef) (r : Ref) (h : Heap) (hp : h.ct.isSub c cPoint = h.isPoint r) :
    castTo c r h = .ok () { h with cls := upd h.cls r c } := by simp [castTo, hp]

/-- the heap after casting all entries of `l` to `c` -/
def castAll (h : Heap) (l : List Ref) (c : CRef) : Heap :=
  { h with cls := fun r => if r ∈ l then c else h.cls r }

theorem forL_cast_ok (c : CRef) (l : List Ref) (h : Heap)
    (hp : ∀ x ∈ l, h.ct.isSub c cPoint = h.isPoint x) :
    M.forL l (fun y => do
      let h ← M.get
      if h.cls y = c then pure () else castTo c y) h = .ok () (castAll h l c) := by
  induction l generalizing h with
  | nil => simp [castAll]
  | cons x xs ih =>
    rw [M.forL_cons]
    have h1 : (do let h ← M.get; if h.cls x = c then pure () else castTo c x : M Unit) h
        = .ok () { h with cls := upd h.cls x c } := by
      simp only [M.bind_apply, M.get_apply]
      by_cases e : h.cls x = c
      · simp [e, upd_eq_self _ _ _ e]
      · simp [e, castTo_ok c x h (hp x (by simp))]
    erw [h1]
    have := ih { h with cls := upd h.cls x c } (by
      intro y hy
      simp only [Heap.isPoint, upd_apply]
      split
      · rfl
      · exact hp y (by simp [hy]))
    simp only [] at this ⊢
    erw [this]
    congr 1
    simp only [castAll]
    congr 1
    funext r
    by_cases e : r ∈ xs
    · simp [e]
    · by_cases e2 : r = x <;> simp [e, e2, upd]

/-! ## `+` -/

/-- the entries of `b` that `a + b` adds -/
def newOf (h : Heap) (a b : List Ref) : List Ref := b.filter fun x => !slContains h a x

theorem mem_newOf (h : Heap) (a b : List Ref) (x : Ref) :
    x ∈ newOf h a b ↔ x ∈ b ∧ ¬ Listed h a x := by
  simp [newOf, slContains_false_iff]

theorem castAll_self (h : Heap) (l : List Ref) (c : CRef) (hc : ∀ x ∈ l, h.cls x = c) :
    castAll h l c = h := by
  have : (fun r => if r ∈ l then c else h.cls r) = h.cls := by
    funext r; split
    · rename_i e; exact (hc r e).symm
    · rfl
  simp [castAll, this]

theorem slAdd_none_new (put : SL → M Unit) (a : SL) (b : List Ref) (h : Heap)
    (hn : newOf h a.vals b = []) : slAdd put a b h = .ok a h := by
  unfold newOf at hn
  simp [slAdd, M.bind_apply, hn]

/-- `a + b` when there is something new and `a` has an entry class `c` -/
theorem slAdd_ok (put : SL → M Unit) (a : SL) (b : List Ref) (h : Heap) (c d : CRef)
    (hne : newOf h a.vals b ≠ []) (hac : a.ecls = some c)
    (hd : ∀ x ∈ newOf h a.vals b, h.cls x = d)
    (hrel : (h.ct.isSub d c || h.ct.isSub c d) = true)
    (hp : ∀ x ∈ a.vals ++ newOf h a.vals b, h.ct.isSub c cPoint = h.isPoint x) :
    slAdd put a b h = .ok ⟨slSort h (a.vals ++ newOf h a.vals b), some c⟩
      (castAll h (a.vals ++ newOf h a.vals b) c) := by
  unfold newOf at *
  cases e : b.filter (fun x => !slContains h a.vals x) with
  | nil => exact absurd e hne
  | cons x xs =>
    rw [e] at hd hp
    have hsc : sameClass h (x :: xs) = true := by
      rw [sameClass_iff]; intro p hp q hq; rw [hd p hp, hd q hq]
    have hx : h.cls x = d := hd x (by simp)
    simp only [slAdd]
    rw [M.bind_ok (M.get_apply h)]
    simp only [e, hsc, hac, hx, hrel, if_true]
    rw [M.bind_ok (M.pure_apply c h)]
    rw [M.bind_ok (forL_cast_ok c (a.vals ++ x :: xs) h hp)]
    rw [slMk_ok]
    · have h1 : headCls (castAll h (a.vals ++ x :: xs) c) (a.vals ++ x :: xs) = some c := by
        cases hv : a.vals with
        | nil => simp [headCls, castAll]
        | cons y ys => simp [headCls, castAll]
      rw [h1, slSort_congr _ h _ (by rfl)]
    · intro p hp q hq; simp only [castAll]; rw [if_pos hp, if_pos hq]

/-- unrelated classes are rejected -/
theorem slAdd_err (put : SL → M Unit) (a : SL) (b : List Ref) (h : Heap) (c d : CRef)
    (hne : newOf h a.vals b ≠ []) (hac : a.ecls = some c)
    (hd : ∀ x ∈ newOf h a.vals b, h.cls x = d)
    (hrel : (h.ct.isSub d c || h.ct.isSub c d) = false) :
    slAdd put a b h = .err .valueError h := by
  unfold newOf at *
  cases e : b.filter (fun x => !slContains h a.vals x) with
  | nil => exact absurd e hne
  | cons x xs =>
    rw [e] at hd
    have hsc : sameClass h (x :: xs) = true := by
      rw [sameClass_iff]; intro p hp q hq; rw [hd p hp, hd q hq]
    have hx : h.cls x = d := hd x (by simp)
    simp only [slAdd]
    rw [M.bind_ok (M.get_apply h)]
    simp only [e, hsc, hac, hx, hrel, if_true, Bool.false_eq_true, if_false]
    rw [M.bind_err (M.throw_apply _ h)]

/-- new entries of several classes are rejected -/
theorem slAdd_err_mixed (put : SL → M Unit) (a : SL) (b : List Ref) (h : Heap)
    (hd : ¬ ∀ x ∈ newOf h a.vals b, ∀ y ∈ newOf h a.vals b, h.cls x = h.cls y) :
    slAdd put a b h = .err .valueError h := by
  unfold newOf at *
  cases e : b.filter (fun x => !slContains h a.vals x) with
  | nil => rw [e] at hd; simp at hd
  | cons x xs =>
    rw [e] at hd
    have hsc : sameClass h (x :: xs) = false := by
      cases e' : sameClass h (x :: xs) with
      | false => rfl
      | true => exact absurd ((sameClass_iff h _).mp e') hd
    simp only [slAdd]
    rw [M.bind_ok (M.get_apply h)]
    simp [e, hsc]

/-- the left operand had no entry class: it gets the one of the new entries -/
theorem slAdd_ok_empty (put : SL → M Unit) (f : SL → Heap → Heap)
    (hput : ∀ sl h, put sl h = .ok () (f sl h))
    (hfe : ∀ sl h, (f sl h).cls = h.cls ∧ (f sl h).start = h.start)
    (b : List Ref) (h : Heap) (d : CRef) (x : Ref) (xs : List Ref)
    (hb : b = x :: xs)
    (hd : ∀ x ∈ b, h.cls x = d) :
    slAdd put SL.empty b h = .ok ⟨slSort h b, some d⟩ (f ⟨[], some d⟩ h) := by
  have e : b.filter (fun x => !slContains h SL.empty.vals x) = x :: xs := by
    rw [← hb]; apply List.filter_eq_self.mpr; intro y _; simp [slContains, SL.empty]
  have hx : h.cls x = d := hd x (by simp [hb])
  have hsc : sameClass h (x :: xs) = true := by
    rw [sameClass_iff]; intro p hp q hq; rw [hd p (hb ▸ hp), hd q (hb ▸ hq)]
  simp only [slAdd]
  rw [M.bind_ok (M.get_apply h)]
  simp only [e, hsc, if_true]
  have h0 : (match SL.empty.ecls with
      | none => do
          put ⟨SL.empty.vals, some (h.cls x)⟩
          pure (h.cls x)
      | some c =>
          if h.ct.isSub (h.cls x) c || h.ct.isSub c (h.cls x) then pure c
          else M.throw .valueError : M CRef) h = .ok d (f ⟨[], some d⟩ h) := by
    simp only [SL.empty, hx]
    rw [M.bind_ok (hput _ h)]; rfl
  mstep h0
  simp only [SL.empty, List.nil_append]
  have hcl : ∀ y ∈ x :: xs, (f ⟨[], some d⟩ h).cls y = d := by
    intro y hy; rw [(hfe _ _).1]; exact hd y (hb ▸ hy)
  have h1 : ∀ l, (∀ y ∈ l, (f ⟨[], some d⟩ h).cls y = d) →
      M.forL l (fun y => do
        let h ← M.get
        if h.cls y = d then pure () else castTo d y) (f ⟨[], some d⟩ h)
      = .ok () (f ⟨[], some d⟩ h) := by
    intro l
    induction l with
    | nil => intro _; rfl
    | cons y ys ih =>
      intro hh
      rw [M.forL_cons]
      have : (do let h ← M.get; if h.cls y = d then pure () else castTo d y : M Unit)
          (f ⟨[], some d⟩ h) = .ok () (f ⟨[], some d⟩ h) := by
        simp [M.bind_apply, hh y (by simp)]
      erw [this]
      exact ih (fun z hz => hh z (by simp [hz]))
  rw [M.bind_ok (h1 _ hcl), slMk_ok _ _ (by intro p hp q hq; rw [hcl p hp, hcl q hq])]
  rw [slSort_congr _ h _ (hfe _ _).2, hb]
  simp [headCls, hcl x (by simp)]

/-! ## `append` -/

/-- the new position of an appended entry -/
def insAt (h : Heap) (l : List Ref) (x : Ref) : List Ref :=
  if l.length > 0 && (l.map h.start).all (· ≠ 0) then
    l.insertIdx (searchsorted (l.map h.start) (h.start x)) x
  else l ++ [x]

theorem slAppend_old (a : SL) (x : Ref) (h : Heap) (hx : Listed h a.vals x) :
    slAppend a x h = .ok a h := by
  simp [slAppend, M.bind_apply, (slContains_iff h a.vals x).mpr hx]

theorem slAppend_ok (a : SL) (x : Ref) (h : Heap) (c : CRef) (hx : ¬ Listed h a.vals x)
    (hc : a.ecls = some c) (hrel : (h.ct.isSub c (h.cls x) || h.ct.isSub (h.cls x) c) = true)
    (hp : h.ct.isSub c cPoint = h.isPoint x) :
    slAppend a x h = .ok ⟨insAt h a.vals x, some c⟩ { h with cls := upd h.cls x c } := by
  unfold slAppend
  mstep M.get_apply h
  rw [if_neg (by rw [(slContains_false_iff h a.vals x).mpr hx]; simp)]
  rw [hc]
  mstep (show _ = Res.ok c h by simp only [hrel, if_true]; rfl)
  mstep castTo_ok c x h hp
  unfold insAt
  split <;> rfl

theorem slAppend_ok_none (a : SL) (x : Ref) (h : Heap) (hx : ¬ Listed h a.vals x)
    (hc : a.ecls = none) :
    slAppend a x h = .ok ⟨insAt h a.vals x, some (h.cls x)⟩ h := by
  have : ({ h with cls := upd h.cls x (h.cls x) } : Heap) = h := by
    rw [upd_eq_self _ _ _ rfl]
  unfold slAppend
  mstep M.get_apply h
  rw [if_neg (by rw [(slContains_false_iff h a.vals x).mpr hx]; simp)]
  rw [hc]
  mstep M.pure_apply (h.cls x) h
  mstep castTo_ok (h.cls x) x h rfl
  rw [this]
  unfold insAt
  split <;> rfl

theorem slAppend_err (a : SL) (x : Ref) (h : Heap) (c : CRef) (hx : ¬ Listed h a.vals x)
    (hc : a.ecls = some c) (hrel : (h.ct.isSub c (h.cls x) || h.ct.isSub (h.cls x) c) = false) :
    slAppend a x h = .err .valueError h := by
  unfold slAppend
  mstep M.get_apply h
  rw [if_neg (by rw [(slContains_false_iff h a.vals x).mpr hx]; simp)]
  rw [hc]
  exact M.bind_err (by simp only [hrel]; rfl)

theorem slAppend_err_cast (a : SL) (x : Ref) (h : Heap) (c : CRef) (hx : ¬ Listed h a.vals x)
    (hc : a.ecls = some c) (hrel : (h.ct.isSub c (h.cls x) || h.ct.isSub (h.cls x) c) = true)
    (hp : h.ct.isSub c cPoint ≠ h.isPoint x) :
    slAppend a x h = .err .assertionError h := by
  unfold slAppend
  mstep M.get_apply h
  rw [if_neg (by rw [(slContains_false_iff h a.vals x).mpr hx]; simp)]
  rw [hc]
  mstep (show _ = Res.ok c h by simp only [hrel, if_true]; rfl)
  exact M.bind_err (by simp [castTo, hp])

theorem insAt_perm (h : Heap) (l : List Ref) (x : Ref) : (insAt h l x).Perm (x :: l) := by
  unfold insAt; split
  · apply List.perm_insertIdx
    unfold searchsorted
    have := (List.takeWhile_prefix (p := fun t => decide (t < h.start x)) (l := l.map h.start)).length_le
    simpa using this
  · exact List.perm_append_singleton x l

theorem insertIdx_takeWhile (key : Ref → Time) (x : Ref) (l : List Ref) :
    l.insertIdx (searchsorted (l.map key) (key x)) x = insBy key x l := by
  induction l with
  | nil => simp [searchsorted, insBy]
  | cons y ys ih =>
    simp only [searchsorted, List.map_cons, List.takeWhile_cons, insBy]
    by_cases e : key x ≤ key y
    · have : ¬ key y < key x := by grind
      simp [e, this]
    · have : key y < key x := by grind
      simp only [this, e, decide_true, if_true, if_false, List.length_cons, List.insertIdx_succ_cons]
      rw [← ih]; rfl

theorem insBy_sublist (key : Ref → Time) (x : Ref) (l : List Ref) : l.Sublist (insBy key x l) := by
  induction l with
  | nil => simp
  | cons y ys ih =>
    simp only [insBy]
    split
    · exact List.sublist_cons_self ..
    · exact ih.cons_cons y

end ATG
