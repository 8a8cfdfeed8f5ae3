import Verif.Lemmas.Tree
/-!
# Every call of a history keeps the invariant
-/
namespace ATG
variable {V : List CRef} {h : Heap}

/-! ## create -/

theorem Inv.create (i : Inv V h) (c : CRef) (s e : Time) (lab : String)
    (hv : Op.valid V h (.create c s e lab)) :
    Inv V (Op.run (.create c s e lab) h) ∧ (LinkedAll h → LinkedAll (Op.run (.create c s e lab) h)) := by
  obtain ⟨hc, hlab, hfresh⟩ := hv
  have hnsub : ∀ w, h.nE ∉ (h.subs w).vals := by
    intro w hh
    have := (i.alloc w _ ((i.agree w _).mp hh)).1
    romega
  have hsupn : ∀ x, h.sup x ≠ some h.nE := by
    intro x hh
    have := (i.alloc _ x hh).2
    romega
  have hnone : (h.subs h.nE).vals = [] := by
    apply List.eq_nil_iff_forall_not_mem.mpr
    intro x hx; exact hsupn x ((i.agree _ x).mp hx)
  have hss : ∀ w x, x ∈ (upd h.subs h.nE SL.empty w).vals ↔ upd h.sup h.nE none x = some w := by
    intro w x
    by_cases e1 : w = h.nE
    · subst e1
      simp only [upd_same, SL.empty, List.not_mem_nil, false_iff]
      by_cases e2 : x = h.nE
      · subst e2; simp
      · simp only [upd_ne _ _ _ _ e2]; exact hsupn x
    · simp only [upd_ne _ _ _ _ e1]
      by_cases e2 : x = h.nE
      · subst e2; simp [hnsub w]
      · simp only [upd_ne _ _ _ _ e2]; exact i.agree w x
  have hsup : ∀ w x, upd h.sup h.nE none x = some w → h.sup x = some w := by
    intro w x e
    by_cases e2 : x = h.nE
    · subst e2; simp at e
    · simpa [upd, e2] using e
  constructor
  · show Inv V (newEntry c s e lab h).heap
    simp only [newEntry, Res.heap]
    refine ⟨hss, ?_, ?_, ?_, ?_, ?_, ?_, ?_, ?_, i.flat⟩
    · intro w
      by_cases e1 : w = h.nE
      · subst e1; simp [SL.empty]
      · simp only [upd_ne _ _ _ _ e1]; exact i.nodup w
    · intro w x hx
      have := i.alloc w x (hsup w x hx)
      exact ⟨by romega, by romega⟩
    · intro w x hx
      have ha := i.alloc w x (hsup w x hx)
      have h1 : w ≠ h.nE := by romega
      have h2 : x ≠ h.nE := by romega
      show h.ct.sub (upd h.cls h.nE c w) = some (upd h.cls h.nE c x)
      simp only [upd_ne _ _ _ _ h1, upd_ne _ _ _ _ h2]
      exact i.typed w x (hsup w x hx)
    · intro w
      by_cases e1 : w = h.nE
      · subst e1; left; simp [SL.empty]
      · simp only [upd_ne _ _ _ _ e1]
        rcases i.ecls w with a | ⟨d, a, b⟩
        · exact Or.inl a
        · right; exact ⟨d, a, fun hw => b (by romega)⟩
    · intro x hx
      by_cases e1 : x = h.nE
      · subst e1; simpa using hc
      · simp only [upd_ne _ _ _ _ e1]; exact i.vcls x (by romega)
    · intro x hx
      by_cases e1 : x = h.nE
      · subst e1; simpa using hlab
      · simp only [upd_ne _ _ _ _ e1]; exact i.label x (by romega)
    · intro x hx y hy hs
      simp only [SameValue, Heap.isPoint] at hs
      by_cases e1 : x = h.nE
      · by_cases e2 : y = h.nE
        · romega
        · exfalso
          subst e1
          simp only [upd_same, upd_ne _ _ _ _ e2] at hs
          exact hfresh y (by romega) ⟨hs.1.symm, hs.2.1.symm, hs.2.2.1.symm, hs.2.2.2.symm⟩
      · by_cases e2 : y = h.nE
        · exfalso
          subst e2
          simp only [upd_same, upd_ne _ _ _ _ e1] at hs
          exact hfresh x (by romega) hs
        · simp only [upd_ne _ _ _ _ e1, upd_ne _ _ _ _ e2] at hs
          exact i.distinct x (by romega) y (by romega) hs
    · intro x
      by_cases e1 : x = h.nE
      · subst e1; simp
      · simp only [upd_ne _ _ _ _ e1]; exact i.intier x
  · intro hL w
    show DoublyLinked (newEntry c s e lab h).heap ((newEntry c s e lab h).heap.subs w).vals
    simp only [newEntry, Res.heap]
    by_cases e1 : w = h.nE
    · subst e1
      simp only [upd_same, SL.empty]
      constructor <;> simp
    · simp only [upd_ne _ _ _ _ e1]
      apply (hL w).congr
      · intro x hx
        have : x ≠ h.nE := fun q => hnsub w (q ▸ hx)
        simp [upd, this]
      · intro x hx
        have : x ≠ h.nE := fun q => hnsub w (q ▸ hx)
        simp [upd, this]

/-! ## removing -/

theorem Inv.removeSuperset (i : Inv V h) (x : Ref) :
    Inv V (Op.run (.removeSuperset x) h) ∧ (LinkedAll h → LinkedAll (Op.run (.removeSuperset x) h)) := by
  simp only [Op.run]
  cases e : h.sup x with
  | none => rw [removeSuperset_none x h e]; exact ⟨i, id⟩
  | some w =>
    have hx := (i.agree w x).mpr e
    rw [removeSuperset_ok w x h e hx (i.good w)]
    exact ⟨i.removed w x hx _ _, fun hL => i.removed_linked hL w x⟩

theorem Inv.removeFrom (i : Inv V h) (w x : Ref) (hx : x < h.nE) :
    Inv V (Op.run (.removeFrom w x) h) ∧ (LinkedAll h → LinkedAll (Op.run (.removeFrom w x) h)) := by
  simp only [Op.run]
  by_cases hm : x ∈ (h.subs w).vals
  · rw [removeFromSubset_ok w x h ((i.agree w x).mp hm) hm (i.good w)]
    exact ⟨i.removed w x hm _ _, fun hL => i.removed_linked hL w x⟩
  · rw [removeFromSubset_absent w x h (by rw [i.listed w x hx]; exact hm)]
    exact ⟨i, id⟩

theorem Inv.relinked (i : Inv V h) (w : Ref) :
    Inv V { h with fol := folOf (h.subs w).vals h.fol, prev := prevOf none (h.subs w).vals h.prev } ∧
    (LinkedAll h → LinkedAll
      { h with fol := folOf (h.subs w).vals h.fol, prev := prevOf none (h.subs w).vals h.prev }) := by
  refine ⟨⟨i.agree, i.nodup, i.alloc, i.typed, i.ecls, i.vcls, i.label, i.distinct, i.intier, i.flat⟩, ?_⟩
  intro hL v
  show DoublyLinked _ (h.subs v).vals
  by_cases e : v = w
  · subst e; exact linked_of _ _ (i.nodup v) h.fol h.prev rfl rfl
  · have hne : ∀ y ∈ (h.subs v).vals, y ∉ (h.subs w).vals := by
      intro y hy hh
      have h1 := (i.agree v y).mp hy
      have h2 := (i.agree w y).mp hh
      rw [h1] at h2; exact e (Option.some.inj h2)
    apply (hL v).congr
    · intro y hy; simp [folOf, hne y hy]
    · intro y hy; simp [prevOf, hne y hy]

theorem ivalPop_absent (i : Inv V h) (w x : Ref) (hx : x < h.nE) (hm : x ∉ (h.subs w).vals) :
    ivalPop w x h = .ok ()
      { h with fol := folOf (h.subs w).vals h.fol, prev := prevOf none (h.subs w).vals h.prev } := by
  unfold ivalPop
  mstep M.get_apply h
  rw [if_neg (by rw [slContains_iff, i.listed w x hx]; exact hm)]
  mstep M.pure_apply () h
  mstep M.get_apply h
  exact setPrecedence_ok h _ (i.nodup w) (i.good w).cls (i.good w).label

theorem Inv.pop (i : Inv V h) (w x : Ref) (hx : x < h.nE) :
    Inv V (Op.run (.pop w x) h) ∧ (LinkedAll h → LinkedAll (Op.run (.pop w x) h)) := by
  simp only [Op.run]
  by_cases hm : x ∈ (h.subs w).vals
  · rw [ivalPop_ok w x h ((i.agree w x).mp hm) hm (i.good w)]
    exact ⟨i.removed w x hm _ _, fun hL => i.removed_linked hL w x⟩
  · rw [ivalPop_absent i w x hx hm]
    exact i.relinked w

theorem subsRemove_absent (w x : Ref) (h : Heap) (hx : ¬ ∃ y ∈ (h.subs w).vals, SameValue h y x) :
    subsRemove w x h = .err .valueError h := by
  unfold subsRemove slRemoveAt
  mstep M.get_apply h
  have : slIndexOf h (h.subs w).vals x = none := by
    unfold slIndexOf
    rw [List.findIdx?_eq_none_iff]
    intro y hy
    rw [beq_eq_false_iff_ne, ne_eq, tup_eq_iff]
    intro hh; exact hx ⟨y, hy, hh⟩
  rw [this]; rfl

theorem Inv.listRemove (i : Inv V h) (w x : Ref) (hx : x < h.nE) :
    Inv V (Op.run (.listRemove w x) h) := by
  simp only [Op.run]
  by_cases hm : x ∈ (h.subs w).vals
  · rw [subsRemove_ok w x h ((i.agree w x).mp hm) hm (i.good w)]
    exact i.removed w x hm _ _
  · rw [subsRemove_absent w x h (by
      rintro ⟨y, hy, hs⟩
      exact hm (((i.listed w x hx).mp (Or.inr ⟨y, hy, hs⟩))))]
    exact i

/-! ## assigning -/

theorem allInst_cases (w : Ref) (l : List Ref) (h : Heap) :
    (∃ e, allInst w l h = .err e h) ∨
    (allInst w l h = .ok false h) ∨
    (allInst w l h = .ok true h ∧
      ∀ x ∈ l, ∃ c, h.ct.sub (h.cls w) = some c ∧ h.ct.isSub (h.cls x) c = true) := by
  cases l with
  | nil => right; right; exact ⟨rfl, by simp⟩
  | cons x xs =>
    cases e : h.ct.sub (h.cls w) with
    | none => left; exact ⟨.typeError, by simp [allInst, M.bind_apply, e]⟩
    | some c =>
      right
      by_cases q : (x :: xs).all (fun x => h.ct.isSub (h.cls x) c) = true
      · right
        refine ⟨by simp only [allInst, M.bind_apply, M.get_apply, e, q]; rfl, ?_⟩
        intro y hy
        exact ⟨c, rfl, List.all_eq_true.mp q y hy⟩
      · left
        simp only [allInst, M.bind_apply, M.get_apply, e]
        rw [Bool.not_eq_true] at q
        rw [q]; rfl

theorem setSubsetList_err (w : Ref) (l : List Ref) (h : Heap)
    (hn : ¬ ∀ x ∈ l, ∃ c, h.ct.sub (h.cls w) = some c ∧ h.ct.isSub (h.cls x) c = true) :
    ∃ e, setSubsetList w l h = .err e h := by
  rcases allInst_cases w l h with ⟨e, he⟩ | he | ⟨_, he⟩
  · exact ⟨e, M.bind_err he⟩
  · exact ⟨.exc, by
      unfold setSubsetList
      mstep he
      rfl⟩
  · exact absurd he hn

theorem setSubs_err_mixed (w : Ref) (l : List Ref) (h : Heap)
    (hc : ¬ ∀ x ∈ l, ∀ y ∈ l, h.cls x = h.cls y) : setSubs w l h = .err .valueError h := by
  unfold setSubs
  mstep M.get_apply h
  exact M.bind_err (slMk_err h l hc)

theorem setSubs_err_class (w : Ref) (l : List Ref) (h : Heap)
    (hn : ¬ ∀ x ∈ l, ∃ c, h.ct.sub (h.cls w) = some c ∧ h.ct.isSub (h.cls x) c = true) :
    ∃ e, setSubs w l h = .err e h := by
  by_cases hc : ∀ x ∈ l, ∀ y ∈ l, h.cls x = h.cls y
  · have : ¬ ∀ x ∈ slSort h l, ∃ c, h.ct.sub (h.cls w) = some c ∧ h.ct.isSub (h.cls x) c = true := by
      intro hh; exact hn fun x hx => hh x ((slSort_perm h l).mem_iff.mpr hx)
    obtain ⟨e, he⟩ := setSubsetList_err w (slSort h l) h this
    refine ⟨e, ?_⟩
    unfold setSubs
    mstep M.get_apply h
    mstep slMk_ok h l hc
    exact M.bind_err he
  · exact ⟨_, setSubs_err_mixed w l h hc⟩

theorem Inv.assign (i : Inv V h) (w : Ref) (l : List Ref) (hv : Op.valid V h (.assign w l)) :
    Inv V (Op.run (.assign w l) h) ∧ (LinkedAll h → LinkedAll (Op.run (.assign w l) h)) := by
  obtain ⟨hw, hl, hnd⟩ := hv
  simp only [Op.run]
  by_cases hn : ∀ x ∈ l, ∃ c, h.ct.sub (h.cls w) = some c ∧ h.ct.isSub (h.cls x) c = true
  · cases hll : l with
    | nil =>
      obtain ⟨h', hrun, hi, hL, _⟩ := i.assigned w [] 0 hw (by simp) (by simp) (by simp)
      rw [hrun]; exact ⟨hi, hL⟩
    | cons x0 xs =>
      rw [← hll]
      obtain ⟨d, hd, _⟩ := hn x0 (by rw [hll]; simp)
      obtain ⟨h', hrun, hi, hL, _⟩ := i.assigned w l d hw hl hnd (by
        intro x hx
        obtain ⟨d', hd', hs⟩ := hn x hx
        rw [hd] at hd'; cases hd'
        exact ⟨(i.flat.related _ (i.vcls w hw) _ (i.vcls x (hl x hx)) d hd (by simp [hs])).symm, hd⟩)
      rw [hrun]; exact ⟨hi, hL⟩
  · obtain ⟨e, he⟩ := setSubs_err_class w l h hn
    rw [he]; exact ⟨i, id⟩

/-! ## appending -/

theorem Inv.putEcls (i : Inv V h) (w : Ref) (d : CRef) (hd : h.ct.sub (h.cls w) = some d) :
    Inv V { h with subs := upd h.subs w ⟨(h.subs w).vals, some d⟩ } ∧
    (LinkedAll h → LinkedAll { h with subs := upd h.subs w ⟨(h.subs w).vals, some d⟩ }) := by
  have e : ∀ v, (upd h.subs w ⟨(h.subs w).vals, some d⟩ v).vals = (h.subs v).vals := by
    intro v; by_cases q : v = w <;> simp [upd, q]
  constructor
  · refine ⟨?_, ?_, i.alloc, i.typed, ?_, i.vcls, i.label, i.distinct, i.intier, i.flat⟩
    · intro v x; simp only [e]; exact i.agree v x
    · intro v; simp only [e]; exact i.nodup v
    · intro v
      by_cases q : v = w
      · subst q; right; exact ⟨d, by simp, fun _ => hd⟩
      · simp only [upd_ne _ _ _ _ q]; exact i.ecls v
  · intro hL v
    simp only [e]
    exact (hL v).congr (fun _ _ => rfl) (fun _ _ => rfl)

/-- the addition sets the entry class of an empty list and changes nothing else -/
theorem Inv.slAdd_new (i : Inv V h) (w x : Ref) (hw : w < h.nE) (hx : x < h.nE)
    (hd : h.ct.sub (h.cls w) = some (h.cls x)) (hm : x ∉ (h.subs w).vals) :
    ∃ ec, slAdd (putSubs w) (h.subs w) [x] h =
    .ok ⟨slSort h ((h.subs w).vals ++ [x]), some (h.cls x)⟩
      { h with subs := upd h.subs w ⟨(h.subs w).vals, ec⟩ } ∧
    Inv V { h with subs := upd h.subs w ⟨(h.subs w).vals, ec⟩ } ∧
    (LinkedAll h → LinkedAll { h with subs := upd h.subs w ⟨(h.subs w).vals, ec⟩ }) := by
  have hcl : ∀ y ∈ (h.subs w).vals, h.cls y = h.cls x := by
    intro y hy
    have := i.typed w y ((i.agree w y).mp hy)
    rw [hd] at this
    exact (Option.some.inj this).symm
  have hnl : ¬ Listed h (h.subs w).vals x := by rw [i.listed w x hx]; exact hm
  have hn : newOf h (h.subs w).vals [x] = [x] := by
    simp [newOf, (slContains_false_iff h (h.subs w).vals x).mpr hnl]
  rcases i.ecls w with ⟨a, b⟩ | ⟨d, a, b⟩
  · refine ⟨some (h.cls x), ?_, i.putEcls w _ hd⟩
    have e0 : h.subs w = SL.empty := by
      rw [show h.subs w = ⟨(h.subs w).vals, (h.subs w).ecls⟩ from rfl, a, b]; rfl
    rw [e0]
    exact slAdd_ok_empty (putSubs w) (fun sl h => { h with subs := upd h.subs w sl })
      (fun _ _ => rfl) (fun _ _ => ⟨rfl, rfl⟩) [x] h (h.cls x) x [] rfl (by simp)
  · have hdx : d = h.cls x := by
      have := b hw
      rw [hd] at this; exact (Option.some.inj this).symm
    subst hdx
    refine ⟨(h.subs w).ecls, ?_, ?_⟩
    · have e0 : upd h.subs w ⟨(h.subs w).vals, (h.subs w).ecls⟩ = h.subs := upd_eq_self _ _ _ rfl
      rw [e0]
      have hallc : ∀ y ∈ (h.subs w).vals ++ newOf h (h.subs w).vals [x], h.cls y = h.cls x := by
        rw [hn]
        intro y hy
        rcases List.mem_append.mp hy with q | q
        · exact hcl y q
        · simp at q; rw [q]
      have := slAdd_ok (putSubs w) (h.subs w) [x] h (h.cls x) (h.cls x) (by rw [hn]; simp) a
        (by rw [hn]; simp) (by simp [isSub_refl]) (by
          intro y hy; unfold Heap.isPoint; rw [hallc y hy])
      rw [castAll_self h _ _ hallc, hn] at this
      exact this
    · have e0 : upd h.subs w ⟨(h.subs w).vals, (h.subs w).ecls⟩ = h.subs := upd_eq_self _ _ _ rfl
      rw [e0]; exact ⟨i, id⟩

/-- `w.subset_list += [x]` for an entry of exactly the subset class -/
theorem Inv.subsIAdd_ok (i : Inv V h) (w x : Ref) (hw : w < h.nE) (hx : x < h.nE)
    (hd : h.ct.sub (h.cls w) = some (h.cls x)) :
    ∃ h', subsIAdd w [x] h = .ok () h' ∧ Inv V h' ∧ (LinkedAll h → LinkedAll h') ∧
      DoublyLinked h' (h'.subs w).vals ∧ (h'.subs w).vals.Perm
        (if x ∈ (h.subs w).vals then (h.subs w).vals else (h.subs w).vals ++ [x]) ∧
      SortedByStart h (h'.subs w).vals ∧
      h'.nE = h.nE ∧ h'.start = h.start ∧ h'.stop = h.stop ∧ h'.label = h.label ∧ h'.cls = h.cls ∧
      h'.ct = h.ct ∧
      (∀ v, v ≠ w → (h'.subs v).vals = (h.subs v).vals.filter (· ≠ x)) ∧
      (∀ v, v ≠ w → (DoublyLinked h (h.subs v).vals ∨ x ∈ (h.subs v).vals) →
        DoublyLinked h' (h'.subs v).vals) ∧
      (∀ r, h'.within r = if r = x ∨ r ∈ (h.subs w).vals then some (.ival w) else h.within r) ∧
      (∀ r, h'.sup r = if r = x then some w else h.sup r) := by
  have hal : ∀ y ∈ (h.subs w).vals, y < h.nE := fun y hy => (i.alloc w y ((i.agree w y).mp hy)).1
  have hcl : ∀ y ∈ (h.subs w).vals, h.cls y = h.cls x ∧ h.ct.sub (h.cls w) = some (h.cls x) := by
    intro y hy
    have := i.typed w y ((i.agree w y).mp hy)
    rw [hd] at this
    exact ⟨(Option.some.inj this).symm, hd⟩
  have hsv : ∀ v y, v ≠ w → y ∈ (h.subs v).vals → y ∉ (h.subs w).vals := by
    intro v y hv hy hh
    have h1 := (i.agree v y).mp hy
    have h2 := (i.agree w y).mp hh
    rw [h1] at h2; exact hv (Option.some.inj h2)
  by_cases hm : x ∈ (h.subs w).vals
  · have hn : newOf h (h.subs w).vals [x] = [] := by
      simp [newOf, (slContains_iff h (h.subs w).vals x).mpr (Or.inl hm)]
    obtain ⟨h', hrun, hi, hL, hl1, hl2, e1, e2, e3, e4, e5, e6, hv, hvl, hwi, hsu⟩ :=
      i.assigned w (h.subs w).vals (h.cls x) hw hal (i.nodup w) hcl
    refine ⟨h', ?_, hi, hL, hl1, ?_, ?_, e1, e2, e3, e4, e5, e6, ?_, ?_, ?_, ?_⟩
    · unfold subsIAdd
      mstep M.get_apply h
      mstep slAdd_none_new _ _ _ h hn
      exact hrun
    · rw [hl2, if_pos hm]; exact slSort_perm _ _
    · rw [hl2]; exact slSort_sorted _ _
    · intro v hv'
      rw [hv v hv']
      rw [filter_ne_self _ x (fun hh => hsv v x hv' hh hm)]
      rw [List.filter_eq_self]
      intro y hy; simp; exact hsv v y hv' hy
    · intro v hv' hh
      apply hvl v hv'
      rcases hh with hh | hh
      · exact Or.inl hh
      · exact absurd hm (hsv v x hv' hh)
    · intro r; rw [hwi r]
      by_cases q : r ∈ (h.subs w).vals
      · simp [q]
      · have : r ≠ x := fun e => q (e ▸ hm)
        simp [q, this]
    · intro r; rw [hsu r]
      by_cases q : r ∈ (h.subs w).vals
      · have := (i.agree w r).mp q
        simp [q, this]
      · have : r ≠ x := fun e => q (e ▸ hm)
        simp [q, this]
  · have hadd := i.slAdd_new w x hw hx hd hm
    obtain ⟨ec, hadd, i1, hL1⟩ := hadd
    generalize hh1 : ({ h with subs := upd h.subs w ⟨(h.subs w).vals, ec⟩ } : Heap) = h1 at *
    have hsub1 : ∀ v, (h1.subs v).vals = (h.subs v).vals := by
      intro v; subst hh1; by_cases q : v = w <;> simp [upd, q]
    have hst : slSort h1 (slSort h ((h.subs w).vals ++ [x])) = slSort h ((h.subs w).vals ++ [x]) := by
      rw [slSort_congr h1 h _ (by subst hh1; rfl)]
      exact slSort_of_sorted _ _ (slSort_sorted _ _)
    have hmem : ∀ r, r ∈ slSort h ((h.subs w).vals ++ [x]) ↔ r ∈ (h.subs w).vals ∨ r = x := by
      intro r; rw [(slSort_perm _ _).mem_iff]; simp
    obtain ⟨h', hrun, hi, hL, hl1, hl2, e1, e2, e3, e4, e5, e6, hv, hvl, hwi, hsu⟩ :=
      i1.assigned w (slSort h ((h.subs w).vals ++ [x])) (h.cls x) (by subst hh1; exact hw) (by
        intro y hy
        subst hh1
        rcases (hmem y).mp hy with q | q
        · exact hal y q
        · exact q ▸ hx) (by
        rw [(slSort_perm _ _).nodup_iff]
        rw [List.nodup_append]
        exact ⟨i.nodup w, by simp, by
          intro a ha b hb e
          simp at hb; subst hb; subst e; exact hm ha⟩) (by
        intro y hy
        subst hh1
        rcases (hmem y).mp hy with q | q
        · exact hcl y q
        · exact ⟨q ▸ rfl, hd⟩)
    rw [hst] at hl2
    refine ⟨h', ?_, hi, fun q => hL (hL1 q), hl1, ?_, ?_, ?_, ?_, ?_, ?_, ?_, ?_, ?_, ?_,
      ?_, ?_⟩
    · unfold subsIAdd
      mstep M.get_apply h
      mstep hadd
      exact hrun
    · rw [hl2, if_neg hm]; exact slSort_perm _ _
    · rw [hl2]; exact slSort_sorted _ _
    · rw [e1]; subst hh1; rfl
    · rw [e2]; subst hh1; rfl
    · rw [e3]; subst hh1; rfl
    · rw [e4]; subst hh1; rfl
    · rw [e5]; subst hh1; rfl
    · rw [e6]; subst hh1; rfl
    · intro v hv'
      rw [hv v hv', hsub1 v]
      apply List.filter_congr
      intro y hy
      have := hsv v y hv' hy
      simp [hmem, this]
    · intro v hv' hh
      apply hvl v hv'
      rw [hsub1 v]
      rcases hh with hh | hh
      · left; subst hh1; exact hh.congr (fun _ _ => rfl) (fun _ _ => rfl)
      · right; exact ⟨x, (hmem x).mpr (Or.inr rfl), hh⟩
    · intro r; rw [hwi r, hsub1 w]
      have : h1.within r = h.within r := by subst hh1; rfl
      rw [this]
      by_cases q : r ∈ (h.subs w).vals
      · simp [hmem, q]
      · by_cases q2 : r = x
        · simp [hmem, q2]
        · simp [hmem, q, q2]
    · intro r; rw [hsu r, hsub1 w]
      have : h1.sup r = h.sup r := by subst hh1; rfl
      rw [this]
      by_cases q : r ∈ (h.subs w).vals
      · have := (i.agree w r).mp q
        simp [hmem, q, this]
      · by_cases q2 : r = x
        · simp [hmem, q2]
        · simp [hmem, q, q2]

/-- `w.append(x)` on free intervals, for an entry of exactly the subset class -/
theorem Inv.append_ok (i : Inv V h) (w x : Ref) (hw : w < h.nE) (hx : x < h.nE)
    (hd : h.ct.sub (h.cls w) = some (h.cls x)) :
    ∃ h', ivalAppend w x h = .ok () h' ∧ Inv V h' ∧ (LinkedAll h → LinkedAll h') ∧
      DoublyLinked h' (h'.subs w).vals ∧ (h'.subs w).vals.Perm
        (if x ∈ (h.subs w).vals then (h.subs w).vals else (h.subs w).vals ++ [x]) ∧
      SortedByStart h (h'.subs w).vals ∧
      h'.nE = h.nE ∧ h'.start = h.start ∧ h'.stop = h.stop ∧ h'.label = h.label ∧ h'.cls = h.cls ∧
      h'.ct = h.ct ∧
      (∀ v, v ≠ w → (h'.subs v).vals = (h.subs v).vals.filter (· ≠ x)) ∧
      (∀ v, v ≠ w → (DoublyLinked h (h.subs v).vals ∨ x ∈ (h.subs v).vals) →
        DoublyLinked h' (h'.subs v).vals) ∧
      (∀ r, h'.within r = if r = x ∨ r ∈ (h.subs w).vals then some (.ival w) else h.within r) ∧
      (∀ r, h'.sup r = if r = x then some w else h.sup r) := by
  -- the tail of the program does nothing
  have htail : ∀ (h1 : Heap), h1.intier = h.intier → (do
      let h ← M.get
      match h.intier w with
      | none => pure ()
      | some t =>
        if (h.tseq t).vals.length > 0 then
          match withinTruthy h t with
          | none => pure ()
          | some g => do
            let d ← siblingTier g t 1
            tierAppendNR d x
        else pure () : M Unit) h1 = .ok () h1 := by
    intro h1 e
    mstep M.get_apply h1
    rw [e, i.intier w]; rfl
  obtain ⟨h', e1, hi, hrest⟩ := i.subsIAdd_ok w x hw hx hd
  refine ⟨h', ?_, hi, hrest⟩
  unfold ivalAppend
  mstep M.get_apply h
  mstep (show isSubO (h.ct.sub (h.cls w)) (h.cls x) h = .ok true h by
    simp [isSubO, hd, isSub_refl])
  rw [if_pos rfl]
  mstep e1
  exact htail h' (by funext r; rw [hi.intier r, i.intier r])

theorem ivalAppend_err (w x : Ref) (h : Heap)
    (hn : ∀ d, h.ct.sub (h.cls w) = some d → h.ct.isSub d (h.cls x) = false) :
    ∃ e, ivalAppend w x h = .err e h := by
  unfold ivalAppend
  cases e : h.ct.sub (h.cls w) with
  | none => exact ⟨.typeError, by simp [M.bind_apply, e, isSubO]⟩
  | some d => exact ⟨.valueError, by simp [M.bind_apply, e, isSubO, hn d e]⟩

theorem Inv.append (i : Inv V h) (w x : Ref) (hw : w < h.nE) (hx : x < h.nE) :
    Inv V (Op.run (.append w x) h) ∧ (LinkedAll h → LinkedAll (Op.run (.append w x) h)) := by
  simp only [Op.run]
  by_cases hd : h.ct.sub (h.cls w) = some (h.cls x)
  · obtain ⟨h', hrun, hi, hL, _⟩ := i.append_ok w x hw hx hd
    rw [hrun]; exact ⟨hi, hL⟩
  · obtain ⟨e, he⟩ := ivalAppend_err w x h (by
      intro d e
      cases q : h.ct.isSub d (h.cls x) with
      | false => rfl
      | true =>
        exfalso
        have := i.flat.related _ (i.vcls w hw) _ (i.vcls x hx) d e (by simp [q])
        exact hd (this ▸ e))
    rw [he]; exact ⟨i, id⟩

end ATG
