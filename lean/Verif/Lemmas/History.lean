import Verif.Lemmas.Step
/-!
# `append_subset_list`, and the invariant over whole histories
-/
namespace ATG
variable {V : List CRef} {h : Heap}

/-- the heap after `w.append_subset_list(x)` for a parentless `x` -/
def appended (h : Heap) (w x : Ref) : Heap :=
  { h with
    subs := upd h.subs w ⟨insAt h (h.subs w).vals x, some (h.cls x)⟩
    sup := upd h.sup x (some w)
    fol := folOf (insAt h (h.subs w).vals x) h.fol
    prev := prevOf none (insAt h (h.subs w).vals x) h.prev }

theorem Inv.appended (i : Inv V h) (w x : Ref) (hw : w < h.nE) (hx : x < h.nE)
    (hd : h.ct.sub (h.cls w) = some (h.cls x)) (hs : h.sup x = none) :
    Inv V (appended h w x) ∧ (LinkedAll h → LinkedAll (appended h w x)) ∧
      DoublyLinked (ATG.appended h w x) (insAt h (h.subs w).vals x) := by
  have hxn : ∀ v, x ∉ (h.subs v).vals := by
    intro v hh; have := (i.agree v x).mp hh; rw [hs] at this; cases this
  have hmem : ∀ r, r ∈ insAt h (h.subs w).vals x ↔ r = x ∨ r ∈ (h.subs w).vals := by
    intro r; rw [(insAt_perm h _ x).mem_iff]; simp
  have hnd : (insAt h (h.subs w).vals x).Nodup := by
    rw [(insAt_perm h _ x).nodup_iff, List.nodup_cons]; exact ⟨hxn w, i.nodup w⟩
  have hlk : DoublyLinked (ATG.appended h w x) (insAt h (h.subs w).vals x) :=
    linked_of _ _ hnd h.fol h.prev rfl rfl
  refine ⟨?_, ?_, hlk⟩
  · refine ⟨?_, ?_, ?_, ?_, ?_, i.vcls, i.label, i.distinct, i.intier, i.flat⟩
    · intro v y
      show y ∈ (upd h.subs w _ v).vals ↔ upd h.sup x (some w) y = some v
      by_cases e : v = w
      · subst e
        simp only [upd_same, hmem]
        by_cases q : y = x
        · simp [q]
        · simp only [q, false_or, upd_ne _ _ _ _ q]; exact i.agree v y
      · simp only [upd_ne _ _ _ _ e]
        by_cases q : y = x
        · subst q; simp [hxn v, Ne.symm e]
        · simp only [upd_ne _ _ _ _ q]; exact i.agree v y
    · intro v
      show (upd h.subs w _ v).vals.Nodup
      by_cases e : v = w
      · subst e; simpa using hnd
      · simp only [upd_ne _ _ _ _ e]; exact i.nodup v
    · intro v y e
      simp only [ATG.appended] at e
      by_cases q : y = x
      · subst q
        simp only [upd_same, Option.some.injEq] at e
        subst e; exact ⟨hx, hw⟩
      · simp only [upd_ne _ _ _ _ q] at e; exact i.alloc v y e
    · intro v y e
      simp only [ATG.appended] at e
      by_cases q : y = x
      · subst q
        simp only [upd_same, Option.some.injEq] at e
        subst e; exact hd
      · simp only [upd_ne _ _ _ _ q] at e; exact i.typed v y e
    · intro v
      show (upd h.subs w _ v).ecls = none ∧ (upd h.subs w _ v).vals = [] ∨
        ∃ d, (upd h.subs w _ v).ecls = some d ∧ _
      by_cases e : v = w
      · subst e; right; exact ⟨h.cls x, by simp, fun _ => hd⟩
      · simp only [upd_ne _ _ _ _ e]; exact i.ecls v
  · intro hL v
    show DoublyLinked _ (upd h.subs w _ v).vals
    by_cases e : v = w
    · subst e; simpa using hlk
    · simp only [upd_ne _ _ _ _ e]
      have hne : ∀ y ∈ (h.subs v).vals, y ∉ insAt h (h.subs w).vals x := by
        intro y hy hh
        have h1 := (i.agree v y).mp hy
        rcases (hmem y).mp hh with q | q
        · rw [q, hs] at h1; cases h1
        · have h2 := (i.agree w y).mp q
          rw [h1] at h2; exact e (Option.some.inj h2)
      apply (hL v).congr
      · intro y hy; simp [ATG.appended, folOf, hne y hy]
      · intro y hy; simp [ATG.appended, prevOf, hne y hy]

theorem isInst_ok (x : Ref) (h : Heap) (c : Option CRef) (hc : c = some (h.cls x)) :
    isInst x c h = .ok true h := by
  subst hc
  unfold isInst
  mstep M.get_apply h
  show Res.ok _ _ = _
  rw [isSub_refl]

/-- `w.append_subset_list(x)` once `x` has no superset -/
theorem appendSubset_tail (i : Inv V h) (w x : Ref) (hw : w < h.nE) (hx : x < h.nE)
    (hd : h.ct.sub (h.cls w) = some (h.cls x)) (hs : h.sup x = none) :
    (do
      let h ← M.get
      let sl ← slAppend (h.subs w) x
      putSubs w sl
      let h ← M.get
      setPrecedence (h.subs w).vals
      let h ← M.get
      if h.sup x = some w then pure () else setSuperN 3 x w : M Unit) h =
    .ok () (appended h w x) := by
  have hxn : ∀ v, x ∉ (h.subs v).vals := by
    intro v hh; have := (i.agree v x).mp hh; rw [hs] at this; cases this
  have hnl : ¬ Listed h (h.subs w).vals x := by rw [i.listed w x hx]; exact hxn w
  have hmem : ∀ r, r ∈ insAt h (h.subs w).vals x ↔ r = x ∨ r ∈ (h.subs w).vals := by
    intro r; rw [(insAt_perm h _ x).mem_iff]; simp
  have hnd : (insAt h (h.subs w).vals x).Nodup := by
    rw [(insAt_perm h _ x).nodup_iff, List.nodup_cons]; exact ⟨hxn w, i.nodup w⟩
  have hcl : ∀ y ∈ insAt h (h.subs w).vals x, h.cls y = h.cls x := by
    intro y hy
    rcases (hmem y).mp hy with q | q
    · rw [q]
    · have := i.typed w y ((i.agree w y).mp q)
      rw [hd] at this; exact (Option.some.inj this).symm
  have hlb : ∀ y ∈ insAt h (h.subs w).vals x, h.label y ≠ "#" := by
    intro y hy
    rcases (hmem y).mp hy with q | q
    · rw [q]; exact i.label x hx
    · exact i.label y (i.alloc w y ((i.agree w y).mp q)).1
  mstep M.get_apply h
  have happ : slAppend (h.subs w) x h = .ok ⟨insAt h (h.subs w).vals x, some (h.cls x)⟩ h := by
    rcases i.ecls w with ⟨a, _⟩ | ⟨d, a, b⟩
    · exact slAppend_ok_none _ x h hnl a
    · have hdx : d = h.cls x := by
        have := b hw
        rw [hd] at this; exact (Option.some.inj this).symm
      subst hdx
      rw [slAppend_ok _ x h (h.cls x) hnl a (by simp [isSub_refl]) rfl, upd_eq_self _ _ _ rfl]
  mstep happ
  mstep (show putSubs w _ h = .ok () _ from rfl)
  mstep M.get_apply _
  simp only [upd_same]
  mstep setPrecedence_ok _ _ hnd (fun y hy z hz => (hcl y hy).trans (hcl z hz).symm) hlb
  mstep M.get_apply _
  simp only [hs]
  rw [if_neg (by simp)]
  unfold setSuperN
  mstep M.get_apply _
  have hsupc : h.ct.sup (h.cls x) = some (h.cls w) :=
    i.flat.mutual_ _ (i.vcls w hw) _ (i.vcls x hx) hd
  mstep isInst_ok w _ _ (by exact hsupc)
  rw [if_pos (by simp [hs])]
  mstep M.modify_apply _ _
  unfold appendSubsetN
  mstep M.get_apply _
  mstep isInst_ok x _ _ (by exact hd)
  rw [if_pos rfl]
  rw [if_pos (by
    rw [slContains_iff]; left
    simp only [upd_same]; exact (hmem x).mpr (Or.inl rfl))]
  rfl

/-- `w.append_subset_list(x)`: exact effect -/
theorem Inv.appendSubset_ok (i : Inv V h) (w x : Ref) (hw : w < h.nE) (hx : x < h.nE)
    (hd : h.ct.sub (h.cls w) = some (h.cls x)) (hm : x ∉ (h.subs w).vals) :
    ATG.appendSubset w x h = .ok () (match h.sup x with
      | none => ATG.appended h w x
      | some s => ATG.appended (ATG.removed h s x) w x) := by
  have hnl : ¬ Listed h (h.subs w).vals x := by rw [i.listed w x hx]; exact hm
  unfold ATG.appendSubset appendSubsetN
  mstep M.get_apply h
  mstep isInst_ok x _ _ hd
  rw [if_pos rfl, if_neg (by rw [slContains_iff]; exact hnl)]
  cases e : h.sup x with
  | none =>
    simp only []
    mstep M.pure_apply () h
    exact appendSubset_tail i w x hw hx hd e
  | some s =>
    have hxs := (i.agree s x).mpr e
    have hlen : (h.subs s).vals.length > 0 := List.length_pos_of_mem hxs
    simp only [hlen, if_true]
    mstep removeSuperset_ok s x h e hxs (i.good s)
    have i1 : Inv V (ATG.removed h s x) := i.removed s x hxs _ _
    exact appendSubset_tail i1 w x hw hx hd (by simp [ATG.removed])

theorem appendSubset_old (w x : Ref) (h : Heap) (hd : h.ct.sub (h.cls w) = some (h.cls x))
    (hm : Listed h (h.subs w).vals x) : ATG.appendSubset w x h = .ok () h := by
  unfold ATG.appendSubset appendSubsetN
  mstep M.get_apply h
  mstep isInst_ok x _ _ hd
  rw [if_pos rfl, if_pos (by rw [slContains_iff]; exact hm)]
  rfl

theorem appendSubset_err (w x : Ref) (h : Heap)
    (hn : ∀ d, h.ct.sub (h.cls w) = some d → h.ct.isSub (h.cls x) d = false) :
    ∃ e, ATG.appendSubset w x h = .err e h := by
  unfold ATG.appendSubset appendSubsetN
  cases e : h.ct.sub (h.cls w) with
  | none => exact ⟨.typeError, by simp [M.bind_apply, e, isInst]⟩
  | some d => exact ⟨.exc, by simp [M.bind_apply, e, isInst, hn d e]⟩

theorem Inv.appendSubset (i : Inv V h) (w x : Ref) (hw : w < h.nE) (hx : x < h.nE) :
    Inv V (Op.run (.appendSubset w x) h) ∧
      (LinkedAll h → LinkedAll (Op.run (.appendSubset w x) h)) := by
  simp only [Op.run]
  by_cases hd : h.ct.sub (h.cls w) = some (h.cls x)
  · by_cases hm : x ∈ (h.subs w).vals
    · rw [appendSubset_old w x h hd (Or.inl hm)]; exact ⟨i, id⟩
    · rw [i.appendSubset_ok w x hw hx hd hm]
      cases e : h.sup x with
      | none =>
        have := i.appended w x hw hx hd e
        exact ⟨this.1, this.2.1⟩
      | some s =>
        have hxs := (i.agree s x).mpr e
        have i1 : Inv V (ATG.removed h s x) := i.removed s x hxs _ _
        have := i1.appended w x hw hx hd (by simp [ATG.removed])
        exact ⟨this.1, fun hL => this.2.1 (i.removed_linked hL s x)⟩
  · obtain ⟨e, he⟩ := appendSubset_err w x h (by
      intro d e
      cases q : h.ct.isSub (h.cls x) d with
      | false => rfl
      | true =>
        exfalso
        have := i.flat.related _ (i.vcls w hw) _ (i.vcls x hx) d e (by simp [q])
        exact hd (this ▸ e))
    rw [he]; exact ⟨i, id⟩

/-! ## whole histories -/

theorem Inv.step (i : Inv V h) (o : Op) (hv : o.valid V h) :
    Inv V (o.run h) ∧ ((∀ w x, o ≠ .listRemove w x) → LinkedAll h → LinkedAll (o.run h)) := by
  cases o with
  | create c s e lab => exact ⟨(i.create c s e lab hv).1, fun _ => (i.create c s e lab hv).2⟩
  | append w x => exact ⟨(i.append w x hv.1 hv.2).1, fun _ => (i.append w x hv.1 hv.2).2⟩
  | appendSubset w x => exact ⟨(i.appendSubset w x hv.1 hv.2).1, fun _ => (i.appendSubset w x hv.1 hv.2).2⟩
  | assign w l => exact ⟨(i.assign w l hv).1, fun _ => (i.assign w l hv).2⟩
  | removeSuperset x => exact ⟨(i.removeSuperset x).1, fun _ => (i.removeSuperset x).2⟩
  | removeFrom w x => exact ⟨(i.removeFrom w x hv.2).1, fun _ => (i.removeFrom w x hv.2).2⟩
  | pop w x => exact ⟨(i.pop w x hv.2).1, fun _ => (i.pop w x hv.2).2⟩
  | listRemove w x => exact ⟨i.listRemove w x hv.2, fun hn => absurd rfl (hn w x)⟩

theorem Inv.runAll (os : List Op) : ∀ {h : Heap}, Inv V h → Valid V os h →
    Inv V (runAll os h) ∧ (NoListRemove os → LinkedAll h → LinkedAll (ATG.runAll os h)) := by
  induction os with
  | nil => intro h i _; exact ⟨i, fun _ => id⟩
  | cons o os ih =>
    intro h i hv
    have h1 := i.step o hv.1
    have h2 := ih h1.1 hv.2
    exact ⟨h2.1, fun hn hL => h2.2 (fun o' ho' => hn o' (by simp [ho'])) (h1.2 (hn o (by simp)) hL)⟩

theorem Inv.empty (ct : ClassTab) (V : List CRef) (f : Flat ct V) : Inv V (emptyHeap ct) := by
  refine ⟨?_, ?_, ?_, ?_, ?_, ?_, ?_, ?_, ?_, f⟩
  · intro w x; simp [emptyHeap, heap0, SL.empty]
  · intro w; simp [emptyHeap, heap0, SL.empty]
  · intro w x; simp [emptyHeap, heap0]
  · intro w x; simp [emptyHeap, heap0]
  · intro w; simp [emptyHeap, heap0, SL.empty]
  · intro x hx; simp [emptyHeap, heap0] at hx
  · intro x hx; simp [emptyHeap, heap0] at hx
  · intro x hx; simp [emptyHeap, heap0] at hx
  · intro x; rfl

theorem LinkedAll.empty (ct : ClassTab) : LinkedAll (emptyHeap ct) := by
  intro w
  have : ((emptyHeap ct).subs w).vals = [] := rfl
  rw [this]
  constructor <;> simp

end ATG
