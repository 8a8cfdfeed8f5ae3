import Verif.Lemmas.Link
/-!
# Building tiers
-/
namespace ATG

theorem forL_castAll (c : CRef) (l : List Ref) (h : Heap)
    (hp : ∀ x ∈ l, h.ct.isSub c cPoint = h.isPoint x) :
    M.forL l (fun x => castTo c x) h = .ok () (castAll h l c) := by
  induction l generalizing h with
  | nil => simp [castAll]
  | cons x xs ih =>
    rw [M.forL_cons, castTo_ok c x h (hp x (by simp))]
    simp only []
    rw [ih { h with cls := upd h.cls x c } (by
      intro y hy
      simp only [Heap.isPoint, upd_apply]
      split
      · rfl
      · exact hp y (by simp [hy]))]
    congr 1
    simp only [castAll]
    congr 1
    funext r
    by_cases e : r ∈ xs
    · simp [e]
    · by_cases e2 : r = x <;> simp [e, e2, upd]

/-- The heap after a tier was built: `l` are the entries in order. -/
def tierBuilt (h : Heap) (t : TRef) (l : List Ref) (c s : CRef) (name : String) : Heap :=
  { h with
    cls := fun r => if r ∈ l then c else h.cls r
    fol := folOf l h.fol
    prev := prevOf none l h.prev
    intier := fun r => if r ∈ l then some t else h.intier r
    within := if h.ct.isSub s cTop then
        (fun r => if r ∈ l then some (.tier t) else h.within r) else h.within
    tname := upd h.tname t name
    tcls := upd h.tcls t c
    tsup := upd h.tsup t (some s)
    tsub := upd h.tsub t (h.ct.sub c)
    tseq := upd h.tseq t ⟨l, if l = [] then none else some c⟩
    tcont := if h.ct.isSub s cTop then upd h.tcont t .alias else h.tcont }

theorem upd_upd {α} (f : Nat → α) (k : Nat) (v w : α) : upd (upd f k v) k w = upd f k w := by
  funext i; simp only [upd]; split <;> rfl

theorem tierInit_ok (t : TRef) (entries : List Ref) (c s : CRef) (name : String) (h : Heap)
    (hcont : h.tcont t = .unset)
    (hci : h.ct.isSub c cPoint = false) (hs : h.ct.sup c = some s)
    (hp : ∀ x ∈ entries, h.isPoint x = false) (hnd : entries.Nodup)
    (hl : ∀ x ∈ entries, h.label x ≠ "#") :
    tierInit t entries c name h = .ok () (tierBuilt h t (slSort h entries) c s name) := by
  unfold tierInit
  mstep M.modify_apply _ h
  mstep (show replaceSeq t SL.empty _ = .ok () { h with
      tname := upd h.tname t name, tseq := upd h.tseq t SL.empty } by
    simp [replaceSeq, hcont, upd_eq_self _ _ _ hcont])
  mstep M.modify_apply _ _
  mstep forL_castAll c entries _ (by intro x hx; exact hci.trans (hp x hx).symm)
  have hmem : ∀ x, x ∈ slSort h entries ↔ x ∈ entries := fun x => (slSort_perm h entries).mem_iff
  have hcc : ∀ (h' : Heap), h'.cls = (fun r => if r ∈ entries then c else h.cls r) →
      ∀ x ∈ entries, h'.cls x = c := by
    intro h' e x hx; rw [e]; simp [hx]
  mstep slMk_cls _ h entries c (by intro x hx; simp [castAll, hx]) rfl
  generalize hL : slSort h entries = L at *
  have hLs : SortedByStart h L := hL ▸ slSort_sorted h entries
  have hLnd : L.Nodup := hL ▸ (slSort_perm h entries).nodup_iff.mpr hnd
  have hLl : ∀ x ∈ L, h.label x ≠ "#" := fun x hx => hl x ((hmem x).mp hx)
  have hfun : (fun r => if r ∈ entries then c else h.cls r) = fun r => if r ∈ L then c else h.cls r := by
    funext r; simp [hmem r]
  simp only [castAll, hs]
  rw [hfun]
  -- the setter
  unfold tierSetSeq
  mstep (show _ = Res.ok () (tierBuilt h t L c s name) by
    mstep M.get_apply _
    rw [if_neg (by simp [Heap.isPointTier, hci])]
    mstep slMk_cls _ h L c (by intro x hx; simp [hx]) rfl
    rw [slSort_of_sorted _ L hLs]
    mstep (show replaceSeq t ⟨L, if L = [] then none else some c⟩ _ = .ok () { h with
        cls := fun r => if r ∈ L then c else h.cls r
        tname := upd h.tname t name
        tcls := upd h.tcls t c
        tsup := upd h.tsup t (some s)
        tsub := upd h.tsub t (h.ct.sub c)
        tseq := upd h.tseq t ⟨L, if L = [] then none else some c⟩ } by
      simp [replaceSeq, hcont, upd_eq_self _ _ _ hcont, upd_upd])
    rw [tierPrecedence_ok t _ s (by simp [Heap.isPointTier, hci]) (by simp) (by simpa using hLnd)
      (by simp only [upd_same]; intro x hx y hy; simp [hx, hy])
      (by simpa using hLl)]
    simp [tierBuilt])
  rw [tierPrecedence_ok t (tierBuilt h t L c s name) s (by simp [Heap.isPointTier, tierBuilt, hci])
      (by simp [tierBuilt]) (by simpa [tierBuilt] using hLnd)
      (by simp only [tierBuilt, upd_same]; intro x hx y hy; simp [hx, hy])
      (by simpa [tierBuilt] using hLl)]
  congr 1
  simp only [tierBuilt, upd_same, folOf_idem, prevOf_idem]
  congr 1
  · funext r; split <;> simp_all
  · by_cases e : h.ct.isSub s cTop = true
    · simp only [e, if_true]; funext r; split <;> simp_all
    · simp only [e]; simp
  · by_cases e : h.ct.isSub s cTop = true
    · simp only [e, if_true, upd_upd]
    · simp only [e]; simp

end ATG
