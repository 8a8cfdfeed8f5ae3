import Verif.Lemmas.Aligned
/-!
# Running the relation of aligned tiers
-/
namespace ATG

theorem upd_comm {α} (f : Nat → α) (i j : Nat) (v w : α) (hij : i ≠ j) :
    upd (upd f i v) j w = upd (upd f j w) i v := by
  funext k; simp only [upd]; split <;> split <;> simp_all

theorem adoptAll_fresh (w : Ref) (l : List Ref) : ∀ h : Heap, l.Nodup → (∀ x ∈ l, h.sup x = none) →
    adoptAll w l h = .ok () { h with sup := fun r => if r ∈ l then some w else h.sup r } := by
  induction l with
  | nil => intro h _ _; simp [adoptAll]
  | cons x xs ih =>
    intro h hnd hs
    rw [List.nodup_cons] at hnd
    unfold adoptAll at ih ⊢
    rw [M.forL_cons]
    have hb : (do
        let h ← M.get
        if h.sup x = some w then pure ()
        else do
          removeSuperset x
          M.modify fun h => { h with sup := upd h.sup x (some w) } : M Unit) h =
        .ok () { h with sup := upd h.sup x (some w) } := by
      mstep M.get_apply h
      rw [if_neg (by rw [hs x (by simp)]; simp)]
      mstep removeSuperset_none x h (hs x (by simp))
      rfl
    rw [show _ = Res.ok () _ from hb]
    simp only []
    rw [ih _ hnd.2 (by
      intro y hy
      have : y ≠ x := fun e => hnd.1 (e ▸ hy)
      simp [upd, this]
      exact hs y (by simp [hy]))]
    congr 2
    funext r
    by_cases e : r ∈ xs
    · simp [e]
    · by_cases e2 : r = x <;> simp [e, e2, upd]

/-- the heap after a subset list of free entries was set -/
def related (h : Heap) (w : Ref) (l : List Ref) (ec : Option CRef) : Heap :=
  { h with
    subs := upd h.subs w ⟨l, ec⟩
    sup := fun r => if r ∈ l then some w else h.sup r
    within := fun r => if r ∈ l then some (.ival w) else h.within r
    cont := upd h.cont w .alias
    fol := folOf l h.fol
    prev := prevOf none l h.prev }

theorem setSubsetList_fresh (w : Ref) (l : List Ref) (h : Heap) (d : CRef)
    (hs : ∀ x ∈ l, h.sup x = none) (hso : SortedByStart h l)
    (hi : ∀ x ∈ l, ∃ c, h.ct.sub (h.cls w) = some c ∧ h.ct.isSub (h.cls x) c = true)
    (hd : ∀ x ∈ l, h.cls x = d) (hnd : l.Nodup) (hl : ∀ x ∈ l, h.label x ≠ "#") :
    setSubsetList w l h = .ok () (related h w l (if l = [] then none else some d)) := by
  unfold setSubsetList
  mstep allInst_ok w l h hi
  rw [if_pos rfl]
  mstep slMk_cls h h l d hd rfl
  rw [slSort_of_sorted h l hso]
  generalize (if l = [] then none else some d) = ec
  mstep (show putSubs w ⟨l, ec⟩ h = .ok () { h with subs := upd h.subs w ⟨l, ec⟩ } from rfl)
  mstep adoptAll_fresh w l { h with subs := upd h.subs w ⟨l, ec⟩ } hnd hs
  mstep setContainsSubs_ok w _
  mstep M.get_apply _
  simp only [upd_same]
  rw [setPrecedence_ok _ l hnd
    (by intro x hx y hy; show h.cls x = h.cls y; rw [hd x hx, hd y hy])
    (by intro x hx; exact hl x hx)]
  congr 1

theorem mkSlices_ok (h : Heap) (ls : List (List Ref)) (hso : ∀ l ∈ ls, SortedByStart h l)
    (hc : ∀ l ∈ ls, ∀ x ∈ l, ∀ y ∈ l, h.cls x = h.cls y) :
    mkSlices ls h = .ok (ls.map fun l => ⟨l, headCls h l⟩) h := by
  induction ls with
  | nil => rfl
  | cons l ls ih =>
    unfold mkSlices
    mstep slMk_ok h l (hc l (by simp))
    mstep ih (fun m hm => hso m (by simp [hm])) (fun m hm => hc m (by simp [hm]))
    rw [slSort_of_sorted h l (hso l (by simp))]
    rfl

theorem closeAllGaps_ok (h : Heap) (sls : List SL)
    (hg : ∀ s ∈ sls, gapPairs (s.vals.map h.start) (s.vals.map h.stop) = []) :
    closeAllGaps sls h = .ok sls h := by
  induction sls with
  | nil => rfl
  | cons s rest ih =>
    unfold closeAllGaps
    have h1 : closeGaps s h = .ok s h := by
      unfold closeGaps
      mstep M.get_apply h
      rw [hg s (by simp)]
      cases s.vals with
      | nil => rfl
      | cons x xs =>
        simp only []
        split <;> rfl
    mstep h1
    mstep ih (fun m hm => hg m (by simp [hm]))
    rfl

theorem relateOne_ok (delay : Bool) (lower : TRef) (u : Ref) (l : SL) (h h' : Heap)
    (e : setSubsetList u l.vals h = .ok () h') (hne : (h'.subs u).vals ≠ []) :
    relateOne lower false false delay u l h = .ok () h' := by
  unfold relateOne
  mstep e
  mstep M.get_apply h'
  rw [if_neg (by simpa using hne)]
  simp [M.bind_apply]

/-- what relating one upper interval after another achieves -/
structure Relates (h h' : Heap) (P : List (Ref × List Ref)) : Prop where
  frame : h' = { h with subs := h'.subs, sup := h'.sup, within := h'.within, cont := h'.cont,
                        fol := h'.fol, prev := h'.prev }
  subs : ∀ p ∈ P, (h'.subs p.1).vals = p.2
  linked : ∀ p ∈ P, DoublyLinked h' p.2
  sup : ∀ p ∈ P, ∀ x ∈ p.2, h'.sup x = some p.1 ∧ h'.within x = some (.ival p.1)
  otherUpper : ∀ v, (∀ p ∈ P, p.1 ≠ v) → h'.subs v = h.subs v ∧ h'.cont v = h.cont v
  otherLower : ∀ x, (∀ p ∈ P, x ∉ p.2) → h'.sup x = h.sup x ∧ h'.within x = h.within x ∧
    h'.fol x = h.fol x ∧ h'.prev x = h.prev x
  contains : ∀ p ∈ P, h'.cont p.1 = .alias
  typed : ∀ p ∈ P, ∀ x ∈ p.2, (h'.subs p.1).ecls = some (h.cls x)

theorem relates_nil (h : Heap) : Relates h h [] :=
  ⟨rfl, by simp, by simp, by simp, fun _ _ => ⟨rfl, rfl⟩, fun _ _ => ⟨rfl, rfl, rfl, rfl⟩, by simp, by simp⟩

theorem forL_relate (delay : Bool) (lower : TRef) (P : List (Ref × List Ref)) : ∀ h : Heap,
    (P.map (·.1)).Nodup → (P.map (·.2)).flatten.Nodup →
    (∀ p ∈ P, p.2 ≠ []) → (∀ p ∈ P, SortedByStart h p.2) →
    (∀ p ∈ P, ∀ x ∈ p.2, h.sup x = none ∧ h.label x ≠ "#" ∧
      ∃ c, h.ct.sub (h.cls p.1) = some c ∧ h.ct.isSub (h.cls x) c = true) →
    (∀ p ∈ P, ∀ x ∈ p.2, ∀ y ∈ p.2, h.cls x = h.cls y) →
    ∃ h', M.forL (P.map fun p => (p.1, (⟨p.2, headCls h p.2⟩ : SL)))
        (fun p => relateOne lower false false delay p.1 p.2) h = .ok () h' ∧ Relates h h' P := by
  induction P with
  | nil => intro h _ _ _ _ _ _; exact ⟨h, rfl, relates_nil h⟩
  | cons p P ih =>
    intro h hnu hnl hne hso hx hc
    obtain ⟨u, l⟩ := p
    have hln : l.Nodup := (List.nodup_append.mp hnl).1
    have hdis : ∀ q ∈ P, ∀ x ∈ q.2, x ∉ l := by
      intro q hq x hxq hxl
      have h3 := (List.nodup_append.mp hnl).2.2 x hxl x
      exact h3 (List.mem_flatten.mpr ⟨q.2, List.mem_map.mpr ⟨q, hq, rfl⟩, hxq⟩) rfl
    obtain ⟨x0, hx0⟩ : ∃ x0, x0 ∈ l := by
      cases l with
      | nil => exact absurd rfl (hne ([].map id |>.headD (u, [])) (by simp))
      | cons a as => exact ⟨a, by simp⟩
    have hl := hx (u, l) (by simp)
    have e1 := setSubsetList_fresh u l h (h.cls x0) (fun x hx => (hl x hx).1) (hso (u, l) (by simp))
      (fun x hx => (hl x hx).2.2) (fun x hx => hc (u, l) (by simp) x hx x0 hx0) hln
      (fun x hx => (hl x hx).2.1)
    generalize hec : (if l = [] then none else some (h.cls x0)) = ec at e1
    have e2 := relateOne_ok delay lower u ⟨l, headCls h l⟩ h _ e1 (by simp [related]; exact hne (u, l) (by simp))
    rw [List.map_cons, List.nodup_cons] at hnu
    have hnu1 : ∀ q ∈ P, q.1 ≠ u := fun q hq e => hnu.1 (e ▸ List.mem_map.mpr ⟨q, hq, rfl⟩)
    obtain ⟨h', e3, r⟩ := ih (related h u l ec) hnu.2 (List.nodup_append.mp hnl).2.1
      (fun q hq => hne q (by simp [hq])) (fun q hq => hso q (by simp [hq]))
      (by
        intro q hq x hxq
        have := hx q (by simp [hq]) x hxq
        refine ⟨?_, this.2⟩
        show (if x ∈ l then some u else h.sup x) = none
        rw [if_neg (hdis q hq x hxq)]; exact this.1)
      (fun q hq => hc q (by simp [hq]))
    refine ⟨h', ?_, ?_⟩
    · rw [List.map_cons, M.forL_cons]
      rw [e2]
      exact e3
    · constructor
      · rw [r.frame]; rfl
      · intro q hq
        rcases List.mem_cons.mp hq with rfl | hq
        · rw [(r.otherUpper u hnu1).1]; simp [related]
        · exact r.subs q hq
      · intro q hq
        rcases List.mem_cons.mp hq with rfl | hq
        · have : DoublyLinked (related h u l ec) l := linked_of _ _ hln h.fol h.prev rfl rfl
          apply this.congr
          · intro x hxl; exact (r.otherLower x (fun q hq hh => hdis q hq x hh hxl)).2.2.1
          · intro x hxl; exact (r.otherLower x (fun q hq hh => hdis q hq x hh hxl)).2.2.2
        · exact r.linked q hq
      · intro q hq
        rcases List.mem_cons.mp hq with rfl | hq
        · intro x hxl
          have := r.otherLower x (fun q hq hh => hdis q hq x hh hxl)
          rw [this.1, this.2.1]
          have hxl : x ∈ l := hxl
          simp [related, hxl]
        · exact r.sup q hq
      · intro v hv
        have h1 := r.otherUpper v (fun q hq => hv q (by simp [hq]))
        rw [h1.1, h1.2]
        have : v ≠ u := Ne.symm (hv (u, l) (by simp))
        simp [related, upd, this]
      · intro x hxn
        have h1 := r.otherLower x (fun q hq => hxn q (by simp [hq]))
        have h2 : x ∉ l := hxn (u, l) (by simp)
        rw [h1.1, h1.2.1, h1.2.2.1, h1.2.2.2]
        simp [related, h2, folOf, prevOf]
      · intro q hq
        rcases List.mem_cons.mp hq with rfl | hq
        · rw [(r.otherUpper u hnu1).2]; simp [related]
        · exact r.contains q hq
      · intro q hq x hxq
        rcases List.mem_cons.mp hq with rfl | hq
        · rw [(r.otherUpper u hnu1).1, ← hc (u, l) (by simp) x0 hx0 x hxq]
          simp only [related, upd_same, ← hec]
          rw [if_neg (List.ne_nil_of_mem hx0)]
        · exact r.typed q hq x hxq

end ATG
