import Verif.Lemmas.Adopt
/-!
# Assigning a subset list
-/
namespace ATG

/-- the heap after `w.set_subset_list(S)` for a sorted `S` -/
def settled (h : Heap) (w : Ref) (S : List Ref) (ec : Option CRef) (f p : Ref → Option Link) : Heap :=
  { h with
    subs := fun v => if v = w then ⟨S, ec⟩ else ⟨(h.subs v).vals.filter (· ∉ S), (h.subs v).ecls⟩
    sup := fun r => if r ∈ S then some w else h.sup r
    within := fun r => if r ∈ S then some (.ival w) else h.within r
    cont := upd h.cont w .alias
    fol := folOf S f
    prev := prevOf none S p }

theorem allInst_ok (w : Ref) (l : List Ref) (h : Heap)
    (hl : ∀ x ∈ l, ∃ c, h.ct.sub (h.cls w) = some c ∧ h.ct.isSub (h.cls x) c = true) :
    allInst w l h = .ok true h := by
  unfold allInst
  mstep M.get_apply h
  cases l with
  | nil => rfl
  | cons x xs =>
    obtain ⟨c, hc, _⟩ := hl x (by simp)
    simp only [hc]
    have hl : ∀ z ∈ x :: xs, h.ct.isSub (h.cls z) c = true := by
      intro y hy
      obtain ⟨c', hc', h'⟩ := hl y hy
      rw [hc] at hc'; cases hc'; exact h'
    have : (x :: xs).all (fun x => h.ct.isSub (h.cls x) c) = true := by
      rw [List.all_eq_true]; exact hl
    rw [this]; rfl

theorem AgreeX.putSubs {U : Ref → Prop} {h : Heap} {w : Ref} (ax : AgreeX U h w) (sl : SL) :
    AgreeX U { h with subs := upd h.subs w sl } w := by
  refine ⟨?_, ?_, ?_⟩
  · intro v hv x; simp only [upd_ne _ _ _ _ hv]; exact ax.down v hv x
  · intro v hv x; simp only [upd_ne _ _ _ _ hv]; exact ax.up v hv x
  · intro v hv
    simp only [upd_ne _ _ _ _ hv]
    exact (ax.good v hv).congr rfl rfl rfl rfl rfl

theorem setSubsetList_ok {U : Ref → Prop} (w : Ref) (l : List Ref) (h : Heap) (d : CRef) (ax : AgreeX U h w) (hU : ∀ x ∈ l, U x)
    (hi : ∀ x ∈ l, ∃ c, h.ct.sub (h.cls w) = some c ∧ h.ct.isSub (h.cls x) c = true)
    (hd : ∀ x ∈ l, h.cls x = d) (hnd : l.Nodup) (hl : ∀ x ∈ l, h.label x ≠ "#") :
    ∃ f p, setSubsetList w l h =
        .ok () (settled h w (slSort h l) (if l = [] then none else some d) f p) ∧
      (∀ v, v ≠ w → (DoublyLinked h (h.subs v).vals ∨ ∃ x ∈ l, x ∈ (h.subs v).vals) →
        DoublyLinked (settled h w (slSort h l) (if l = [] then none else some d) f p)
          ((h.subs v).vals.filter (· ∉ l))) ∧
      DoublyLinked (settled h w (slSort h l) (if l = [] then none else some d) f p) (slSort h l) ∧
      (∀ r, Aside h w l r → f r = h.fol r ∧ p r = h.prev r) := by
  have hmem : ∀ x, x ∈ slSort h l ↔ x ∈ l := fun x => (slSort_perm h l).mem_iff
  generalize hec : (if l = [] then none else some d) = ec
  have hmk : slMk l h = .ok ⟨slSort h l, ec⟩ h := by rw [slMk_cls h h l d hd rfl, hec]
  generalize hS : slSort h l = S at *
  obtain ⟨f, p, hrun, hlink, hkeep⟩ := adoptAll_ok w l hU _ (ax.putSubs ⟨S, ec⟩)
  have hSnd : S.Nodup := hS ▸ (slSort_perm h l).nodup_iff.mpr hnd
  have hfin : setSubsetList w l h = .ok () (settled h w S ec f p) := by
    unfold setSubsetList
    mstep allInst_ok w l h hi
    rw [if_pos rfl]
    mstep hmk
    mstep (show putSubs w _ h = .ok () { h with subs := upd h.subs w ⟨S, ec⟩ } from rfl)
    mstep hrun
    mstep setContainsSubs_ok w _
    mstep M.get_apply _
    have e : (adopted { h with subs := upd h.subs w ⟨S, ec⟩ } w l f p).subs w = ⟨S, ec⟩ := by
      simp [adopted, adoptedSubs]
    rw [e]
    rw [setPrecedence_ok _ S hSnd
      (by intro x hx y hy; show h.cls x = h.cls y; rw [hd x ((hmem x).mp hx), hd y ((hmem y).mp hy)])
      (by intro x hx; exact hl x ((hmem x).mp hx))]
    congr 1
    have e1 : (adopted { h with subs := upd h.subs w ⟨S, ec⟩ } w l f p).subs = fun v =>
        if v = w then ⟨S, ec⟩ else ⟨(h.subs v).vals.filter (· ∉ S), (h.subs v).ecls⟩ := by
      funext v
      simp only [adopted, adoptedSubs]
      by_cases e : v = w
      · simp [e]
      · simp [e, upd, hmem]
    have e2 : (adopted { h with subs := upd h.subs w ⟨S, ec⟩ } w l f p).sup =
        fun r => if r ∈ S then some w else h.sup r := by
      funext r; simp [adopted, hmem]
    have e3 : (fun r => if r ∈ S then some (Owner.ival w) else
          (adopted { h with subs := upd h.subs w ⟨S, ec⟩ } w l f p).within r) =
        fun r => if r ∈ S then some (Owner.ival w) else h.within r := by
      funext r
      by_cases hr : r ∈ S
      · simp [hr]
      · have hr' : r ∉ l := fun q => hr ((hmem r).mpr q)
        simp [hr, adopted, hr']
    simp only [settled, e1, e2, e3]
    rfl
  refine ⟨f, p, hfin, ?_, linked_of _ _ hSnd f p rfl rfl, ?_⟩
  · intro v hv hh
    have h1 := hlink v hv (by
      simp only [upd_ne _ _ _ _ hv]
      rcases hh with hh | hh
      · exact Or.inl (hh.congr (fun _ _ => rfl) (fun _ _ => rfl))
      · exact Or.inr hh)
    simp only [upd_ne _ _ _ _ hv] at h1
    apply h1.congr
    · intro x hx
      have : x ∉ S := by
        rw [hmem]; simpa using (List.mem_filter.mp hx).2
      simp [settled, folOf, this, adopted]
    · intro x hx
      have : x ∉ S := by
        rw [hmem]; simpa using (List.mem_filter.mp hx).2
      simp [settled, prevOf, this, adopted]
  · intro r hr
    refine hkeep r (fun v hv hz => ?_)
    simp only [upd_ne _ _ _ _ hv] at hz ⊢
    exact hr v hv hz

/-- the heap after `w.subset_list = S` for a sorted `S` -/
def assigned (h : Heap) (w : Ref) (S : List Ref) (ec : Option CRef) (f p : Ref → Option Link) : Heap :=
  { settled h w S ec f p with
    sup := fun r => if r ∈ S then some w else if r ∈ (h.subs w).vals then none else h.sup r
    within := fun r => if r ∈ S then some (.ival w) else
      if r ∈ (h.subs w).vals then none else h.within r }

theorem setSubs_ok {U : Ref → Prop} (w : Ref) (l : List Ref) (h : Heap) (d : CRef) (ax : AgreeX U h w) (hU : ∀ x ∈ l, U x)
    (hw : ∀ x ∈ (h.subs w).vals, h.sup x = some w)
    (hdist : ∀ x ∈ (h.subs w).vals, ∀ y ∈ l, SameValue h y x → y = x)
    (hi : ∀ x ∈ l, ∃ c, h.ct.sub (h.cls w) = some c ∧ h.ct.isSub (h.cls x) c = true)
    (hd : ∀ x ∈ l, h.cls x = d) (hnd : l.Nodup) (hl : ∀ x ∈ l, h.label x ≠ "#") :
    ∃ f p, setSubs w l h =
        .ok () (assigned h w (slSort h l) (if l = [] then none else some d) f p) ∧
      (∀ v, v ≠ w → (DoublyLinked h (h.subs v).vals ∨ ∃ x ∈ l, x ∈ (h.subs v).vals) →
        DoublyLinked (assigned h w (slSort h l) (if l = [] then none else some d) f p)
          ((h.subs v).vals.filter (· ∉ l))) ∧
      DoublyLinked (assigned h w (slSort h l) (if l = [] then none else some d) f p) (slSort h l) ∧
      (∀ r, Aside h w l r → f r = h.fol r ∧ p r = h.prev r) := by
  have hmem : ∀ x, x ∈ slSort h l ↔ x ∈ l := fun x => (slSort_perm h l).mem_iff
  obtain ⟨f, p, hrun, hlink, hlinkS, hkeep⟩ := setSubsetList_ok w (slSort h l) h d ax (fun x hx => hU x ((hmem x).mp hx))
    (fun x hx => hi x ((hmem x).mp hx)) (fun x hx => hd x ((hmem x).mp hx))
    ((slSort_perm h l).nodup_iff.mpr hnd) (fun x hx => hl x ((hmem x).mp hx))
  have hec : (if slSort h l = [] then none else some d) = (if l = [] then none else some d) := by
    have : slSort h l = [] ↔ l = [] := by
      constructor
      · intro e; have := slSort_perm h l; rw [e] at this; exact this.symm.eq_nil
      · intro e; have := slSort_perm h l; rw [e] at this ⊢; exact this.eq_nil
    simp [this]
  rw [slSort_of_sorted h _ (slSort_sorted h l), hec] at hrun hlink hlinkS
  have hfil : ∀ v, (h.subs v).vals.filter (· ∉ slSort h l) = (h.subs v).vals.filter (· ∉ l) := by
    intro v; congr 1; funext x; simp [hmem]
  generalize hS : slSort h l = S at *
  generalize hec' : (if l = [] then none else some d) = ec at *
  -- dropping the old elements
  have hloop : ∀ (o : List Ref) (h1 : Heap),
      (∀ r ∈ o, r ∉ S → h1.sup r = some w ∨ h1.sup r = none) → h1.subs w = ⟨S, ec⟩ →
      (∀ x ∈ o, ∀ y ∈ S, SameValue h1 y x → y = x) →
      (∀ r ∈ o, r ∉ S → h1.sup r = none → h1.within r = none) →
      M.forL o (fun o => do
        let h ← M.get
        if slContains h (h.subs w).vals o then pure () else removeSuperset o) h1 =
      .ok () { h1 with
        sup := fun r => if r ∈ S then h1.sup r else if r ∈ o then none else h1.sup r
        within := fun r => if r ∈ S then h1.within r else if r ∈ o then none else h1.within r } := by
    intro o
    induction o with
    | nil => intro h1 _ _ _ _; simp
    | cons x xs ih =>
      intro h1 hs1 hsub1 hdist1 hwn
      rw [M.forL_cons]
      have hbody : (do
          let h ← M.get
          if slContains h (h.subs w).vals x then pure () else removeSuperset x : M Unit) h1 =
          .ok () (if x ∈ S then h1 else forgot h1 x) := by
        mstep M.get_apply h1
        rw [hsub1]
        have hL := listed_iff_mem h1 S x (hdist1 x (by simp))
        by_cases e : x ∈ S
        · rw [if_pos ((slContains_iff h1 S x).mpr (hL.mpr e)), if_pos e]; rfl
        · rw [if_neg (by rw [slContains_iff, hL]; exact e), if_neg e]
          rcases hs1 x (by simp) e with a | a
          · exact removeSuperset_forgot x w h1 a (by rw [hsub1, hL]; exact e)
          · rw [removeSuperset_none x h1 a]
            have := hwn x (by simp) e a
            simp [forgot, upd_eq_self _ _ _ a, upd_eq_self _ _ _ this]
      rw [show _ = Res.ok () (if x ∈ S then h1 else forgot h1 x) from hbody]
      simp only []
      by_cases e : x ∈ S
      · rw [if_pos e, ih h1 (fun r hr => hs1 r (by simp [hr])) hsub1
          (fun y hy => hdist1 y (by simp [hy])) (fun r hr => hwn r (by simp [hr]))]
        congr 2
        · funext r
          by_cases a : r ∈ S
          · simp [a]
          · have : r ≠ x := fun q => a (q ▸ e)
            simp [a, this]
        · funext r
          by_cases a : r ∈ S
          · simp [a]
          · have : r ≠ x := fun q => a (q ▸ e)
            simp [a, this]
      · rw [if_neg e, ih (forgot h1 x) (by
          intro r hr hrS
          simp only [forgot, upd]
          by_cases q : r = x
          · simp [q]
          · simp only [q, if_false]; exact hs1 r (by simp [hr]) hrS) hsub1
          (fun y hy => hdist1 y (by simp [hy])) (by
            intro r hr hrS
            simp only [forgot, upd]
            by_cases q : r = x
            · simp [q]
            · simp only [q, if_false]; exact hwn r (by simp [hr]) hrS)]
        simp only [forgot]
        congr 2
        · funext r
          by_cases a : r ∈ S
          · have : r ≠ x := fun q => e (q ▸ a)
            simp [a, upd, this]
          · by_cases q : r = x
            · simp [e, q, upd]
            · simp [a, q, upd]
        · funext r
          by_cases a : r ∈ S
          · have : r ≠ x := fun q => e (q ▸ a)
            simp [a, upd, this]
          · by_cases q : r = x
            · simp [e, q, upd]
            · simp [a, q, upd]
  have hfin : setSubs w l h = .ok () (assigned h w S ec f p) := by
    unfold setSubs
    mstep M.get_apply h
    mstep (show slMk l h = .ok ⟨S, ec⟩ h by rw [slMk_cls h h l d hd rfl, hS, hec'])
    mstep hrun
    rw [hloop (h.subs w).vals (settled h w S ec f p) (by
        intro r hr hrS
        left
        simp [settled, hrS, hw r hr]) (by simp [settled])
      (by
        intro x hx y hy hs
        exact hdist x hx y ((hmem y).mp hy) hs)
      (by
        intro r hr hrS e
        simp [settled, hrS, hw r hr] at e)]
    congr 1
    simp only [assigned, settled]
    congr 1
    · funext r
      by_cases a : r ∈ S <;> simp [a]
    · funext r
      by_cases a : r ∈ S <;> simp [a]
  refine ⟨f, p, hfin, ?_, ?_, fun r hr => hkeep r fun v hv ⟨z, hz, hz2⟩ => hr v hv ⟨z, (hmem z).mp hz, hz2⟩⟩
  · intro v hv hh
    rw [← hfil]
    have := hlink v hv (by
      rcases hh with hh | ⟨x, hx, hxv⟩
      · exact Or.inl hh
      · exact Or.inr ⟨x, (hmem x).mpr hx, hxv⟩)
    exact this.congr (fun _ _ => rfl) (fun _ _ => rfl)
  · exact hlinkS.congr (fun _ _ => rfl) (fun _ _ => rfl)

end ATG
