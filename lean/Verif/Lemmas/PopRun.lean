import Verif.Lemmas.GroupApart
import Verif.Lemmas.AlignedTrans
import Verif.Lemmas.InterleaveRun
import Verif.Model.Textgrid
/-!
# Popping a tier from one group
-/
namespace ATG

/-- what `x.subset_list = []; x.contains = []` for all `x` of `xs` does -/
structure Strips (h h' : Heap) (xs : List Ref) : Prop where
  frame : h' = { h with subs := h'.subs, sup := h'.sup, within := h'.within, cont := h'.cont }
  subs : ∀ v, h'.subs v = if v ∈ xs then SL.empty else h.subs v
  cont : ∀ v, h'.cont v = if v ∈ xs then .detached [] else h.cont v
  freed : ∀ w ∈ xs, ∀ x ∈ (h.subs w).vals, h'.sup x = none
  kept : ∀ x, (∀ w ∈ xs, x ∉ (h.subs w).vals) → h'.sup x = h.sup x ∧ h'.within x = h.within x

theorem forL_drop (w : Ref) : ∀ (l : List Ref) (h : Heap), h.subs w = SL.empty →
    (∀ x ∈ l, h.sup x = some w ∨ h.sup x = none ∧ h.within x = none) →
    M.forL l (fun o => do
      let h ← M.get
      if slContains h (h.subs w).vals o then pure () else removeSuperset o) h =
      .ok () { h with sup := fun r => if r ∈ l then none else h.sup r,
                      within := fun r => if r ∈ l then none else h.within r }
  | [], h, _, _ => by simp [M.forL]
  | o :: l, h, hw, hs => by
    have e : (do
        let h ← M.get
        if slContains h (h.subs w).vals o then pure () else removeSuperset o : M Unit) h =
        .ok () { h with sup := upd h.sup o none, within := upd h.within o none } := by
      mstep M.get_apply h
      rw [hw]
      show (if slContains h [] o then pure () else removeSuperset o) h = _
      rw [show slContains h [] o = false by simp [slContains]]
      simp only [Bool.false_eq_true, if_false]
      rcases hs o (by simp) with q | ⟨q1, q2⟩
      · have hsl : slContains h (h.subs w).vals o = false := by rw [hw]; simp [slContains, SL.empty]
        unfold removeSuperset
        rw [q]
        simp only [removeFuel]
        unfold removeSupersetN
        mstep M.get_apply h
        simp only [q, hsl, Bool.false_eq_true, if_false]
        rfl
      · rw [removeSuperset_none o h q1]
        have e1 : upd h.sup o none = h.sup := by funext r; by_cases e : r = o <;> simp [upd, e, q1]
        have e2 : upd h.within o none = h.within := by funext r; by_cases e : r = o <;> simp [upd, e, q2]
        rw [e1, e2]
    rw [M.forL_cons, e]
    simp only
    have ih := forL_drop w l { h with sup := upd h.sup o none, within := upd h.within o none } hw (by
      intro x hx
      by_cases e : x = o
      · exact Or.inr ⟨by simp [e], by simp [e]⟩
      · simp only [upd_ne _ _ _ _ e]; exact hs x (by simp [hx]))
    refine ih.trans ?_
    congr 2
    · funext r; by_cases e1 : r ∈ l <;> by_cases e2 : r = o <;> simp [e1, e2, upd]
    · funext r; by_cases e1 : r ∈ l <;> by_cases e2 : r = o <;> simp [e1, e2, upd]

/-- the heap after `w.subset_list = []; w.contains = []` -/
def stripped (h : Heap) (w : Ref) : Heap :=
  { h with
    subs := upd h.subs w SL.empty
    cont := upd h.cont w (.detached [])
    sup := fun r => if r ∈ (h.subs w).vals then none else h.sup r
    within := fun r => if r ∈ (h.subs w).vals then none else h.within r }

theorem setSubs_nil (w : Ref) (h : Heap) (hd : ∀ x ∈ (h.subs w).vals, h.sup x = some w) :
    (do
      setSubs w []
      M.modify fun h => { h with cont := upd h.cont w (.detached []) } : M Unit) h = .ok () (stripped h w) := by
  have e : setSubs w [] h = .ok () { stripped h w with cont := upd h.cont w .alias } := by
    unfold setSubs
    mstep M.get_apply h
    mstep (show slMk [] h = .ok SL.empty h from rfl)
    have e1 : setSubsetList w SL.empty.vals h = .ok () { h with subs := upd h.subs w SL.empty, cont := upd h.cont w .alias } := by
      unfold setSubsetList
      mstep (show allInst w SL.empty.vals h = .ok true h from rfl)
      rw [if_pos rfl]
      mstep (show slMk SL.empty.vals h = .ok SL.empty h from rfl)
      mstep (show putSubs w SL.empty h = .ok () { h with subs := upd h.subs w SL.empty } from rfl)
      mstep (show adoptAll w SL.empty.vals _ = .ok () _ from rfl)
      have e2 : setContainsSubs w { h with subs := upd h.subs w SL.empty } =
          .ok () { h with subs := upd h.subs w SL.empty, cont := upd h.cont w .alias } := by
        unfold setContainsSubs
        mstep M.modify_apply _ _
        mstep M.get_apply _
        show M.forL ((upd h.subs w SL.empty) w).vals _ _ = _
        rw [upd_same]
        rfl
      mstep e2
      mstep M.get_apply _
      show setPrecedence ((upd h.subs w SL.empty) w).vals _ = _
      rw [upd_same]
      rfl
    mstep e1
    refine (forL_drop w (h.subs w).vals { h with subs := upd h.subs w SL.empty, cont := upd h.cont w .alias }
      (upd_same _ _ _) (fun x hx => Or.inl (hd x hx))).trans ?_
    rfl
  mstep e
  rw [M.modify_apply]
  simp only [stripped, upd_upd]

theorem forL_strip : ∀ (xs : List Ref) (h : Heap), (∀ v x, x ∈ (h.subs v).vals → h.sup x = some v) →
    ∃ h', M.forL xs (fun x => do
      setSubs x []
      M.modify fun h => { h with cont := upd h.cont x (.detached []) }) h = .ok () h' ∧ Strips h h' xs
  | [], h, _ => ⟨h, rfl, rfl, by simp, by simp, by simp, fun _ _ => ⟨rfl, rfl⟩⟩
  | w :: xs, h, hd => by
    have hd1 : ∀ v x, x ∈ ((stripped h w).subs v).vals → (stripped h w).sup x = some v := by
      intro v x hx
      by_cases e : v = w
      · subst e; simp [stripped, SL.empty] at hx
      · simp only [stripped] at hx ⊢
        rw [upd_ne _ _ _ _ e] at hx
        have h1 := hd v x hx
        rw [if_neg]
        · exact h1
        · intro h2
          rw [hd w x h2] at h1
          exact e (Option.some.inj h1).symm
    obtain ⟨h', e', s⟩ := forL_strip xs (stripped h w) hd1
    refine ⟨h', ?_, ?_⟩
    · rw [M.forL_cons]
      rw [show _ = Res.ok () _ from setSubs_nil w h (hd w)]
      exact e'
    · have hsv : ∀ v, v ≠ w → (stripped h w).subs v = h.subs v := fun v hv => by
        simp only [stripped]; exact upd_ne _ _ _ _ hv
      refine ⟨by rw [s.frame]; rfl, ?_, ?_, ?_, ?_⟩
      · intro v
        rw [s.subs]
        by_cases e1 : v ∈ xs
        · simp [e1]
        · by_cases e2 : v = w
          · subst e2; simp [e1, stripped]
          · simp [e1, e2, hsv v e2]
      · intro v
        rw [s.cont]
        by_cases e1 : v ∈ xs
        · simp [e1]
        · by_cases e2 : v = w
          · subst e2; simp [e1, stripped]
          · simp only [e1, if_false, List.mem_cons, e2, or_self, stripped]; exact upd_ne _ _ _ _ e2
      · have hnone : ∀ x, (stripped h w).sup x = none → h'.sup x = none := by
          intro x hx
          rw [(s.kept x (by
            intro v _ hh
            have := hd1 v x hh
            rw [hx] at this
            cases this)).1]
          exact hx
        intro v hv x hx
        by_cases e2 : v = w
        · subst e2
          exact hnone x (by simp [stripped, hx])
        · have hv : v ∈ xs := by simpa [e2] using hv
          exact s.freed v hv x (by rw [hsv v e2]; exact hx)
      · intro x hx
        have hxw : x ∉ (h.subs w).vals := hx w (by simp)
        obtain ⟨k1, k2⟩ := s.kept x (by
          intro v hv hh
          by_cases e2 : v = w
          · subst e2; simp [stripped, SL.empty] at hh
          · rw [hsv v e2] at hh
            exact hx v (by simp [hv]) hh)
        rw [k1, k2]
        simp [stripped, hxw]

end ATG
