import Verif.Lemmas.TierInit
import Verif.Lemmas.Clone
import Verif.Model.Points
/-!
# Building point tiers
-/
namespace ATG

/-- `__set_precedence` of a tier of points -/
theorem tierPrecedence_point (t : TRef) (h : Heap) (hpt : h.isPointTier t = true)
    (hnd : (h.tseq t).vals.Nodup)
    (hc : ∀ x ∈ (h.tseq t).vals, ∀ y ∈ (h.tseq t).vals, h.cls x = h.cls y)
    (hl : ∀ x ∈ (h.tseq t).vals, h.label x ≠ "#") :
    tierPrecedence t h = .ok () { h with
      fol := folOf (h.tseq t).vals h.fol
      prev := prevOf none (h.tseq t).vals h.prev
      intier := fun r => if r ∈ (h.tseq t).vals then some t else h.intier r
      tcont := upd h.tcont t .alias
      within := fun r => if r ∈ (h.tseq t).vals then some (.tier t) else h.within r } := by
  unfold tierPrecedence
  mstep M.get_apply _
  have hloop : precLoop (setIntier t) none (h.tseq t).vals h = .ok () (h.withFPI
      (folOf (h.tseq t).vals h.fol) (prevOf none (h.tseq t).vals h.prev)
      (fun r => if r ∈ (h.tseq t).vals then some t else h.intier r)) := by
    cases e : (h.tseq t).vals with
    | nil => simp [precLoop, Heap.withFPI]
    | cons a tl =>
      rw [← e]
      rw [precLoop_ok (setIntier t) (fun x it => upd it x (some t)) (fun x h => rfl) _ none h
        (h.cls a) hnd (fun x hx => hc x hx a (by simp [e])) hl (by simp)]
      rw [foldl_upd]
  mstep hloop
  simp only [hpt, if_true]
  rw [setContainsSeq_ok]

/-- one round of the loop of `SequencePointTier.__init__` -/
def pointStep (h : Heap) (acc : List Ref) (x : Ref) : List Ref :=
  if slContains h acc x then acc else insAt h acc x

/-- the points listed by the loop of `SequencePointTier.__init__` -/
def pointVals (h : Heap) (l acc : List Ref) : List Ref := l.foldl (pointStep h) acc

theorem pointStep_congr {h h' : Heap} (hs : h'.start = h.start) (he : h'.stop = h.stop)
    (hb : h'.label = h.label) (acc : List Ref) (x : Ref)
    (hp : ∀ y, y = x ∨ y ∈ acc → h'.isPoint y = h.isPoint y) :
    pointStep h' acc x = pointStep h acc x := by
  have e : slContains h' acc x = slContains h acc x := by
    unfold slContains
    congr 1
    have hall : ∀ y ∈ acc, (h'.tup y == h'.tup x) = (h.tup y == h.tup x) := by
      intro y hy
      simp only [Heap.tup, hs, he, hb, hp y (Or.inr hy), hp x (Or.inl rfl)]
    clear hp
    induction acc with
    | nil => rfl
    | cons a as ih =>
      simp only [List.any_cons]
      rw [hall a (by simp), ih fun y hy => hall y (by simp [hy])]
  unfold pointStep insAt
  rw [e, hs]

/-- the loop of `SequencePointTier.__init__` -/
theorem pointLoop_ok (t : TRef) (c : CRef) (l : List Ref) : ∀ (h : Heap),
    h.ct.isSub c cPoint = true → (∀ x ∈ l, h.isPoint x = true) →
    (∀ x ∈ (h.tseq t).vals, h.cls x = c) →
    (h.tseq t).ecls = (if (h.tseq t).vals = [] then none else some c) →
    M.forL l (fun x => do
      castTo c x
      let h ← M.get
      let sl ← slAppend (h.tseq t) x
      putSeq t sl) h = .ok () { h with
        cls := fun r => if r ∈ l then c else h.cls r
        tseq := upd h.tseq t ⟨pointVals h l (h.tseq t).vals,
          if pointVals h l (h.tseq t).vals = [] then none else some c⟩ } := by
  induction l with
  | nil =>
    intro h hc _ _ hecls
    have e : pointVals h [] (h.tseq t).vals = (h.tseq t).vals := rfl
    rw [e, ← hecls]
    simp [upd_eq_self]
  | cons x xs ih =>
    intro h hc hp hcl hecls
    have hxp : h.isPoint x = true := hp x (by simp)
    rw [M.forL_cons]
    -- the body
    have hcl' : ∀ y, upd h.cls x c y = c ∨ upd h.cls x c y = h.cls y := by
      intro y; simp only [upd]; split <;> simp
    have hstep : pointStep { h with cls := upd h.cls x c } (h.tseq t).vals x =
        pointStep h (h.tseq t).vals x := by
      apply pointStep_congr (h := h) (h' := { h with cls := upd h.cls x c }) rfl rfl rfl
      intro y hy
      simp only [Heap.isPoint, upd_apply]
      split
      · rename_i e
        subst e
        have := hp y (by simp)
        unfold Heap.isPoint at this
        rw [this, hc]
      · rfl
    have hbody : (do
        castTo c x
        let h ← M.get
        let sl ← slAppend (h.tseq t) x
        putSeq t sl) h = Res.ok () { h with
          cls := upd h.cls x c
          tseq := upd h.tseq t ⟨pointStep h (h.tseq t).vals x, some c⟩ } := by
      mstep castTo_ok c x h (hc.trans hxp.symm)
      mstep M.get_apply _
      by_cases hin : Listed { h with cls := upd h.cls x c } (h.tseq t).vals x
      · have hne : (h.tseq t).vals ≠ [] := by
          rintro e; unfold Listed at hin; simp [e] at hin
        mstep slAppend_old (h.tseq t) x _ hin
        have e1 : pointStep h (h.tseq t).vals x = (h.tseq t).vals := by
          rw [← hstep]; unfold pointStep
          rw [if_pos ((slContains_iff _ _ _).mpr hin)]
        rw [e1]
        rw [if_neg hne] at hecls
        have e2 : (⟨(h.tseq t).vals, some c⟩ : SL) = h.tseq t := by rw [← hecls]
        rw [e2]
        rfl
      · have e1 : pointStep h (h.tseq t).vals x = insAt h (h.tseq t).vals x := by
          rw [← hstep]; unfold pointStep
          rw [if_neg (by rw [(slContains_false_iff _ _ _).mpr hin]; simp)]
          rfl
        rw [e1]
        by_cases hv : (h.tseq t).vals = []
        · rw [if_pos hv] at hecls
          mstep slAppend_ok_none (h.tseq t) x _ hin hecls
          simp [putSeq, insAt]
        · rw [if_neg hv] at hecls
          mstep slAppend_ok (h.tseq t) x _ c hin hecls (by simp [isSub_refl])
            (by simp [Heap.isPoint])
          simp only [putSeq, M.modify_apply, upd_upd]
          rfl
    rw [show _ = Res.ok () _ from hbody]
    simp only []
    have hvp : pointStep h (h.tseq t).vals x ≠ [] := by
      unfold pointStep
      split
      · rename_i e; intro e2; rw [e2] at e; simp [slContains] at e
      · intro e2; have := (insAt_perm h (h.tseq t).vals x).length_eq; rw [e2] at this; simp at this
    have hmem : ∀ y ∈ pointStep h (h.tseq t).vals x, y = x ∨ y ∈ (h.tseq t).vals := by
      intro y hy
      unfold pointStep at hy
      split at hy
      · exact Or.inr hy
      · have := (insAt_perm h (h.tseq t).vals x).mem_iff.mp hy; simpa using this
    rw [ih { h with
        cls := upd h.cls x c
        tseq := upd h.tseq t ⟨pointStep h (h.tseq t).vals x, some c⟩ } hc (by
        intro y hy
        simp only [Heap.isPoint, upd_apply]
        split
        · exact hc
        · exact hp y (by simp [hy]))
      (by
        intro y hy
        simp only [upd_same] at hy
        simp only [upd_apply]
        split
        · rfl
        · rename_i e
          exact hcl y ((hmem y hy).resolve_left e))
      (by simp [upd_same, hvp])]
    simp only [upd_same, upd_upd]
    have e3 : pointVals { h with
          cls := upd h.cls x c
          tseq := upd h.tseq t ⟨pointStep h (h.tseq t).vals x, some c⟩ } xs
        (pointStep h (h.tseq t).vals x) = pointVals h (x :: xs) (h.tseq t).vals := by
      have key : ∀ (ys acc : List Ref), (∀ y ∈ ys, h.isPoint y = true) →
          pointVals { h with
            cls := upd h.cls x c
            tseq := upd h.tseq t ⟨pointStep h (h.tseq t).vals x, some c⟩ } ys acc =
          pointVals h ys acc := by
        intro ys
        induction ys with
        | nil => intro acc _; rfl
        | cons y ys ihy =>
          intro acc hy
          simp only [pointVals, List.foldl_cons]
          rw [pointStep_congr (h := h) (h' := { h with
              cls := upd h.cls x c
              tseq := upd h.tseq t ⟨pointStep h (h.tseq t).vals x, some c⟩ }) rfl rfl rfl acc y (by
            intro z _
            simp only [Heap.isPoint, upd_apply]
            split
            · rename_i e; subst e; unfold Heap.isPoint at hxp; rw [hxp, hc]
            · rfl)]
          exact ihy _ fun z hz => hy z (by simp [hz])
      rw [key xs _ fun y hy => hp y (by simp [hy])]
      rfl
    rw [e3]
    congr 2
    funext r
    by_cases e : r ∈ xs
    · simp [e]
    · by_cases e2 : r = x <;> simp [e, e2, upd]

theorem insAt_sorted (h : Heap) (l : List Ref) (x : Ref) (hs : SortedByStart h l)
    (hle : ∀ a ∈ l, h.start a ≤ h.start x) : SortedByStart h (insAt h l x) := by
  unfold insAt
  split
  · rw [insertIdx_takeWhile]; exact insBy_sorted h.start x l hs
  · exact List.pairwise_append.mpr ⟨hs, by simp, by simpa using hle⟩

theorem pointStep_mem (h : Heap) (acc : List Ref) (x y : Ref) (hy : y ∈ pointStep h acc x) :
    y = x ∨ y ∈ acc := by
  unfold pointStep at hy
  split at hy
  · exact Or.inr hy
  · have := (insAt_perm h acc x).mem_iff.mp hy; simpa using this

theorem pointStep_old (h : Heap) (acc : List Ref) (x y : Ref) (hy : y ∈ acc) :
    y ∈ pointStep h acc x := by
  unfold pointStep
  split
  · exact hy
  · exact (insAt_perm h acc x).mem_iff.mpr (by simp [hy])

theorem pointStep_listed (h : Heap) (acc : List Ref) (x : Ref) : Listed h (pointStep h acc x) x := by
  unfold pointStep
  split
  · rename_i e; exact (slContains_iff _ _ _).mp e
  · exact Or.inl ((insAt_perm h acc x).mem_iff.mpr (by simp))

theorem pointStep_sorted (h : Heap) (acc : List Ref) (x : Ref) (hs : SortedByStart h acc)
    (hle : ∀ a ∈ acc, h.start a ≤ h.start x) : SortedByStart h (pointStep h acc x) := by
  unfold pointStep
  split
  · exact hs
  · exact insAt_sorted h acc x hs hle

theorem SameValue.symm {h : Heap} {x y : Ref} (s : SameValue h x y) : SameValue h y x :=
  ⟨s.1.symm, s.2.1.symm, s.2.2.1.symm, s.2.2.2.symm⟩

theorem pointStep_distinct (h : Heap) (acc : List Ref) (x : Ref)
    (hd : acc.Pairwise fun a b => ¬ SameValue h a b) :
    (pointStep h acc x).Pairwise fun a b => ¬ SameValue h a b := by
  unfold pointStep
  split
  · exact hd
  · rename_i e
    have hn : ¬ Listed h acc x := (slContains_false_iff _ _ _).mp (by simpa using e)
    refine (insAt_perm h acc x).symm.pairwise ?_ (fun hab s => hab s.symm)
    exact List.pairwise_cons.mpr ⟨fun y hy s => hn (Or.inr ⟨y, hy, s.symm⟩), hd⟩

/-- what the loop of `SequencePointTier.__init__` leaves in the list -/
theorem pointVals_spec (h : Heap) (l : List Ref) : ∀ (acc : List Ref),
    SortedByStart h l → SortedByStart h acc → (∀ a ∈ acc, ∀ x ∈ l, h.start a ≤ h.start x) →
    (acc.Pairwise fun a b => ¬ SameValue h a b) →
    SortedByStart h (pointVals h l acc) ∧
    ((pointVals h l acc).Pairwise fun a b => ¬ SameValue h a b) ∧
    (∀ y ∈ pointVals h l acc, y ∈ acc ∨ y ∈ l) ∧
    (∀ y ∈ acc, y ∈ pointVals h l acc) ∧
    (∀ x ∈ l, Listed h (pointVals h l acc) x) := by
  induction l with
  | nil => intro acc _ hs _ hd; exact ⟨hs, hd, fun y hy => Or.inl hy, fun y hy => hy, by simp⟩
  | cons x xs ih =>
    intro acc hl hs hle hd
    have hl' := List.pairwise_cons.mp hl
    obtain ⟨h1, h2, h3, h4, h5⟩ := ih (pointStep h acc x) hl'.2
      (pointStep_sorted h acc x hs fun a ha => hle a ha x (by simp))
      (by
        intro a ha y hy
        rcases pointStep_mem h acc x a ha with rfl | ha
        · exact hl'.1 y hy
        · exact hle a ha y (by simp [hy]))
      (pointStep_distinct h acc x hd)
    refine ⟨h1, h2, ?_, ?_, ?_⟩
    · intro y hy
      rcases h3 y hy with hy | hy
      · rcases pointStep_mem h acc x y hy with rfl | hy
        · simp
        · exact Or.inl hy
      · simp [hy]
    · intro y hy; exact h4 y (pointStep_old h acc x y hy)
    · intro y hy
      rcases List.mem_cons.mp hy with rfl | hy
      · rcases pointStep_listed h acc y with hm | ⟨z, hz, s⟩
        · exact Or.inl (h4 y hm)
        · exact Or.inr ⟨z, h4 z hz, s⟩
      · exact h5 y hy

theorem nodup_of_distinct (h : Heap) (l : List Ref) (hd : l.Pairwise fun a b => ¬ SameValue h a b) :
    l.Nodup := hd.imp (by intro a b hn e; subst e; exact hn (SameValue.refl h a))

/-- The heap after a point tier was built: `l` are its points in order. -/
def pointTierBuilt (h : Heap) (t : TRef) (entries l : List Ref) (c : CRef) (name : String) : Heap :=
  { h with
    cls := fun r => if r ∈ entries then c else h.cls r
    fol := folOf l h.fol
    prev := prevOf none l h.prev
    intier := fun r => if r ∈ l then some t else h.intier r
    within := fun r => if r ∈ l then some (.tier t) else h.within r
    tname := upd h.tname t name
    tcls := upd h.tcls t c
    tseq := upd h.tseq t ⟨l, if l = [] then none else some c⟩
    tcont := upd h.tcont t .alias }

theorem pointTierInit_ok (t : TRef) (entries : List Ref) (c : CRef) (name : String) (h : Heap)
    (hcont : h.tcont t = .unset) (hci : h.ct.isSub c cPoint = true)
    (hp : ∀ x ∈ entries, h.isPoint x = true) (hl : ∀ x ∈ entries, h.label x ≠ "#") :
    pointTierInit t entries c name h = .ok ()
      (pointTierBuilt h t entries (pointVals h (sortBy h.start entries) []) c name) := by
  have hmem : ∀ x, x ∈ sortBy h.start entries ↔ x ∈ entries := fun x => (sortBy_perm _ _).mem_iff
  obtain ⟨s1, s2, s3, s4, s5⟩ := pointVals_spec h (sortBy h.start entries) []
    (sortBy_sorted _ _) (by simp [SortedByStart]) (by simp) (by simp)
  have hsub : ∀ y ∈ pointVals h (sortBy h.start entries) [], y ∈ entries := fun y hy =>
    (hmem y).mp ((s3 y hy).resolve_left (by simp))
  unfold pointTierInit
  mstep M.modify_apply _ h
  mstep M.get_apply _
  rw [if_pos (by exact List.all_eq_true.mpr hp)]
  mstep (show replaceSeq t SL.empty _ = .ok () { h with
      tcls := upd h.tcls t c, tname := upd h.tname t name, tseq := upd h.tseq t SL.empty } by
    simp [replaceSeq, hcont, upd_eq_self _ _ _ hcont])
  mstep pointLoop_ok t c (sortBy h.start entries) { h with
      tcls := upd h.tcls t c, tname := upd h.tname t name, tseq := upd h.tseq t SL.empty } hci
    (by intro x hx; exact hp x ((hmem x).mp hx))
    (by simp [SL.empty]) (by simp [SL.empty])
  have hv : pointVals { h with
        tcls := upd h.tcls t c, tname := upd h.tname t name, tseq := upd h.tseq t ⟨[], none⟩ }
      (sortBy h.start entries) [] = pointVals h (sortBy h.start entries) [] := rfl
  simp only [upd_same, SL.empty, hv, upd_upd]
  generalize pointVals h (sortBy h.start entries) [] = L at *
  rw [tierPrecedence_point t _ (by simp [Heap.isPointTier, hci])
    (by simp only [upd_same]; exact nodup_of_distinct h L s2)
    (by
      intro x hx y hy
      simp only [upd_same] at hx hy
      simp [hmem, hsub x hx, hsub y hy])
    (by intro x hx; simp only [upd_same] at hx; exact hl x (hsub x hx))]
  simp only [upd_same, pointTierBuilt, hmem]

end ATG
