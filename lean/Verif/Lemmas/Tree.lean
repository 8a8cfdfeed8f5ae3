import Verif.Lemmas.SetSubs
import Verif.Spec.History
/-!
# The invariant of histories
-/
namespace ATG

/-- What holds after every history. -/
structure Inv (V : List CRef) (h : Heap) : Prop where
  agree : ∀ w x, x ∈ (h.subs w).vals ↔ h.sup x = some w
  nodup : ∀ w, (h.subs w).vals.Nodup
  alloc : ∀ w x, h.sup x = some w → x < h.nE ∧ w < h.nE
  typed : ∀ w x, h.sup x = some w → h.ct.sub (h.cls w) = some (h.cls x)
  ecls : ∀ w, (h.subs w).ecls = none ∧ (h.subs w).vals = [] ∨
    ∃ d, (h.subs w).ecls = some d ∧ (w < h.nE → h.ct.sub (h.cls w) = some d)
  vcls : ∀ x < h.nE, h.cls x ∈ V
  label : ∀ x < h.nE, h.label x ≠ "#"
  distinct : ∀ x < h.nE, ∀ y < h.nE, SameValue h x y → x = y
  intier : ∀ x, h.intier x = none
  flat : Flat h.ct V

def LinkedAll (h : Heap) : Prop := ∀ w, DoublyLinked h (h.subs w).vals

theorem isSub_refl (ct : ClassTab) (c : CRef) : ct.isSub c c = true := by
  unfold ClassTab.isSub; cases c <;> simp [ClassTab.isSubN]

namespace Inv
variable {V : List CRef} {h : Heap}

theorem good (i : Inv V h) (w : Ref) : GoodList h (h.subs w).vals := by
  have ha : ∀ x ∈ (h.subs w).vals, x < h.nE := fun x hx => (i.alloc w x ((i.agree w x).mp hx)).1
  refine ⟨i.nodup w, fun x hx y hy => i.distinct x (ha x hx) y (ha y hy), ?_, fun x hx => i.label x (ha x hx)⟩
  intro x hx y hy
  have h1 := i.typed w x ((i.agree w x).mp hx)
  have h2 := i.typed w y ((i.agree w y).mp hy)
  rw [h1] at h2; exact Option.some.inj h2

theorem agreeX (i : Inv V h) (w : Ref) : AgreeX (fun _ => True) h w :=
  ⟨fun v _ x => (i.agree v x).mp, fun v _ x _ => (i.agree v x).mpr, fun v _ => i.good v⟩

theorem listed (i : Inv V h) (w x : Ref) (hx : x < h.nE) :
    Listed h (h.subs w).vals x ↔ x ∈ (h.subs w).vals :=
  listed_iff_mem h _ x fun y hy hs =>
    i.distinct y (i.alloc w y ((i.agree w y).mp hy)).1 x hx hs

theorem removed (i : Inv V h) (w x : Ref) (hx : x ∈ (h.subs w).vals) (f p : Ref → Option Link) :
    Inv V { removed h w x with fol := f, prev := p } := by
  have hs := (i.agree w x).mp hx
  have hsub : ∀ v, (if v = w then (⟨(h.subs w).vals.erase x, (h.subs w).ecls⟩ : SL) else h.subs v).vals =
      (h.subs v).vals.filter (· ≠ x) := by
    intro v
    by_cases e : v = w
    · subst e; simp only [if_true]; exact erase_eq_filter' _ x (i.nodup v)
    · simp only [e, if_false]
      rw [filter_ne_self]
      intro hh
      have := (i.agree v x).mp hh
      rw [hs] at this; exact e (Option.some.inj this).symm
  have hsup : ∀ v y, upd h.sup x none y = some v → h.sup y = some v := by
    intro v y e
    by_cases q : y = x
    · subst q; simp at e
    · simpa [upd, q] using e
  refine ⟨?_, ?_, ?_, ?_, ?_, i.vcls, i.label, i.distinct, i.intier, i.flat⟩
  · intro v y
    show y ∈ (upd h.subs w _ v).vals ↔ _
    rw [upd_apply, hsub v]
    simp only [List.mem_filter, i.agree v y, ATG.removed]
    by_cases q : y = x
    · subst q; simp
    · simp [upd, q]
  · intro v
    show (upd h.subs w _ v).vals.Nodup
    rw [upd_apply, hsub v]
    exact (i.nodup v).filter _
  · intro v y e; exact i.alloc v y (hsup v y e)
  · intro v y e; exact i.typed v y (hsup v y e)
  · intro v
    show (upd h.subs w _ v).ecls = none ∧ (upd h.subs w _ v).vals = [] ∨ ∃ d, (upd h.subs w _ v).ecls = some d ∧ _
    rw [upd_apply, hsub v]
    have e : (if v = w then (⟨(h.subs w).vals.erase x, (h.subs w).ecls⟩ : SL) else h.subs v).ecls =
      (h.subs v).ecls := by
      by_cases e : v = w
      · subst e; simp
      · simp [e]
    rw [e]
    rcases i.ecls v with ⟨a, b⟩ | a
    · left; exact ⟨a, by rw [b]; rfl⟩
    · right; exact a

theorem removed_linked (i : Inv V h) (hl : LinkedAll h) (w x : Ref) :
    LinkedAll (ATG.removed h w x) := by
  intro v
  by_cases e : v = w
  · subst e
    have : ((ATG.removed h v x).subs v).vals = (h.subs v).vals.erase x := by simp [ATG.removed]
    rw [this]
    exact linked_of _ _ ((i.nodup v).sublist List.erase_sublist) h.fol h.prev rfl rfl
  · have : ((ATG.removed h w x).subs v).vals = (h.subs v).vals := by simp [ATG.removed, e]
    rw [this]
    have hne : ∀ y ∈ (h.subs v).vals, y ∉ (h.subs w).vals.erase x := by
      intro y hy hh
      have h1 := (i.agree v y).mp hy
      have h2 := (i.agree w y).mp (List.mem_of_mem_erase hh)
      rw [h1] at h2; exact e (Option.some.inj h2)
    apply (hl v).congr
    · intro y hy; simp [ATG.removed, folOf, hne y hy]
    · intro y hy; simp [ATG.removed, prevOf, hne y hy]

/-- `w.subset_list = l` for an admissible list of the right class -/
theorem assigned (i : Inv V h) (w : Ref) (l : List Ref) (d : CRef) (hw : w < h.nE)
    (hl : ∀ x ∈ l, x < h.nE) (hnd : l.Nodup)
    (hd : ∀ x ∈ l, h.cls x = d ∧ h.ct.sub (h.cls w) = some d) :
    ∃ h', setSubs w l h = .ok () h' ∧ Inv V h' ∧ (LinkedAll h → LinkedAll h') ∧
      DoublyLinked h' (h'.subs w).vals ∧ (h'.subs w).vals = slSort h l ∧
      h'.nE = h.nE ∧ h'.start = h.start ∧ h'.stop = h.stop ∧ h'.label = h.label ∧ h'.cls = h.cls ∧
      h'.ct = h.ct ∧
      (∀ v, v ≠ w → (h'.subs v).vals = (h.subs v).vals.filter (· ∉ l)) ∧
      (∀ v, v ≠ w → (DoublyLinked h (h.subs v).vals ∨ ∃ x ∈ l, x ∈ (h.subs v).vals) →
        DoublyLinked h' (h'.subs v).vals) ∧
      (∀ r, h'.within r = if r ∈ l then some (.ival w) else
        if r ∈ (h.subs w).vals then none else h.within r) ∧
      (∀ r, h'.sup r = if r ∈ l then some w else
        if r ∈ (h.subs w).vals then none else h.sup r) := by
  have hmem : ∀ x, x ∈ slSort h l ↔ x ∈ l := fun x => (slSort_perm h l).mem_iff
  obtain ⟨f, p, hrun, hlink, hlinkS, hkeep⟩ := setSubs_ok w l h d (i.agreeX w) (fun _ _ => trivial)
    (fun x hx => (i.agree w x).mp hx)
    (fun x hx y hy hs => i.distinct y (hl y hy) x (i.alloc w x ((i.agree w x).mp hx)).1 hs)
    (fun x hx => ⟨d, (hd x hx).2, by rw [(hd x hx).1]; exact isSub_refl _ _⟩)
    (fun x hx => (hd x hx).1) hnd (fun x hx => i.label x (hl x hx))
  have hfil : ∀ v, (h.subs v).vals.filter (· ∉ slSort h l) = (h.subs v).vals.filter (· ∉ l) := by
    intro v; congr 1; funext x; simp [hmem]
  generalize hec : (if l = [] then none else some d) = ec at *
  have hsubs : ∀ v, ((ATG.assigned h w (slSort h l) ec f p).subs v).vals =
      if v = w then slSort h l else (h.subs v).vals.filter (· ∉ l) := by
    intro v
    by_cases e : v = w
    · simp [ATG.assigned, settled, e]
    · simp only [ATG.assigned, settled, e, if_false]; exact hfil v
  have hsup : ∀ r, (ATG.assigned h w (slSort h l) ec f p).sup r = if r ∈ l then some w else
      if r ∈ (h.subs w).vals then none else h.sup r := by
    intro r; simp [ATG.assigned, hmem]
  refine ⟨_, hrun, ?_, ?_, ?_, ?_, rfl, rfl, rfl, rfl, rfl, rfl, ?_, ?_, ?_, hsup⟩
  · refine ⟨?_, ?_, ?_, ?_, ?_, i.vcls, i.label, i.distinct, i.intier, i.flat⟩
    · intro v x
      rw [hsubs v, hsup x]
      by_cases e : v = w
      · subst e
        simp only [if_true, hmem]
        by_cases q : x ∈ l
        · simp [q]
        · simp only [q, if_false]
          by_cases q2 : x ∈ (h.subs v).vals
          · simp [q2]
          · simp only [q2, if_false]
            rw [← i.agree v x]; simp [q2]
      · simp only [e, if_false, List.mem_filter, i.agree v x]
        by_cases q : x ∈ l
        · simp [q, Ne.symm e]
        · simp only [q, if_false]
          by_cases q2 : x ∈ (h.subs w).vals
          · have := (i.agree w x).mp q2
            simp [this, q2, Ne.symm e]
          · simp [q2]
    · intro v
      rw [hsubs v]
      split
      · exact (slSort_perm h l).nodup_iff.mpr hnd
      · exact (i.nodup v).filter _
    · intro v x e
      rw [hsup x] at e
      by_cases q : x ∈ l
      · simp only [q, if_true, Option.some.injEq] at e
        subst e; exact ⟨hl x q, hw⟩
      · simp only [q, if_false] at e
        split at e
        · simp at e
        · exact i.alloc v x e
    · intro v x e
      rw [hsup x] at e
      by_cases q : x ∈ l
      · simp only [q, if_true, Option.some.injEq] at e
        subst e
        have := hd x q
        show h.ct.sub (h.cls w) = some (h.cls x)
        rw [this.1]; exact this.2
      · simp only [q, if_false] at e
        split at e
        · simp at e
        · exact i.typed v x e
    · intro v
      rw [hsubs v]
      by_cases e : v = w
      · subst e
        have e1 : ((ATG.assigned h v (slSort h l) ec f p).subs v).ecls = ec := by
          simp [ATG.assigned, settled]
        rw [e1, ← hec]
        simp only [if_true]
        cases l with
        | nil => left; exact ⟨rfl, by rfl⟩
        | cons x xs => right; exact ⟨d, by simp, fun _ => (hd x (by simp)).2⟩
      · have e1 : ((ATG.assigned h w (slSort h l) ec f p).subs v).ecls = (h.subs v).ecls := by
          simp [ATG.assigned, settled, e]
        rw [e1]
        simp only [e, if_false]
        rcases i.ecls v with ⟨a, b⟩ | a
        · left; exact ⟨a, by rw [b]; rfl⟩
        · right; exact a
  · intro hL v
    rw [hsubs v]
    by_cases e : v = w
    · simp only [e, if_true]; exact hlinkS
    · simp only [e, if_false]; exact hlink v e (Or.inl (hL v))
  · rw [hsubs w]; simp only [if_true]; exact hlinkS
  · rw [hsubs w]; simp
  · intro v e; rw [hsubs v]; simp [e]
  · intro v e hh; rw [hsubs v]; simp only [e, if_false]; exact hlink v e hh
  · intro r; simp [ATG.assigned, hmem]

end Inv
end ATG
