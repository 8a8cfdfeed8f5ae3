import Verif.Lemmas.RelateChain
/-!
# Relating one interval after the other
-/
namespace ATG

/-- everything but the times of the entries -/
def Heap.retime (h : Heap) (s e : Ref → Time) : Heap := { h with start := s, stop := e }

/-- the heap after each of the intervals got its subset list -/
def relatedAll (h : Heap) (P : List (Ref × List Ref)) : Heap :=
  P.foldl (fun h p => related h p.1 p.2 (headCls h p.2)) h

theorem relatedAll_retime (P : List (Ref × List Ref)) : ∀ (h : Heap) (s e : Ref → Time),
    relatedAll (h.retime s e) P = (relatedAll h P).retime s e := by
  induction P with
  | nil => intro h s e; rfl
  | cons p P ih =>
    intro h s e
    unfold relatedAll
    rw [List.foldl_cons, List.foldl_cons]
    exact ih (related h p.1 p.2 (headCls h p.2)) s e

theorem headCls_of {h : Heap} {l : List Ref} {d : CRef} (hd : ∀ x ∈ l, h.cls x = d) :
    (if l = [] then none else some d) = headCls h l := by
  cases l with
  | nil => rfl
  | cons x l => simp [headCls, hd x]

theorem forL_related (delay : Bool) (lower : TRef) (P : List (Ref × List Ref)) : ∀ h : Heap,
    (P.map (·.2)).flatten.Nodup →
    (∀ p ∈ P, p.2 ≠ []) → (∀ p ∈ P, SortedByStart h p.2) →
    (∀ p ∈ P, ∀ x ∈ p.2, h.sup x = none ∧ h.label x ≠ "#" ∧
      ∃ c, h.ct.sub (h.cls p.1) = some c ∧ h.ct.isSub (h.cls x) c = true) →
    (∀ p ∈ P, ∀ x ∈ p.2, ∀ y ∈ p.2, h.cls x = h.cls y) →
    M.forL (P.map fun p => (p.1, (⟨p.2, headCls h p.2⟩ : SL)))
        (fun p => relateOne lower false false delay p.1 p.2) h = .ok () (relatedAll h P) := by
  induction P with
  | nil => intro h _ _ _ _ _; rfl
  | cons p P ih =>
    intro h hnl hne hso hx hc
    obtain ⟨u, l⟩ := p
    have hln : l.Nodup := (List.nodup_append.mp hnl).1
    have hdis : ∀ q ∈ P, ∀ x ∈ q.2, x ∉ l := by
      intro q hq x hxq hxl
      have h3 := (List.nodup_append.mp hnl).2.2 x hxl x
      exact h3 (List.mem_flatten.mpr ⟨q.2, List.mem_map.mpr ⟨q, hq, rfl⟩, hxq⟩) rfl
    have hl0 : l ≠ [] := hne (u, l) (by simp)
    have hl := hx (u, l) (by simp)
    have hd : ∀ x ∈ l, h.cls x = h.cls (l.head hl0) := fun x hx => hc (u, l) (by simp) x hx _ (List.head_mem hl0)
    have e1 := setSubsetList_fresh u l h _ (fun x hx => (hl x hx).1) (hso (u, l) (by simp))
      (fun x hx => (hl x hx).2.2) hd hln (fun x hx => (hl x hx).2.1)
    rw [headCls_of hd] at e1
    have e2 := relateOne_ok delay lower u ⟨l, headCls h l⟩ h _ e1 (by simp [related]; exact hl0)
    have e3 := ih (related h u l (headCls h l)) (List.nodup_append.mp hnl).2.1
      (fun q hq => hne q (by simp [hq])) (fun q hq => hso q (by simp [hq]))
      (by
        intro q hq x hxq
        have := hx q (by simp [hq]) x hxq
        refine ⟨?_, this.2⟩
        show (if x ∈ l then some u else h.sup x) = none
        rw [if_neg (hdis q hq x hxq)]; exact this.1)
      (fun q hq => hc q (by simp [hq]))
    rw [List.map_cons, M.forL_cons]
    rw [e2]
    exact e3

end ATG
