import Verif.Lemmas.SeqList
import Verif.Model.Tier
/-!
# Linked lists and loops that only assign
-/
namespace ATG

theorem nextIn_get (l : List Ref) (hnd : l.Nodup) (i : Nat) (x y : Ref) (hx : l[i]? = some x)
    (hy : l[i + 1]? = some y) : nextIn l x = .obj y := by
  induction l generalizing i with
  | nil => simp at hx
  | cons a l ih =>
    cases l with
    | nil => simp at hy
    | cons b l =>
      simp only [nextIn]
      cases i with
      | zero => simp at hx hy; subst hx; subst hy; simp
      | succ i =>
        have hx' : (b :: l)[i]? = some x := by simpa using hx
        have hxa : x ≠ a := by
          intro e; subst e
          rw [List.nodup_cons] at hnd
          exact hnd.1 (List.mem_of_getElem? hx')
        rw [if_neg hxa]
        exact ih (List.nodup_cons.mp hnd).2 i hx' (by simpa using hy)

theorem nextIn_last (l : List Ref) (hnd : l.Nodup) (x : Ref) (hx : l.getLast? = some x) :
    nextIn l x = .bumper := by
  induction l with
  | nil => simp at hx
  | cons a l ih =>
    cases l with
    | nil => rfl
    | cons b l =>
      have hx' : (b :: l).getLast? = some x := by simpa [List.getLast?_cons_cons] using hx
      simp only [nextIn]
      have hxa : x ≠ a := by
        intro e; subst e
        exact (List.nodup_cons.mp hnd).1 (List.mem_of_getLast? hx')
      rw [if_neg hxa]
      exact ih (List.nodup_cons.mp hnd).2 hx'

theorem nextIn_elim (l : List Ref) (hnd : l.Nodup) (i : Nat) (x : Ref) (hx : l[i]? = some x) :
    nextIn l x = l[i + 1]?.elim .bumper .obj := by
  cases hy : l[i + 1]? with
  | some y => exact nextIn_get l hnd i x y hx hy
  | none =>
    have h1 := (List.getElem?_eq_some_iff.mp hx).1
    have h2 := List.getElem?_eq_none_iff.mp hy
    exact nextIn_last l hnd x (by rw [List.getLast?_eq_getElem?, show l.length - 1 = i by omega]; exact hx)

theorem DoublyLinked.right {h : Heap} {l : List Ref} (d : DoublyLinked h l) {i : Nat} {x : Ref} (hx : l[i]? = some x) :
    h.fol x = some (l[i + 1]?.elim .bumper .obj) := by
  cases hy : l[i + 1]? with
  | some y => exact (d.next i x y hx hy).1
  | none =>
    have h1 := (List.getElem?_eq_some_iff.mp hx).1
    have h2 := List.getElem?_eq_none_iff.mp hy
    exact d.last x (by rw [List.getLast?_eq_getElem?, show l.length - 1 = i by omega]; exact hx)

theorem prevIn_head (p : Option Ref) (l : List Ref) (x : Ref) (hx : l.head? = some x) :
    prevIn p l x = plink p := by
  cases l with
  | nil => simp at hx
  | cons a l => simp at hx; subst hx; simp [prevIn]

theorem prevIn_get (p : Option Ref) (l : List Ref) (hnd : l.Nodup) (i : Nat) (x y : Ref)
    (hx : l[i]? = some x) (hy : l[i + 1]? = some y) : prevIn p l y = .obj x := by
  induction l generalizing i p with
  | nil => simp at hx
  | cons a l ih =>
    have hya : y ≠ a := by
      intro e; subst e
      exact (List.nodup_cons.mp hnd).1 (List.mem_of_getElem? (i := i) (by simpa using hy))
    simp only [prevIn, if_neg hya]
    cases i with
    | zero =>
      simp at hx; subst hx
      have : l.head? = some y := by simpa [List.head?_eq_getElem?] using hy
      rw [prevIn_head _ _ _ this]; rfl
    | succ i => exact ih (some a) (List.nodup_cons.mp hnd).2 i (by simpa using hx) (by simpa using hy)

/-- the pointers written by the precedence loop link the list -/
theorem linked_of (h : Heap) (l : List Ref) (hnd : l.Nodup) (f p : Ref → Option Link)
    (hf : h.fol = folOf l f) (hp : h.prev = prevOf none l p) : DoublyLinked h l := by
  constructor
  · intro i x y hx hy
    have hxm := List.mem_of_getElem? hx
    have hym := List.mem_of_getElem? hy
    rw [hf, hp]
    simp only [folOf, prevOf, hxm, hym, if_true]
    rw [nextIn_get l hnd i x y hx hy, prevIn_get none l hnd i x y hx hy]
    exact ⟨rfl, rfl⟩
  · intro x hx
    rw [hp]
    simp only [prevOf, List.mem_of_mem_head? hx, if_true]
    rw [prevIn_head none l x hx]; rfl
  · intro x hx
    rw [hf]
    simp only [folOf, List.mem_of_getLast? hx, if_true]
    rw [nextIn_last l hnd x hx]

theorem folOf_idem (l : List Ref) (f : Ref → Option Link) : folOf l (folOf l f) = folOf l f := by
  funext r; simp only [folOf]; split <;> simp_all
theorem prevOf_idem (p) (l : List Ref) (f : Ref → Option Link) :
    prevOf p l (prevOf p l f) = prevOf p l f := by
  funext r; simp only [prevOf]; split <;> simp_all

/-- `_set_subset_precedence` -/
theorem setPrecedence_ok (h : Heap) (l : List Ref) (hnd : l.Nodup)
    (hc : ∀ x ∈ l, ∀ y ∈ l, h.cls x = h.cls y) (hl : ∀ x ∈ l, h.label x ≠ "#") :
    setPrecedence l h = .ok () { h with fol := folOf l h.fol, prev := prevOf none l h.prev } := by
  unfold setPrecedence
  cases e : l with
  | nil => simp [precLoop]
  | cons a t =>
    rw [← e]
    rw [precLoop_ok (fun _ => pure ()) (fun _ it => it) (fun x h => rfl) l none h (h.cls a) hnd
      (fun x hx => hc x hx a (by simp [e])) hl (by simp)]
    have : l.foldl (fun it (_ : Ref) => it) h.intier = h.intier := by
      clear hnd hc hl e
      induction l with
      | nil => rfl
      | cons y ys ih => simpa using ih
    simp [Heap.withFPI, this]

/-- a loop assigning one value to an attribute of each element -/
theorem foldl_upd {α} (l : List Ref) (v : α) (f : Ref → α) :
    l.foldl (fun it x => upd it x v) f = fun r => if r ∈ l then v else f r := by
  induction l generalizing f with
  | nil => simp
  | cons x xs ih =>
    simp only [List.foldl_cons, ih]
    funext r
    simp only [List.mem_cons, upd]
    by_cases h1 : r ∈ xs <;> by_cases h2 : r = x <;> simp [h1, h2]

theorem forL_within (l : List Ref) (o : Owner) (h : Heap) :
    M.forL l (fun it => M.modify fun h => { h with within := upd h.within it (some o) }) h =
      .ok () { h with within := fun r => if r ∈ l then some o else h.within r } := by
  induction l generalizing h with
  | nil => simp
  | cons x xs ih =>
    rw [M.forL_cons]
    simp only [M.modify_apply]
    rw [ih]
    congr 2
    funext r
    simp only [List.mem_cons, upd]
    by_cases h1 : r ∈ xs <;> by_cases h2 : r = x <;> simp [h1, h2]

theorem setContainsSubs_ok (w : Ref) (h : Heap) :
    setContainsSubs w h = .ok () { h with
      cont := upd h.cont w .alias
      within := fun r => if r ∈ (h.subs w).vals then some (.ival w) else h.within r } := by
  unfold setContainsSubs
  mstep M.modify_apply _ h
  mstep M.get_apply _
  rw [forL_within]

theorem setContainsSeq_ok (t : TRef) (h : Heap) :
    setContainsSeq t h = .ok () { h with
      tcont := upd h.tcont t .alias
      within := fun r => if r ∈ (h.tseq t).vals then some (.tier t) else h.within r } := by
  unfold setContainsSeq
  mstep M.modify_apply _ h
  mstep M.get_apply _
  rw [forL_within]

/-- `__set_precedence` of a tier of intervals -/
theorem tierPrecedence_ok (t : TRef) (h : Heap) (s : CRef) (hpt : h.isPointTier t = false)
    (hs : h.tsup t = some s) (hnd : (h.tseq t).vals.Nodup)
    (hc : ∀ x ∈ (h.tseq t).vals, ∀ y ∈ (h.tseq t).vals, h.cls x = h.cls y)
    (hl : ∀ x ∈ (h.tseq t).vals, h.label x ≠ "#") :
    tierPrecedence t h = .ok () { h with
      fol := folOf (h.tseq t).vals h.fol
      prev := prevOf none (h.tseq t).vals h.prev
      intier := fun r => if r ∈ (h.tseq t).vals then some t else h.intier r
      tcont := if h.ct.isSub s cTop then upd h.tcont t .alias else h.tcont
      within := if h.ct.isSub s cTop then
          (fun r => if r ∈ (h.tseq t).vals then some (.tier t) else h.within r) else h.within } := by
  unfold tierPrecedence
  mstep M.get_apply _
  have hloop : precLoop (setIntier t) none (h.tseq t).vals h = .ok () (h.withFPI
      (folOf (h.tseq t).vals h.fol) (prevOf none (h.tseq t).vals h.prev)
      (fun r => if r ∈ (h.tseq t).vals then some t else h.intier r)) := by
    cases e : (h.tseq t).vals with
    | nil => simp [precLoop, Heap.withFPI]
    | cons a tl =>
      rw [← e]
      rw [precLoop_ok (setIntier t) (fun x it => upd it x (some t)) (fun x h => rfl) _ none h
        (h.cls a) hnd (fun x hx => hc x hx a (by simp [e])) hl (by simp)]
      rw [foldl_upd]
  mstep hloop
  simp only [hpt, Bool.false_eq_true, if_false, hs]
  mstep (show isSubO (some s) cTop _ = .ok (h.ct.isSub s cTop) _ from rfl)
  cases e : h.ct.isSub s cTop with
  | true =>
    simp only [if_true]
    rw [setContainsSeq_ok]
  | false => simp

end ATG
