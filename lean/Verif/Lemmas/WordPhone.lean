import Verif.Model.WordPhone
import Verif.Spec.WordPhone
import Verif.Lemmas.RelateRun
import Verif.Lemmas.History
import Verif.Lemmas.Points
/-!
# Words built phone by phone
-/
namespace ATG

/-- the word `w` with the phones `L` -/
def worded (h : Heap) (w : Ref) (c : CRef) (L : List Ref) : Heap :=
  { h with
    subs := if L = [] then h.subs else upd h.subs w ⟨L, some c⟩
    sup := fun r => if r ∈ L then some w else h.sup r
    fol := folOf L h.fol
    prev := prevOf none L h.prev }

theorem isInst_sub (x : Ref) (h : Heap) (c : Option CRef) (d : CRef) (hc : c = some d) (hs : h.ct.isSub (h.cls x) d = true) :
    isInst x c h = .ok true h := by
  subst hc
  unfold isInst
  mstep M.get_apply h
  show Res.ok _ _ = _
  rw [hs]

/-- the end of `append_subset_list`: the list, the links, and the superset if that is missing -/
theorem setSuper_new (k : Heap) (w x : Ref) (c d : CRef) (ec : Option CRef) (L : List Ref)
    (hx : k.cls x = c) (hsub : k.ct.sub (k.cls w) = some c) (hsup : k.ct.sup c = some d) (hwd : k.ct.isSub (k.cls w) d = true)
    (hs : k.sup x = none) (hwi : k.within x = none) (hL : k.subs w = ⟨L, ec⟩) (hec : ec = none ∨ ec = some c)
    (nd : L.Nodup) (hcl : ∀ y ∈ L, k.cls y = c) (hlb : ∀ y ∈ L, k.label y ≠ "#") (hlx : k.label x ≠ "#") (hn : ¬ Listed k L x) :
    setSuper x w k = .ok () { k with
      subs := upd k.subs w ⟨insAt k L x, some c⟩
      sup := upd k.sup x (some w)
      fol := folOf (insAt k L x) k.fol
      prev := prevOf none (insAt k L x) k.prev } := by
  subst hx
  have hxn : x ∉ L := fun q => hn (Or.inl q)
  have hmem : ∀ r, r ∈ insAt k L x ↔ r = x ∨ r ∈ L := by
    intro r; rw [(insAt_perm k _ x).mem_iff]; simp
  have hnd : (insAt k L x).Nodup := by
    rw [(insAt_perm k _ x).nodup_iff, List.nodup_cons]; exact ⟨hxn, nd⟩
  have hcl' : ∀ y ∈ insAt k L x, k.cls y = k.cls x := by
    intro y hy
    rcases (hmem y).mp hy with q | q
    · rw [q]
    · exact hcl y q
  have hlb' : ∀ y ∈ insAt k L x, k.label y ≠ "#" := by
    intro y hy
    rcases (hmem y).mp hy with q | q
    · rw [q]; exact hlx
    · exact hlb y q
  have happ : ∀ k' : Heap, k'.cls = k.cls → k'.ct = k.ct → k'.start = k.start → k'.stop = k.stop → k'.label = k.label →
      slAppend ⟨L, ec⟩ x k' = .ok ⟨insAt k L x, some (k.cls x)⟩ k' := by
    intro k' e1 e2 e3 e4 e5
    have hn' : ¬ Listed k' L x := by
      have : Listed k' L x ↔ Listed k L x := by
        unfold Listed SameValue Heap.isPoint
        rw [e1, e2, e3, e4, e5]
      rw [this]; exact hn
    have hi : insAt k' L x = insAt k L x := by unfold insAt; rw [e3]
    rcases hec with rfl | rfl
    · rw [slAppend_ok_none _ x k' hn' rfl, hi, e1]
    · rw [slAppend_ok _ x k' (k.cls x) hn' rfl (by simp [isSub_refl, e1]) (by unfold Heap.isPoint; rw [e1]), hi, ← e1,
        upd_eq_self _ _ _ rfl]
  unfold setSuper setSuperN
  mstep M.get_apply k
  mstep isInst_sub w k _ d hsup hwd
  rw [if_pos (by simp [hs])]
  mstep M.modify_apply _ k
  unfold appendSubsetN
  mstep M.get_apply _
  mstep isInst_ok x _ _ (by exact hsub)
  rw [if_pos rfl]
  rw [if_neg (by
    rw [slContains_iff]
    show ¬ Listed k (k.subs w).vals x
    rw [hL]; exact hn)]
  simp only [upd_same]
  by_cases hp : (k.subs w).vals.length > 0
  · rw [if_pos hp]
    mstep removeSuperset_forgot x w { k with sup := upd k.sup x (some w) } (by simp) (by
      show ¬ Listed k (k.subs w).vals x
      rw [hL]; exact hn)
    have hf : forgot { k with sup := upd k.sup x (some w) } x = k := by
      unfold forgot
      simp only [upd_upd]
      rw [upd_eq_self _ _ _ hs, upd_eq_self _ _ _ hwi]
    rw [hf]
    mstep M.get_apply k
    mstep (show slAppend (k.subs w) x k = .ok ⟨insAt k L x, some (k.cls x)⟩ k by
      rw [hL]; exact happ k rfl rfl rfl rfl rfl)
    mstep (show putSubs w _ k = .ok () _ from rfl)
    mstep M.get_apply _
    simp only [upd_same]
    mstep setPrecedence_ok _ _ hnd (fun y hy z hz => (hcl' y hy).trans (hcl' z hz).symm) hlb'
    mstep M.get_apply _
    simp only [hs]
    rw [if_neg (by simp)]
    unfold setSuperN
    mstep M.get_apply _
    mstep isInst_sub w _ _ d (by exact hsup) (by exact hwd)
    rw [if_pos (by simp [hs])]
    mstep M.modify_apply _ _
    unfold appendSubsetN
    mstep M.get_apply _
    mstep isInst_ok x _ _ (by exact hsub)
    rw [if_pos rfl]
    rw [if_pos (by
      rw [slContains_iff]; left
      simp only [upd_same]; exact (hmem x).mpr (Or.inl rfl))]
    rfl
  · rw [if_neg hp]
    mstep M.pure_apply () _
    mstep M.get_apply _
    mstep (show slAppend (k.subs w) x { k with sup := upd k.sup x (some w) } = .ok ⟨insAt k L x, some (k.cls x)⟩ _ by
      rw [hL]; exact happ _ rfl rfl rfl rfl rfl)
    mstep (show putSubs w _ _ = .ok () _ from rfl)
    mstep M.get_apply _
    simp only [upd_same]
    mstep setPrecedence_ok _ _ hnd (fun y hy z hz => (hcl' y hy).trans (hcl' z hz).symm) hlb'
    mstep M.get_apply _
    simp only [upd_same]
    rfl

theorem folOf_within {L L' : List Ref} (hs : ∀ r ∈ L, r ∈ L') (f : Ref → Option Link) : folOf L' (folOf L f) = folOf L' f := by
  funext r
  simp only [folOf]
  by_cases h : r ∈ L'
  · rw [if_pos h, if_pos h]
  · rw [if_neg h, if_neg h, if_neg fun q => h (hs r q)]

theorem prevOf_within {L L' : List Ref} (hs : ∀ r ∈ L, r ∈ L') (p q : Option Ref) (f : Ref → Option Link) :
    prevOf p L' (prevOf q L f) = prevOf p L' f := by
  funext r
  simp only [prevOf]
  by_cases h : r ∈ L'
  · rw [if_pos h, if_pos h]
  · rw [if_neg h, if_neg h, if_neg fun q => h (hs r q)]

theorem worded_nil (h : Heap) (w : Ref) (c : CRef) : worded h w c [] = h := by
  unfold worded
  simp

theorem worded_step {h : Heap} {w : Ref} {c : CRef} {ps L : List Ref} (np : NewPhones h w c ps) {x : Ref} (hx : x ∈ ps)
    (hL : ∀ y ∈ L, y ∈ ps) (nd : L.Nodup) (hxn : x ∉ L) :
    setWord x w (worded h w c L) = .ok () (worded h w c (insAt h L x)) := by
  obtain ⟨d, hd, hwd⟩ := np.sup
  have hsub : ∀ r ∈ L, r ∈ insAt h L x := fun r hr => by rw [(insAt_perm h _ x).mem_iff]; simp [hr]
  have hmem : ∀ r, r ∈ insAt h L x ↔ r = x ∨ r ∈ L := by
    intro r; rw [(insAt_perm h _ x).mem_iff]; simp
  have hne : insAt h L x ≠ [] := fun e => by
    have := (hmem x).mpr (Or.inl rfl)
    rw [e] at this
    cases this
  refine (setSuper_new (worded h w c L) w x c d (if L = [] then none else some c) L (np.cls x hx) np.sub hd hwd ?_ (np.free x hx).2 ?_ ?_ nd
    (fun y hy => np.cls y (hL y hy)) (fun y hy => np.label y (hL y hy)) (np.label x hx) ?_).trans ?_
  · show (if x ∈ L then some w else h.sup x) = none
    rw [if_neg hxn]
    exact (np.free x hx).1
  · show (if L = [] then h.subs else upd h.subs w ⟨L, some c⟩) w = _
    by_cases e : L = []
    · rw [if_pos e, if_pos e, np.empty, e]; rfl
    · rw [if_neg e, if_neg e, upd_same]
  · by_cases e : L = []
    · rw [if_pos e]; exact Or.inl rfl
    · rw [if_neg e]; exact Or.inr rfl
  · rintro (q | ⟨y, hy, q⟩)
    · exact hxn q
    · exact hxn (np.distinct y (hL y hy) x hx q ▸ hy)
  · refine congrArg (Res.ok ()) ?_
    have e1 : insAt (worded h w c L) L x = insAt h L x := rfl
    have e2 : upd (if L = [] then h.subs else upd h.subs w ⟨L, some c⟩) w ⟨insAt h L x, some c⟩ =
        if insAt h L x = [] then h.subs else upd h.subs w ⟨insAt h L x, some c⟩ := by
      rw [if_neg hne]
      by_cases e : L = []
      · rw [if_pos e]
      · rw [if_neg e, upd_upd]
    have e3 : upd (fun r => if r ∈ L then some w else h.sup r) x (some w) = fun r => if r ∈ insAt h L x then some w else h.sup r := by
      funext r
      by_cases e : r = x
      · subst e
        rw [upd_same, if_pos ((hmem r).mpr (Or.inl rfl))]
      · rw [upd_ne _ _ _ _ e]
        by_cases e' : r ∈ L
        · rw [if_pos e', if_pos (hsub r e')]
        · rw [if_neg e', if_neg fun q => ((hmem r).mp q).elim e e']
    unfold worded at e1 ⊢
    simp only [e1, e2, e3, folOf_within hsub, prevOf_within hsub]

/-- the phones one after the other -/
theorem setWords_ok {h : Heap} {w : Ref} {c : CRef} {ps : List Ref} (np : NewPhones h w c ps) : ∀ (qs L : List Ref), (∀ x ∈ qs, x ∈ ps) →
    (∀ y ∈ L, y ∈ ps) → (L ++ qs).Nodup → setWords w qs (worded h w c L) = .ok () (worded h w c (qs.foldl (insAt h) L))
  | [], _, _, _, _ => rfl
  | x :: qs, L, hq, hL, nd => by
    have hnd := List.nodup_append.mp nd
    have hxn : x ∉ L := fun q => hnd.2.2 x q x (by simp) rfl
    have hm : ∀ r, r ∈ insAt h L x ↔ r = x ∨ r ∈ L := by
      intro r; rw [(insAt_perm h _ x).mem_iff]; simp
    unfold setWords
    rw [M.forL_cons, worded_step np (hq x (by simp)) hL hnd.1 hxn]
    refine setWords_ok np qs (insAt h L x) (fun y hy => hq y (by simp [hy])) ?_ ?_
    · intro y hy
      rcases (hm y).mp hy with rfl | q
      · exact hq _ (by simp)
      · exact hL y q
    · have : (insAt h L x ++ qs).Perm (L ++ x :: qs) :=
        ((insAt_perm h L x).append_right qs).trans List.perm_middle.symm
      exact this.nodup_iff.mpr nd

theorem takeWhile_all {α} (p : α → Bool) : ∀ l : List α, (∀ a ∈ l, p a = true) → l.takeWhile p = l
  | [], _ => rfl
  | a :: l, h => by
    rw [List.takeWhile_cons, if_pos (h a (by simp)), takeWhile_all p l fun b hb => h b (by simp [hb])]

theorem insAt_last (h : Heap) (L : List Ref) (x : Ref) (hl : ∀ y ∈ L, h.start y < h.start x) : insAt h L x = L ++ [x] := by
  unfold insAt
  split
  · have : searchsorted (L.map h.start) (h.start x) = L.length := by
      unfold searchsorted
      rw [takeWhile_all _ _ fun t ht => ?_, List.length_map]
      obtain ⟨y, hy, rfl⟩ := List.mem_map.mp ht
      exact decide_eq_true (hl y hy)
    rw [this, List.insertIdx_length_self]
  · rfl

/-- in order of time, each phone goes to the end -/
theorem foldl_insAt (h : Heap) : ∀ (qs L : List Ref), (L ++ qs).Pairwise (fun a b => h.start a < h.start b) → qs.foldl (insAt h) L = L ++ qs
  | [], L, _ => by simp
  | x :: qs, L, hp => by
    have hx : ∀ y ∈ L, h.start y < h.start x := fun y hy => (List.pairwise_append.mp hp).2.2 y hy x (by simp)
    rw [List.foldl_cons, insAt_last h L x hx, foldl_insAt h qs (L ++ [x]) (by simpa using hp)]
    simp

/-- without a start of zero, each phone goes to its place -/
theorem foldl_insAt_sorted (h : Heap) : ∀ (qs L : List Ref), SortedByStart h L → (∀ x ∈ L, h.start x ≠ 0) → (∀ x ∈ qs, h.start x ≠ 0) →
    SortedByStart h (qs.foldl (insAt h) L) ∧ (qs.foldl (insAt h) L).Perm (qs ++ L)
  | [], L, hs, _, _ => ⟨hs, .refl _⟩
  | x :: qs, L, hs, hL, hq => by
    have h1 : SortedByStart h (insAt h L x) := by
      unfold insAt
      split
      · rw [insertIdx_takeWhile]; exact insBy_sorted h.start x L hs
      · rename_i hn
        cases L with
        | nil => exact List.pairwise_singleton _ _
        | cons y L =>
          refine absurd ?_ hn
          rw [Bool.and_eq_true]
          refine ⟨by simp, List.all_eq_true.mpr fun t ht => ?_⟩
          obtain ⟨z, hz, rfl⟩ := List.mem_map.mp ht
          exact decide_eq_true (hL z hz)
    have h2 : ∀ y ∈ insAt h L x, h.start y ≠ 0 := by
      intro y hy
      rw [(insAt_perm h L x).mem_iff] at hy
      rcases List.mem_cons.mp hy with rfl | hy
      · exact hq _ (by simp)
      · exact hL y hy
    obtain ⟨a, b⟩ := foldl_insAt_sorted h qs (insAt h L x) h1 h2 fun y hy => hq y (by simp [hy])
    exact ⟨a, b.trans (((insAt_perm h L x).append_left qs).trans List.perm_middle)⟩

/-- the whole list at once -/
theorem setPhones_ok {h : Heap} {w : Ref} {c : CRef} {ps : List Ref} (np : NewPhones h w c ps) (hne : ps ≠ []) (hs : SortedByStart h ps) :
    setPhones w ps h = .ok () { worded h w c ps with
      cont := upd h.cont w .alias
      within := fun r => if r ∈ ps then some (.ival w) else h.within r } := by
  have hh : headCls h ps = some c := by
    cases ps with
    | nil => exact absurd rfl hne
    | cons x l => exact congrArg some (np.cls x (by simp))
  unfold setPhones setSubsetList
  mstep allInst_ok w ps h fun x hx => ⟨c, np.sub, by rw [np.cls x hx, isSub_refl]⟩
  rw [if_pos rfl]
  mstep slMk_ok h ps fun x hx y hy => (np.cls x hx).trans (np.cls y hy).symm
  mstep (show putSubs w _ h = .ok () _ from rfl)
  mstep adoptAll_fresh w ps _ np.nodup (by exact fun x hx => (np.free x hx).1)
  mstep setContainsSubs_ok w _
  mstep M.get_apply _
  simp only [upd_same, slSort_of_sorted h ps hs]
  refine (setPrecedence_ok _ ps np.nodup (by exact fun x hx y hy => (np.cls x hx).trans (np.cls y hy).symm) (by exact np.label)).trans ?_
  unfold worded
  rw [hh, if_neg hne]

end ATG
