import Verif.Model.Sum
import Verif.Lemmas.Step
import Verif.Lemmas.GroupRun
import Verif.Lemmas.TierInit
/-!
# Running the sum of two intervals
-/
namespace ATG

/-- the adoption loop of the copy: what belonged to the original leaves the list -/
theorem adoptCopy_ok (w : Ref) : ∀ (m : List Ref) (h : Heap), m.Nodup → GoodList h (h.subs w).vals →
    (∀ x ∈ m, h.sup x = none ∨ h.sup x = some w ∧ x ∈ (h.subs w).vals) →
    ∃ f p, adoptCopy w m h = .ok () { h with
        subs := upd h.subs w ⟨(h.subs w).vals.filter fun x => decide (¬ (x ∈ m ∧ h.sup x = some w)), (h.subs w).ecls⟩
        sup := fun r => if r ∈ m then some w else h.sup r
        within := fun r => if r ∈ m ∧ h.sup r = some w then none else h.within r
        fol := f
        prev := p } ∧ ∀ r, r ∉ (h.subs w).vals → f r = h.fol r ∧ p r = h.prev r
  | [], h, _, _, _ => by
    refine ⟨h.fol, h.prev, ?_, fun _ _ => ⟨rfl, rfl⟩⟩
    have e : upd h.subs w ⟨(h.subs w).vals.filter fun x => decide (¬ (x ∈ ([] : List Ref) ∧ h.sup x = some w)),
        (h.subs w).ecls⟩ = h.subs := by
      apply upd_eq_self; rw [List.filter_eq_self.mpr (by simp)]
    rw [e]; simp [adoptCopy]
  | x :: m, h, hnd, g, hs => by
    rw [List.nodup_cons] at hnd
    have hne : ∀ y ∈ m, y ≠ x := fun y hy e => hnd.1 (e ▸ hy)
    rcases hs x (by simp) with hx | ⟨hx, hxl⟩
    · obtain ⟨f, p, hr, hf⟩ := adoptCopy_ok w m { h with sup := upd h.sup x (some w) } hnd.2
        (g.congr rfl rfl rfl rfl rfl) (by
          intro y hy
          rw [show ({ h with sup := upd h.sup x (some w) } : Heap).sup y = h.sup y from upd_ne _ _ _ _ (hne y hy)]
          exact hs y (by simp [hy]))
      refine ⟨f, p, ?_, hf⟩
      unfold adoptCopy at hr ⊢
      rw [M.forL_cons]
      have hb : (do
          removeSuperset x
          M.modify fun h => { h with sup := upd h.sup x (some w) } : M Unit) h =
          .ok () { h with sup := upd h.sup x (some w) } := by
        mstep removeSuperset_none x h hx
        rfl
      rw [show _ = Res.ok () _ from hb]
      simp only []
      rw [hr]
      congr 2
      · congr 2
        apply List.filter_congr
        intro y _
        by_cases e : y = x
        · subst e; simp [hnd.1, hx]
        · simp [e, upd]
      · funext r
        by_cases e : r = x <;> simp [e, upd]
      · funext r
        by_cases e : r = x
        · subst e; simp [hnd.1, hx]
        · simp [e, upd]
    · have g' : GoodList { removed h w x with sup := upd h.sup x (some w) } ((h.subs w).vals.erase x) :=
        (g.sub List.erase_sublist).congr rfl rfl rfl rfl rfl
      have es : ({ removed h w x with sup := upd h.sup x (some w) } : Heap).subs w =
          ⟨(h.subs w).vals.erase x, (h.subs w).ecls⟩ := upd_same _ _ _
      obtain ⟨f, p, hr, hf⟩ := adoptCopy_ok w m { removed h w x with sup := upd h.sup x (some w) } hnd.2
        (by rw [es]; exact g') (by
          intro y hy
          rw [es, show ({ removed h w x with sup := upd h.sup x (some w) } : Heap).sup y = h.sup y from
            upd_ne _ _ _ _ (hne y hy)]
          rcases hs y (by simp [hy]) with q | ⟨q, q'⟩
          · exact Or.inl q
          · exact Or.inr ⟨q, (List.mem_erase_of_ne (hne y hy)).mpr q'⟩)
      refine ⟨f, p, ?_, ?_⟩
      · unfold adoptCopy at hr ⊢
        rw [M.forL_cons]
        have hb : (do
            removeSuperset x
            M.modify fun h => { h with sup := upd h.sup x (some w) } : M Unit) h =
            .ok () { removed h w x with sup := upd h.sup x (some w) } := by
          mstep removeSuperset_ok w x h hx hxl g
          rw [M.modify_apply]
          simp only [removed, upd_upd]
        rw [show _ = Res.ok () _ from hb]
        simp only []
        rw [hr, es]
        simp only [removed, upd_upd]
        congr 2
        · congr 2
          rw [g.nodup.erase_eq_filter, List.filter_filter]
          apply List.filter_congr
          intro y _
          by_cases e : y = x
          · subst e; simp [hx]
          · simp [e, upd]
        · funext r
          by_cases e : r = x <;> simp [e, upd]
        · funext r
          by_cases e : r = x
          · subst e; simp [hnd.1, hx]
          · simp [e, upd]
      · intro r hr'
        have hre : r ∉ (h.subs w).vals.erase x := fun q => hr' (List.mem_of_mem_erase q)
        obtain ⟨a, b⟩ := hf r (by rw [es]; exact hre)
        rw [a, b]
        exact ⟨folOf_notMem _ _ _ hre, prevOf_notMem _ _ _ _ hre⟩

/-- what is no longer listed forgets its superset -/
theorem forL_forget (w : Ref) (l : List Ref) : ∀ (os : List Ref) (h : Heap), (h.subs w).vals = l → os.Nodup →
    (∀ o ∈ os, h.sup o = some w ∧ ¬ Listed h l o) →
    M.forL os (fun o => do
      let h ← M.get
      if slContains h (h.subs w).vals o then pure () else removeSuperset o) h = .ok () { h with
        sup := fun r => if r ∈ os then none else h.sup r
        within := fun r => if r ∈ os then none else h.within r }
  | [], h, _, _, _ => by simp
  | o :: os, h, hl, hnd, hs => by
    rw [List.nodup_cons] at hnd
    rw [M.forL_cons]
    obtain ⟨ho, hn⟩ := hs o (by simp)
    have hb : (do
        let h ← M.get
        if slContains h (h.subs w).vals o then pure () else removeSuperset o : M Unit) h = .ok () (forgot h o) := by
      mstep M.get_apply h
      rw [if_neg (by rw [hl, (slContains_false_iff h l o).mpr hn]; simp)]
      exact removeSuperset_forgot o w h ho (by rw [hl]; exact hn)
    rw [show _ = Res.ok () _ from hb]
    simp only []
    rw [forL_forget w l os (forgot h o) hl hnd.2 (by
      intro y hy
      have hne : y ≠ o := fun e => hnd.1 (e ▸ hy)
      obtain ⟨a, b⟩ := hs y (by simp [hy])
      exact ⟨(upd_ne _ _ _ _ hne).trans a, b⟩)]
    congr 2
    · funext r
      by_cases e : r = o <;> by_cases e' : r ∈ os <;> simp [e, e', forgot, upd]
    · funext r
      by_cases e : r = o <;> by_cases e' : r ∈ os <;> simp [e, e', forgot, upd]

theorem setSubsCopy_sort (w : Ref) (l : List Ref) (h : Heap) (d : CRef) (hd : ∀ x ∈ l, h.cls x = d) :
    setSubsCopy w l h = setSubsCopy w (slSort h l) h := by
  have hp := slSort_perm h l
  have e1 := slMk_cls h h l d hd rfl
  have e2 := slMk_cls h h (slSort h l) d (fun x hx => hd x (hp.mem_iff.mp hx)) rfl
  rw [slSort_of_sorted h _ (slSort_sorted h l)] at e2
  have e3 : (slSort h l = []) = (l = []) := by
    apply propext
    constructor
    · intro e; rw [e] at hp; exact hp.symm.eq_nil
    · intro e; rw [e] at hp; rw [e]; exact hp.eq_nil
  simp only [e3] at e2
  unfold setSubsCopy
  refine Eq.trans (M.bind_ok (M.get_apply h)) (Eq.trans ?_ (M.bind_ok (M.get_apply h)).symm)
  refine Eq.trans (M.bind_ok e1) (Eq.symm ?_)
  mstep e2
  rfl

/-- the assignment through the copy: of the new list only what did not belong to the original stays -/
theorem setSubsCopy_ok (w : Ref) (l : List Ref) (h : Heap) (d : CRef) (g : GoodList h l) (hne : l ≠ [])
    (hso : SortedByStart h l) (hd : ∀ x ∈ l, h.cls x = d)
    (hi : ∀ x ∈ l, ∃ c, h.ct.sub (h.cls w) = some c ∧ h.ct.isSub (h.cls x) c = true)
    (hnd : (h.subs w).vals.Nodup) (hsub : ∀ x ∈ (h.subs w).vals, x ∈ l ∧ h.sup x = some w)
    (hs : ∀ x ∈ l, x ∉ (h.subs w).vals → h.sup x = none) :
    ∃ f p, setSubsCopy w l h = .ok () { h with
        subs := upd h.subs w ⟨l.filter fun x => decide (x ∉ (h.subs w).vals), some d⟩
        sup := fun r => if r ∈ (h.subs w).vals then none else if r ∈ l then some w else h.sup r
        within := fun r => if r ∈ (h.subs w).vals then none else if r ∈ l then some (.ival w) else h.within r
        cont := upd h.cont w .alias
        fol := folOf (l.filter fun x => decide (x ∉ (h.subs w).vals)) f
        prev := prevOf none (l.filter fun x => decide (x ∉ (h.subs w).vals)) p } ∧
      ∀ r, r ∉ l → f r = h.fol r ∧ p r = h.prev r := by
  have hmk : slMk l h = .ok ⟨l, some d⟩ h := by
    rw [slMk_cls h h l d hd rfl, if_neg hne, slSort_of_sorted h l hso]
  have hmem : ∀ x ∈ l, (h.sup x = some w ↔ x ∈ (h.subs w).vals) := by
    intro x hx
    constructor
    · intro q
      by_cases hn : x ∈ (h.subs w).vals
      · exact hn
      · rw [hs x hx hn] at q; exact absurd q (by simp)
    · intro q; exact (hsub x q).2
  have es : ({ h with subs := upd h.subs w ⟨l, some d⟩ } : Heap).subs w = ⟨l, some d⟩ := upd_same _ _ _
  obtain ⟨f, p, hr, hf⟩ := adoptCopy_ok w l { h with subs := upd h.subs w ⟨l, some d⟩ } g.nodup
    (by rw [es]; exact g.congr rfl rfl rfl rfl rfl) (by
      intro x hx
      rw [es]
      by_cases q : x ∈ (h.subs w).vals
      · exact Or.inr ⟨(hsub x q).2, hx⟩
      · exact Or.inl (hs x hx q))
  rw [es] at hr hf
  simp only [upd_upd] at hr
  have hfil : (l.filter fun x => decide (¬ (x ∈ l ∧ h.sup x = some w))) =
      l.filter fun x => decide (x ∉ (h.subs w).vals) := by
    apply List.filter_congr
    intro x hx
    simp [hx, hmem x hx]
  have gf : GoodList h (l.filter fun x => decide (x ∉ (h.subs w).vals)) := g.sub List.filter_sublist
  refine ⟨f, p, ?_, fun r hr' => hf r hr'⟩
  unfold setSubsCopy
  mstep M.get_apply h
  mstep hmk
  have e1 : setSubsetListCopy w l h = .ok () { h with
        subs := upd h.subs w ⟨l.filter fun x => decide (x ∉ (h.subs w).vals), some d⟩
        sup := fun r => if r ∈ l then some w else h.sup r
        within := fun r => if r ∈ (l.filter fun x => decide (x ∉ (h.subs w).vals)) then some (.ival w)
          else if r ∈ l ∧ h.sup r = some w then none else h.within r
        cont := upd h.cont w .alias
        fol := folOf (l.filter fun x => decide (x ∉ (h.subs w).vals)) f
        prev := prevOf none (l.filter fun x => decide (x ∉ (h.subs w).vals)) p } := by
    unfold setSubsetListCopy
    mstep allInst_ok w l h hi
    rw [if_pos rfl]
    mstep hmk
    mstep (show putSubs w ⟨l, some d⟩ h = .ok () { h with subs := upd h.subs w ⟨l, some d⟩ } from rfl)
    mstep hr
    mstep setContainsSubs_ok w _
    mstep M.get_apply _
    simp only [upd_same]
    rw [hfil]
    rw [setPrecedence_ok _ _ gf.nodup (by intro a ha b hb; exact gf.cls a ha b hb)
      (by intro a ha; exact gf.label a ha)]
  mstep e1
  rw [forL_forget w (l.filter fun x => decide (x ∉ (h.subs w).vals)) (h.subs w).vals _
    (by simp only [upd_same]) hnd (by
      intro o ho
      refine ⟨by simp [(hsub o ho).1], ?_⟩
      rintro (q | ⟨y, hy, q⟩)
      · simp at q; exact q.2 ho
      · have hy' := List.mem_filter.mp hy
        have := g.distinct y hy'.1 o (hsub o ho).1 q
        subst this
        simp at hy'; exact hy'.2 ho)]
  congr 2
  funext r
  by_cases e : r ∈ (h.subs w).vals
  · simp [e]
  · by_cases e' : r ∈ l
    · simp [e, e']
    · simp [e, e']

end ATG
