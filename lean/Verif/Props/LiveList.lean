import Verif.Lemmas.LiveList
import Verif.Props.Hierarchy
/-!
# C79: giving an interval the subset list of another
-/
namespace ATG

/-- **C79**, as it is: `w.set_subset_list(v.subset_list)` puts all the entries of `v` into the list of `w`, but only
    those at the even positions leave `v`: the loop runs over the list of `v` while entries are removed from it, and so
    skips every second one. -/
theorem C79_every_other (h : Heap) (w v : Ref) (c : CRef) (hv : v ≠ w) (hag : Agree h)
    (hgood : ∀ u, GoodList h (h.subs u).vals) (hc : h.ct.sub (h.cls w) = some c)
    (hi : ∀ x ∈ (h.subs v).vals, h.ct.isSub (h.cls x) c = true) :
    ∃ h', setSubsetListLive w v h = .ok () h' ∧ (h'.subs w).vals.Perm (h.subs v).vals ∧
      (∀ (i : Nat) x, (h.subs v).vals[i]? = some x →
        (h'.sup x = some w ↔ i % 2 = 0) ∧ (h'.sup x = some v ↔ i % 2 = 1) ∧ (x ∈ (h'.subs v).vals ↔ i % 2 = 1)) := by
  have hg := hgood v
  generalize hl : (h.subs v).vals = l at *
  let h1 : Heap := { h with subs := upd h.subs w ⟨slSort h l, headCls h l⟩ }
  have ax : AgreeX (fun _ => True) h1 w := by
    refine ⟨?_, ?_, ?_⟩
    · intro u hu x
      show x ∈ (upd h.subs w _ u).vals → h.sup x = some u
      rw [upd_ne _ _ _ _ hu]
      exact (hag u x).mp
    · intro u hu x _
      show h.sup x = some u → x ∈ (upd h.subs w _ u).vals
      rw [upd_ne _ _ _ _ hu]
      exact (hag u x).mpr
    · intro u hu
      show GoodList h1 (upd h.subs w _ u).vals
      rw [upd_ne _ _ _ _ hu]
      exact (hgood u).congr rfl rfl rfl rfl rfl
  have hl1 : (h1.subs v).vals = l := by
    show (upd h.subs w _ v).vals = l
    rw [upd_ne _ _ _ _ hv, hl]
  obtain ⟨f, p, e1, -, -⟩ := adoptAll_ok w (everyOther l) (fun _ _ => trivial) h1 ax
  have hsw : ((adopted h1 w (everyOther l) f p).subs w).vals = slSort h l := by
    show (adoptedSubs h1 w (everyOther l) w).vals = _
    unfold adoptedSubs
    rw [if_pos rfl]
    show (upd h.subs w _ w).vals = _
    rw [upd_same]
  have hsv : ((adopted h1 w (everyOther l) f p).subs v).vals = l.filter (· ∉ everyOther l) := by
    show (adoptedSubs h1 w (everyOther l) v).vals = _
    unfold adoptedSubs
    rw [if_neg hv, hl1]
  have hsup : (adopted h1 w (everyOther l) f p).sup = fun r => if r ∈ everyOther l then some w else h.sup r := rfl
  have hmem : ∀ x, x ∈ slSort h l ↔ x ∈ l := fun x => (slSort_perm h l).mem_iff
  generalize hh2 : adopted h1 w (everyOther l) f p = h2 at *
  have ecls : h2.cls = h.cls := by rw [← hh2]; rfl
  have elbl : h2.label = h.label := by rw [← hh2]; rfl
  let h3 : Heap := { h2 with
    cont := upd h2.cont w .alias
    within := fun r => if r ∈ (h2.subs w).vals then some (.ival w) else h2.within r }
  refine ⟨{ h3 with fol := folOf (slSort h l) h3.fol, prev := prevOf none (slSort h l) h3.prev }, ?_, ?_, ?_⟩
  · unfold setSubsetListLive
    mstep M.get_apply h
    rw [hl]
    mstep allInst_ok w l h (fun x hx => ⟨c, hc, hi x hx⟩)
    rw [if_pos rfl]
    mstep slMk_ok h l hg.cls
    mstep (show putSubs w ⟨slSort h l, headCls h l⟩ h = .ok () h1 from rfl)
    mstep (show adoptLive w v l.length 0 h1 = .ok () h2 by
      rw [adoptLive_eq w v hv l.length 0 h1 ax (by rw [hl1]; omega), hl1, List.drop_zero, e1])
    mstep (show setContainsSubs w h2 = .ok () h3 from setContainsSubs_ok w h2)
    mstep M.get_apply h3
    rw [show (h3.subs w).vals = slSort h l from hsw]
    exact setPrecedence_ok h3 (slSort h l) ((slSort_perm h l).nodup_iff.mpr hg.nodup)
      (fun x hx y hy => by
        show h2.cls x = h2.cls y
        rw [ecls]; exact hg.cls x ((hmem x).mp hx) y ((hmem y).mp hy))
      (fun x hx => by
        show h2.label x ≠ "#"
        rw [elbl]; exact hg.label x ((hmem x).mp hx))
  · show (h2.subs w).vals.Perm l
    rw [hsw]; exact slSort_perm h l
  · intro i x hx
    show (h2.sup x = some w ↔ _) ∧ (h2.sup x = some v ↔ _) ∧ (x ∈ (h2.subs v).vals ↔ _)
    rw [hsup, hsv, List.mem_filter]
    have hm := mem_everyOther l hg.nodup i x hx
    have hxv : h.sup x = some v := (hag v x).mp (by rw [hl]; exact List.mem_of_getElem? hx)
    have hxl := List.mem_of_getElem? hx
    have hwv : w ≠ v := Ne.symm hv
    by_cases e : x ∈ everyOther l
    · have e0 := hm.mp e
      simp [e, e0, hwv]
    · have e0 : i % 2 = 1 := by
        have : ¬ i % 2 = 0 := fun q => e (hm.mpr q)
        omega
      simp [e, e0, hxv, hv, hxl]

/-- Word 0 with the phones 2, 3, 4, and word 1. -/
def exLiveOps : List Op :=
  [.create cWord 0 3 "a", .create cWord 0 3 "b", .create cPhone 0 1 "p", .create cPhone 1 2 "q", .create cPhone 2 3 "r",
    .assign 0 [2, 3, 4]]

def exLive : Heap := runAll exLiveOps (emptyHeap baseClasses)

/-- The hypotheses of `C79_every_other` are met. -/
example : Agree exLive ∧ (∀ u, GoodList exLive (exLive.subs u).vals) ∧
    exLive.ct.sub (exLive.cls 1) = some cPhone ∧ (exLive.subs 0).vals = [2, 3, 4] ∧
    ∀ x ∈ (exLive.subs 0).vals, exLive.ct.isSub (exLive.cls x) cPhone = true := by
  have i := ((Inv.empty baseClasses [cWord, cPhone] flat_wordphone).runAll exLiveOps (by decide +kernel)).1
  exact ⟨i.agree, i.good, by decide +kernel, by decide +kernel, by decide +kernel⟩

/-- **C79, violated**: afterwards the second phone is in the lists of both words, and the first word is still its
    superset. -/
theorem C79_violated : ((setSubsetListLive 1 0 exLive).heap.subs 1).vals = [2, 3, 4] ∧
    ((setSubsetListLive 1 0 exLive).heap.subs 0).vals = [3] ∧
    ¬ Agree (setSubsetListLive 1 0 exLive).heap := by
  refine ⟨by decide +kernel, by decide +kernel, fun h => absurd ((h 1 3).mp (by decide +kernel)) (by decide +kernel)⟩

end ATG
