import Verif.Lemmas.Headless
import Verif.Props.Reload
/-!
# C95: a textgrid needs the highest class of each hierarchy
-/
namespace ATG

/-- Nothing but the counter and the records of the textgrids and the classes has changed: no entry, tier or group was made or altered, and the old
    textgrids and classes are as they were. -/
structure OnlyEmptyTextgrid (h h' : Heap) : Prop where
  same : { h' with ct := h.ct, nA := h.nA, agroups := h.agroups, acont := h.acont, acloned := h.acloned } = h
  textgrids : ∀ a, a < h.nA → h'.agroups a = h.agroups a ∧ h'.acont a = h.acont a ∧ h'.acloned a = h.acloned a
  classes : Ext h.ct h'.ct

/-- C95: let the classes given for the tiers of a textgrid belong to hierarchies `full`, with plain and different names, and let one of them, `c`,
    come without the highest class of its hierarchy. However the tiers and the classes are distributed, and whatever the tiers contain,
    `AlignedTextGrid(…)` raises `ValueError`; no entry, tier or group is made or altered. -/
theorem C95_import (h : Heap) (r : ReachC h.ct) (tiers : List PTier) (arg : ClassArg) (tss : List (List PTier)) (css : List (List CRef))
    (hn : nestify h.ct tiers arg = .ok (tss, css)) (full : List (List CRef)) (gc : GoodClasses h.ct full)
    (hl : ∀ c ∈ css.flatten, c ∈ full.flatten) (L : List CRef) (hL : L ∈ full) (c : CRef) (hc : c ∈ L) (hcl : c ∈ css.flatten)
    (ht : ∀ t, L.head? = some t → t ∉ css.flatten) :
    ∃ h', newAtg tiers arg h = .err .valueError h' ∧ OnlyEmptyTextgrid h h' := by
  obtain ⟨ct', new, e, x, hne⟩ := reclone_headless r.wfc gc css.flatten hl hL hc ht
  obtain ⟨l, hlm, hcm⟩ := List.mem_flatten.mp hcl
  have es : (css.mapM fun l => swapClasses ct' l new) = .error .valueError :=
    mapM_error_mem _ .valueError css (fun a _ => swapClasses_cases a new) hlm (swapClasses_missing hcm hne)
  let h1 : Heap := { h with nA := h.nA + 1, agroups := upd h.agroups h.nA [], acont := upd h.acont h.nA [], acloned := upd h.acloned h.nA [] }
  let h2 : Heap := { h1 with ct := ct', acloned := upd (upd h.acloned h.nA []) h.nA new }
  refine ⟨h2, ?_, ⟨rfl, ?_, x⟩⟩
  · unfold newAtg
    mstep (show newAtgObj h = .ok h.nA h1 from rfl)
    mstep (show M.get h1 = .ok h1 h1 from rfl)
    mstep (show liftE (nestify h1.ct tiers arg) h1 = .ok (tss, css) h1 by
      rw [show nestify h1.ct tiers arg = .ok (tss, css) from hn]; rfl)
    refine M.bind_err ?_
    unfold relateTiers
    have e1 : recloneA h.nA css.flatten h1 = .ok () h2 := by
      unfold recloneA
      mstep (show M.get h1 = .ok h1 h1 from rfl)
      have : h1.acloned h.nA = [] := upd_same _ _ _
      rw [this]
      mstep (show liftC (fun ct => reclone [] ct css.flatten) h1 = .ok new { h1 with ct := ct' } by
        unfold liftC; dsimp only; rw [show reclone [] h1.ct css.flatten = (ct', .ok new) from e])
      rw [M.modify_apply]
      have q : (h1.acloned h.nA) = [] := this
      show Res.ok () { h1 with ct := ct', acloned := upd h1.acloned h.nA (h1.acloned h.nA ++ new) } = _
      rw [q]; rfl
    mstep e1
    mstep (show M.get h2 = .ok h2 h2 from rfl)
    refine M.bind_err ?_
    have : h2.acloned h.nA = new := upd_same _ _ _
    rw [this, show h2.ct = ct' from rfl, es]
    rfl
  · intro a ha
    have : a ≠ h.nA := by unfold ARef at *; omega
    exact ⟨upd_ne _ _ _ _ this, upd_ne _ _ _ _ this, (upd_ne _ _ _ _ this).trans (upd_ne _ _ _ _ this)⟩

/-- C95 for `append`: a group of tiers that has a class without the highest class of its hierarchy is not taken into a textgrid that has no classes
    of its own yet. -/
theorem C95_append (h : Heap) (r : ReachC h.ct) (a : ARef) (ha : h.acloned a = []) (g : GRef) (full : List (List CRef))
    (gc : GoodClasses h.ct full) (hl : ∀ t ∈ h.gtiers g, h.tcls t ∈ full.flatten) (L : List CRef) (hL : L ∈ full) (t : TRef)
    (htg : t ∈ h.gtiers g) (hc : h.tcls t ∈ L) (ht : ∀ u ∈ h.gtiers g, L.head? ≠ some (h.tcls u)) :
    ∃ h', atgAppend a g h = .err .valueError h' ∧ Ext h.ct h'.ct ∧
      { h' with ct := h.ct, acloned := h.acloned } = h ∧ ∀ b, b ≠ a → h'.acloned b = h.acloned b := by
  have hcm : h.tcls t ∈ (h.gtiers g).map h.tcls := List.mem_map_of_mem htg
  obtain ⟨ct', new, e, x, hne⟩ := reclone_headless r.wfc gc ((h.gtiers g).map h.tcls) (fun c hc => by
    obtain ⟨u, hu, rfl⟩ := List.mem_map.mp hc; exact hl u hu) hL hc (fun d hd hdm => by
    obtain ⟨u, hu, rfl⟩ := List.mem_map.mp hdm; exact ht u hu hd)
  let h2 : Heap := { h with ct := ct', acloned := upd h.acloned a new }
  refine ⟨h2, ?_, x, rfl, fun b hb => upd_ne _ _ _ _ hb⟩
  unfold atgAppend
  mstep (show M.get h = .ok h h from rfl)
  rw [if_neg (by intro q; rw [q] at hcm; cases hcm)]
  mstep (show (pure () : M Unit) h = .ok () h from rfl)
  have e1 : recloneA a ((h.gtiers g).map h.tcls) h = .ok () h2 := by
    unfold recloneA
    mstep (show M.get h = .ok h h from rfl)
    rw [ha]
    mstep (show liftC (fun ct => reclone [] ct ((h.gtiers g).map h.tcls)) h = .ok new { h with ct := ct' } by
      unfold liftC; dsimp only; rw [e])
    rw [M.modify_apply]
    show Res.ok () { h with ct := ct', acloned := upd h.acloned a (h.acloned a ++ new) } = _
    rw [ha]; rfl
  mstep e1
  mstep (show M.get h2 = .ok h2 h2 from rfl)
  refine M.bind_err ?_
  have : h2.acloned a = new := upd_same _ _ _
  rw [this, show h2.ct = ct' from rfl, swapClasses_missing hcm hne]
  rfl

/-- the phones alone, with the class `Phone`, which has `Word` above it -/
example : ∃ h', newAtg [("p", [(0, 1, "K"), (1, 2, "AE")])] (.flat [cPhone]) heap0 = .err .valueError h' ∧ OnlyEmptyTextgrid heap0 h' :=
  C95_import heap0 .base _ _ [[("p", [(0, 1, "K"), (1, 2, "AE")])]] [[cPhone]] rfl [[cWord, cPhone], [cWord, cPhone]] wordPhone_good
    (by decide) [cWord, cPhone] (by simp) cPhone (by decide) (by decide) (by decide)

/-- a group of phones and an empty textgrid -/
def exLone : Heap :=
  let h := run0 (do
    let es ← newEntries cPhone [(0, 1, "K"), (1, 2, "AE")]
    let t ← newTier es none
    let _ ← newGroup [t]
    let _ ← newAtgObj
    pure ())
  { h with ct := heap0.ct }

example : exLone.gtiers 0 = [0] ∧ exLone.tcls 0 = cPhone ∧ ((exLone.tseq 0).vals.map exLone.label) = ["K", "AE"] ∧
    ∃ h', atgAppend 0 0 exLone = .err .valueError h' := by
  have hct : exLone.ct = heap0.ct := rfl
  have hg : exLone.gtiers 0 = [0] := by decide +kernel
  have hc : exLone.tcls 0 = cPhone := by decide +kernel
  refine ⟨hg, hc, by decide +kernel, ?_⟩
  obtain ⟨h', e, -⟩ := C95_append exLone (hct ▸ .base) 0 (by decide +kernel) 0 [[cWord, cPhone], [cWord, cPhone]]
    (hct ▸ wordPhone_good) (by rw [hg]; simp [hc]) [cWord, cPhone] (by simp) 0 (by rw [hg]; simp) (by rw [hc]; simp)
    (by rw [hg]; intro u hu; rw [List.mem_singleton.mp hu, hc]; decide)
  exact ⟨h', e⟩

end ATG
