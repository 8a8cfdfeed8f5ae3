import Verif.Lemmas.Fuse
/-!
# Fusing two intervals: dropping the fused one
-/
namespace ATG

/-- the tier without `y` -/
def untiered (k : Heap) (t : TRef) (y : Ref) : Heap :=
  { k with tseq := upd k.tseq t ⟨(k.tseq t).vals.erase y, (k.tseq t).ecls⟩ }

/-- the tier linked again -/
def retiered (k : Heap) (t : TRef) (l : List Ref) : Heap :=
  { k with
    fol := folOf l k.fol
    prev := prevOf none l k.prev
    intier := fun r => if r ∈ l then some t else k.intier r
    tcont := upd k.tcont t .alias
    within := fun r => if r ∈ l then some (.tier t) else k.within r }

theorem slRemoveAt_tier {k k' : Heap} (t : TRef) (y : Ref) (hy : y ∈ (k.tseq t).vals)
    (g : GoodList k (k.tseq t).vals) (hrun : removeSuperset y (untiered k t y) = .ok () k') :
    slRemoveAt (fun h => h.tseq t) (putSeq t) y k = .ok () k' := by
  unfold slRemoveAt
  mstep M.get_apply k
  have hL : Listed k (k.tseq t).vals y := Or.inl hy
  obtain ⟨i, hi⟩ := slIndexOf_isSome k _ y hL
  rw [hi]
  simp only []
  rw [eraseIdx_slIndexOf k _ y hy (fun z hz hh => g.distinct z hz y hy hh) i hi]
  mstep (show putSeq t _ k = .ok () (untiered k t y) from rfl)
  exact hrun

theorem tierPop_plain {k k' : Heap} (t : TRef) (y : Ref) (hy : y ∈ (k.tseq t).vals)
    (g : GoodList k (k.tseq t).vals) (hrun : removeSuperset y (untiered k t y) = .ok () k')
    (hs : k.tsup t ≠ some cTop) : tierPop t y k = .ok () k' := by
  unfold tierPop
  mstep M.get_apply k
  rw [if_pos ((slContains_iff k _ y).mpr (Or.inl hy))]
  mstep slRemoveAt_tier t y hy g hrun
  rw [if_neg hs]
  rfl

theorem tierPop_top {k : Heap} (t : TRef) (y : Ref) (hy : y ∈ (k.tseq t).vals)
    (g : GoodList k (k.tseq t).vals) (hn : k.sup y = none) (hpt : k.isPointTier t = false)
    (hs : k.tsup t = some cTop) : tierPop t y k = .ok () (retiered (untiered k t y) t ((k.tseq t).vals.erase y)) := by
  unfold tierPop
  mstep M.get_apply k
  rw [if_pos ((slContains_iff k _ y).mpr (Or.inl hy))]
  mstep slRemoveAt_tier t y hy g (removeSuperset_none y (untiered k t y) hn)
  rw [if_pos hs]
  have hl : ((untiered k t y).tseq t).vals = (k.tseq t).vals.erase y := by
    show (upd k.tseq t _ t).vals = _
    rw [upd_same]
  have hsub : ((k.tseq t).vals.erase y).Sublist (k.tseq t).vals := List.erase_sublist
  rw [tierPrecedence_ok t (untiered k t y) cTop hpt hs (by rw [hl]; exact g.nodup.sublist hsub)
    (by rw [hl]; intro a ha b hb; exact g.cls a (hsub.subset ha) b (hsub.subset hb))
    (by rw [hl]; intro a ha; exact g.label a (hsub.subset ha)), hl]
  rw [if_pos (isSub_refl _ _), if_pos (isSub_refl _ _)]
  rfl

/-- the interval tier of `x`, holding `y` as well -/
structure OnTier (k : Heap) (t : TRef) (x y : Ref) : Prop where
  intier : k.intier x = some t
  mem : y ∈ (k.tseq t).vals
  good : GoodList k (k.tseq t).vals

theorem OnTier.pos {k : Heap} {t : TRef} {x y : Ref} (o : OnTier k t x y) : 0 < (k.tseq t).vals.length :=
  List.length_pos_of_mem o.mem

/-- on a top tier -/
theorem fuseDrop_top {k : Heap} {t : TRef} {x y : Ref} (o : OnTier k t x y) (hx : k.sup x = none)
    (hn : k.sup y = none) (hpt : k.isPointTier t = false) (hs : k.tsup t = some cTop) :
    fuseDrop x y k = .ok () (retiered (untiered k t y) t ((k.tseq t).vals.erase y)) := by
  unfold fuseDrop
  mstep M.get_apply k
  rw [o.intier]
  simp only [gt_iff_lt, o.pos, if_true]
  have hp := tierPop_top t y o.mem o.good hn hpt hs
  cases decide (k.ct.sup (k.cls x) = some cTop) with
  | true => exact hp
  | false =>
    simp only []
    mstep hp
    mstep M.get_apply _
    rw [show (retiered (untiered k t y) t ((k.tseq t).vals.erase y)).sup x = none from hx]
    rfl

/-- on another tier, without a superset -/
theorem fuseDrop_plain {k : Heap} {t : TRef} {x y : Ref} (o : OnTier k t x y) (hx : k.sup x = none)
    (hn : k.sup y = none) (hs : k.tsup t ≠ some cTop) :
    fuseDrop x y k = .ok () (untiered k t y) := by
  unfold fuseDrop
  mstep M.get_apply k
  rw [o.intier]
  simp only [gt_iff_lt, o.pos, if_true]
  have hp := tierPop_plain t y o.mem o.good (removeSuperset_none y (untiered k t y) hn) hs
  cases decide (k.ct.sup (k.cls x) = some cTop) with
  | true => exact hp
  | false =>
    simp only []
    mstep hp
    mstep M.get_apply _
    rw [show (untiered k t y).sup x = none from hx]
    rfl

/-- on another tier, in a superset -/
theorem fuseDrop_sub {L : Ref → Prop} {k : Heap} {t : TRef} {x y s : Ref} (td : TidyOn L k) (hL : L y) (o : OnTier k t x y) (hx : k.sup x = some s)
    (hn : k.sup y = some s) (hxy : x ≠ y) (hs : k.tsup t ≠ some cTop) :
    fuseDrop x y k = .ok () (removed (untiered k t y) s y) := by
  have hm : y ∈ (k.subs s).vals := td.up s y hL hn
  have g := td.good s
  have hp := tierPop_plain t y o.mem o.good (removeSuperset_ok s y (untiered k t y) hn hm
    (g.congr rfl rfl rfl rfl rfl)) hs
  unfold fuseDrop
  mstep M.get_apply k
  rw [o.intier]
  simp only [gt_iff_lt, o.pos, if_true]
  cases decide (k.ct.sup (k.cls x) = some cTop) with
  | true => exact hp
  | false =>
    simp only []
    mstep hp
    mstep M.get_apply _
    have e1 : (removed (untiered k t y) s y).sup x = some s := by
      show upd k.sup y none x = _
      rw [upd_ne _ _ _ _ hxy]; exact hx
    rw [e1]
    simp only []
    have e2 : ((removed (untiered k t y) s y).subs s).vals = (k.subs s).vals.erase y := by
      show (upd k.subs s _ s).vals = _
      rw [upd_same]; rfl
    have e3 : slContains (removed (untiered k t y) s y) ((k.subs s).vals.erase y) y = false := by
      rw [slContains_false_iff]
      exact not_listed_erase k _ y g hm
    rw [e2, e3, Bool.and_false]
    rfl

/-- outside tiers, in a superset -/
theorem fuseDrop_untiered {L : Ref → Prop} {k : Heap} {x y s : Ref} (td : TidyOn L k) (hL : L y) (ht : k.intier x = none) (hx : k.sup x = some s)
    (hn : k.sup y = some s) :
    fuseDrop x y k = .ok () { removed k s y with fol := k.fol, prev := k.prev } := by
  have hm : y ∈ (k.subs s).vals := td.up s y hL hn
  unfold fuseDrop
  mstep M.get_apply k
  rw [ht]
  simp only []
  have e3 : slContains k (k.subs s).vals y = true := (slContains_iff k _ y).mpr (Or.inl hm)
  have hc : (if (k.subs s).vals.length > 0 && slContains k (k.subs s).vals y then subsRemove s y else pure ()) k =
      .ok () { removed k s y with fol := k.fol, prev := k.prev } := by
    rw [e3, if_pos (by simpa using List.length_pos_of_mem hm)]
    exact subsRemove_ok s y k hn hm (td.good s)
  have : (do
      (pure () : M Unit)
      let h ← M.get
      match h.sup x with
      | none => pure ()
      | some s =>
        if (h.subs s).vals.length > 0 && slContains h (h.subs s).vals y then subsRemove s y
        else pure () : M Unit) k = .ok () { removed k s y with fol := k.fol, prev := k.prev } := by
    mstep M.get_apply k
    rw [hx]
    exact hc
  cases decide (k.ct.sup (k.cls x) = some cTop) <;> exact this

/-- outside tiers and supersets -/
theorem fuseDrop_free {k : Heap} {x y : Ref} (ht : k.intier x = none) (hx : k.sup x = none) :
    fuseDrop x y k = .ok () k := by
  unfold fuseDrop
  mstep M.get_apply k
  rw [ht]
  simp only []
  have : (do
      (pure () : M Unit)
      let h ← M.get
      match h.sup x with
      | none => pure ()
      | some s =>
        if (h.subs s).vals.length > 0 && slContains h (h.subs s).vals y then subsRemove s y
        else pure () : M Unit) k = .ok () k := by
    mstep M.get_apply k
    rw [hx]
    rfl
  cases decide (k.ct.sup (k.cls x) = some cTop) <;> exact this

end ATG
