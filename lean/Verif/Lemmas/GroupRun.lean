import Verif.Lemmas.RelateChain
/-!
# Building a group of aligned tiers
-/
namespace ATG

theorem Tidy.good {h : Heap} (t : Tidy h) (v : Ref) : GoodList h (h.subs v).vals :=
  ⟨t.nodup v, t.distinct v, t.cls v, t.label v⟩

theorem TidyOn.good {L : Ref → Prop} {h : Heap} (t : TidyOn L h) (v : Ref) : GoodList h (h.subs v).vals :=
  ⟨t.nodup v, t.distinct v, t.cls v, t.label v⟩

theorem Tidy.on {h : Heap} (t : Tidy h) (L : Ref → Prop) : TidyOn L h :=
  ⟨fun v x hx => (t.agree v x).mp hx, fun v x _ hx => (t.agree v x).mpr hx, t.nodup, t.distinct, t.cls, t.label⟩

theorem TidyOn.tidy {L : Ref → Prop} {h : Heap} (t : TidyOn L h) (hL : ∀ x, L x) : Tidy h :=
  ⟨fun v x => ⟨t.down v x, t.up v x (hL x)⟩, t.nodup, t.distinct, t.cls, t.label⟩

theorem TidyOn.mono {L L' : Ref → Prop} {h : Heap} (t : TidyOn L h) (hL : ∀ x, L' x → L x) : TidyOn L' h :=
  ⟨t.down, fun v x hx => t.up v x (hL x hx), t.nodup, t.distinct, t.cls, t.label⟩

theorem folOf_notMem (l : List Ref) (f : Ref → Option Link) (r : Ref) (hr : r ∉ l) :
    folOf l f r = f r := by simp [folOf, hr]

theorem prevOf_notMem (p) (l : List Ref) (f : Ref → Option Link) (r : Ref) (hr : r ∉ l) :
    prevOf p l f r = f r := by simp [prevOf, hr]

/-- what freeing the entries `R` of their supersets does -/
structure Frees (h h' : Heap) (R : List Ref) : Prop where
  frame : h' = { h with subs := h'.subs, sup := h'.sup, within := h'.within, fol := h'.fol,
                        prev := h'.prev }
  sup : ∀ x, h'.sup x = if x ∈ R then none else h.sup x
  within : ∀ x, h'.within x = if x ∈ R ∧ h.sup x ≠ none then none else h.within x
  subs : ∀ v, h'.subs v = ⟨(h.subs v).vals.filter (· ∉ R), (h.subs v).ecls⟩
  links : ∀ x, (∀ v, h.sup x = some v → ∀ y ∈ (h.subs v).vals, y ∉ R) →
    h'.fol x = h.fol x ∧ h'.prev x = h.prev x
  tidy : ∀ L, (∀ x ∈ R, L x) → TidyOn L h → TidyOn L h'

theorem frees_nil (h : Heap) : Frees h h [] :=
  ⟨rfl, by simp, by simp, by intro v; rw [List.filter_eq_self.mpr (by simp)], fun _ _ => ⟨rfl, rfl⟩, fun _ _ t => t⟩

theorem removed_tidy {L : Ref → Prop} {h : Heap} (t : TidyOn L h) (w x : Ref) (hs : h.sup x = some w) :
    TidyOn L (removed h w x) := by
  have hsub : ∀ v, ((removed h w x).subs v).vals.Sublist (h.subs v).vals := by
    intro v
    by_cases e : v = w
    · subst e; simp only [removed, upd_same]; exact List.erase_sublist
    · simp only [removed]; rw [upd_ne _ _ _ _ (by romega)]; exact List.Sublist.refl _
  have hg : ∀ v, GoodList h ((removed h w x).subs v).vals := fun v => (t.good v).sub (hsub v)
  have hg' : ∀ v, GoodList (removed h w x) ((removed h w x).subs v).vals := fun v =>
    (hg v).congr rfl rfl rfl rfl rfl
  have hsx : (removed h w x).sup x = none := by simp [removed]
  have hsy : ∀ y, y ≠ x → (removed h w x).sup y = h.sup y := fun y ey => by
    simp only [removed]; exact upd_ne _ _ _ _ (by romega)
  have hmem : ∀ v y, y ≠ x → (y ∈ ((removed h w x).subs v).vals ↔ y ∈ (h.subs v).vals) := by
    intro v y ey
    by_cases ev : v = w
    · subst ev
      have : ((removed h v x).subs v).vals = (h.subs v).vals.erase x := by simp [removed]
      rw [this, (t.nodup v).mem_erase_iff]
      simp [ey]
    · have : ((removed h w x).subs v) = h.subs v := by
        simp only [removed]; exact upd_ne _ _ _ _ (by romega)
      rw [this]
  have hnot : ∀ v, x ∉ ((removed h w x).subs v).vals := by
    intro v hv
    by_cases ev : v = w
    · subst ev
      have : ((removed h v x).subs v).vals = (h.subs v).vals.erase x := by simp [removed]
      rw [this, (t.nodup v).mem_erase_iff] at hv
      exact hv.1 rfl
    · have : ((removed h w x).subs v) = h.subs v := by
        simp only [removed]; exact upd_ne _ _ _ _ (by romega)
      rw [this] at hv
      have := t.down v x hv
      rw [hs] at this
      exact ev (Option.some.inj this).symm
  refine ⟨?_, ?_, fun v => (hg' v).nodup, fun v => (hg' v).distinct, fun v => (hg' v).cls,
    fun v => (hg' v).label⟩
  · intro v y hy
    have ey : y ≠ x := fun e => hnot v (e ▸ hy)
    rw [hsy y ey]
    exact t.down v y ((hmem v y ey).mp hy)
  · intro v y hL hy
    have ey : y ≠ x := fun e => by rw [e, hsx] at hy; cases hy
    rw [hsy y ey] at hy
    exact (hmem v y ey).mpr (t.up v y hL hy)

theorem removeSuperset_frees {L : Ref → Prop} (x : Ref) (h : Heap) (t : TidyOn L h) (hL : L x) :
    ∃ h', removeSuperset x h = .ok () h' ∧ Frees h h' [x] := by
  cases hs : h.sup x with
  | none =>
    refine ⟨h, removeSuperset_none x h hs, rfl, ?_, ?_, ?_, fun _ _ => ⟨rfl, rfl⟩, fun _ _ t => t⟩
    · intro y
      by_cases e : y = x
      · subst e; simp [hs]
      · simp [e]
    · intro y
      by_cases e : y = x
      · subst e; simp [hs]
      · simp [e]
    · intro v
      rw [List.filter_eq_self.mpr]
      intro y hy
      have := t.down v y hy
      simp; intro e; subst e; rw [hs] at this; simp at this
  | some w =>
    have hx : x ∈ (h.subs w).vals := t.up w x hL hs
    refine ⟨removed h w x, removeSuperset_ok w x h hs hx (t.good w), rfl, ?_, ?_, ?_, ?_,
      fun _ _ t => removed_tidy t w x hs⟩
    · intro y
      by_cases e : y = x
      · subst e; simp [removed]
      · simp only [removed]; rw [upd_ne _ _ _ _ (by romega)]; simp [e]
    · intro y
      by_cases e : y = x
      · subst e; simp [removed, hs]
      · simp only [removed]; rw [upd_ne _ _ _ _ (by romega)]; simp [e]
    · intro v
      by_cases e : v = w
      · subst e
        simp only [removed, upd_same]
        rw [(t.nodup v).erase_eq_filter]
        congr 1
        apply List.filter_congr
        intro y _
        simp
        rfl
      · simp only [removed]; rw [upd_ne _ _ _ _ (by romega)]
        rw [List.filter_eq_self.mpr]
        intro y hy
        have := t.down v y hy
        simp; intro e'; subst e'; rw [hs] at this; simp at this; exact e this.symm
    · intro y hy
      have hn : y ∉ (h.subs w).vals.erase x := by
        intro hh
        have := t.down w y (List.mem_of_mem_erase hh)
        exact hy w this x hx (by simp)
      exact ⟨folOf_notMem _ _ _ hn, prevOf_notMem _ _ _ _ hn⟩

theorem Frees.append {h h1 h2 : Heap} {R S : List Ref} (a : Frees h h1 R) (b : Frees h1 h2 S) :
    Frees h h2 (R ++ S) := by
  refine ⟨by rw [b.frame, a.frame], ?_, ?_, ?_, ?_, fun L hL t =>
    b.tidy L (fun x hx => hL x (by simp [hx])) (a.tidy L (fun x hx => hL x (by simp [hx])) t)⟩
  · intro x; rw [b.sup, a.sup]; by_cases e1 : x ∈ R <;> by_cases e2 : x ∈ S <;> simp [e1, e2]
  · intro x; rw [b.within, a.within, a.sup]
    by_cases e1 : x ∈ R <;> by_cases e2 : x ∈ S <;> by_cases e3 : h.sup x = none <;> simp [e1, e2, e3]
  · intro v; rw [b.subs, a.subs]
    simp only [List.filter_filter]
    congr 1
    apply List.filter_congr
    intro y _
    rw [Bool.eq_iff_iff]; simp; constructor <;> (intro hh; exact ⟨hh.2, hh.1⟩)
  · intro x hx
    have h1 := a.links x fun v hv y hy hR => hx v hv y hy (by simp [hR])
    have h2 := b.links x (by
      intro v hv y hy hS
      rw [a.sup] at hv
      split at hv
      · simp at hv
      · rw [a.subs] at hy
        exact hx v hv y (List.mem_filter.mp hy).1 (by simp [hS]))
    rw [h2.1, h2.2, h1.1, h1.2]; exact ⟨rfl, rfl⟩

theorem forL_frees {L : Ref → Prop} (R : List Ref) (hL : ∀ x ∈ R, L x) : ∀ h : Heap, TidyOn L h →
    ∃ h', M.forL R (fun x => removeSuperset x) h = .ok () h' ∧ Frees h h' R := by
  induction R with
  | nil => intro h t; exact ⟨h, rfl, frees_nil h⟩
  | cons x xs ih =>
    intro h t
    obtain ⟨h1, e1, f1⟩ := removeSuperset_frees x h t (hL x (by simp))
    obtain ⟨h2, e2, f2⟩ := ih (fun y hy => hL y (by simp [hy])) h1 (f1.tidy L (by simpa using hL x (by simp)) t)
    refine ⟨h2, ?_, f1.append f2⟩
    rw [M.forL_cons, e1]; exact e2

theorem forL_tiers_frees {L : Ref → Prop} (ts : List TRef) : ∀ h : Heap, TidyOn L h →
    (∀ t ∈ ts, ∀ x ∈ (h.tseq t).vals, L x) →
    ∃ h', M.forL ts (fun t => do
      let h ← M.get
      M.forL (h.tseq t).vals (fun x => removeSuperset x)) h = .ok () h' ∧
      Frees h h' (ts.map fun t => (h.tseq t).vals).flatten := by
  induction ts with
  | nil => intro h t _; exact ⟨h, rfl, frees_nil h⟩
  | cons t ts ih =>
    intro h td hL
    obtain ⟨h1, e1, f1⟩ := forL_frees (h.tseq t).vals (hL t (by simp)) h td
    have hq : h1.tseq = h.tseq := by rw [f1.frame]
    obtain ⟨h2, e2, f2⟩ := ih h1 (f1.tidy L (hL t (by simp)) td) (by
      rw [hq]; exact fun t' ht' => hL t' (by simp [ht']))
    rw [hq] at f2
    refine ⟨h2, ?_, ?_⟩
    · rw [M.forL_cons]
      have hb : (do
          let h ← M.get
          M.forL (h.tseq t).vals (fun x => removeSuperset x) : M Unit) h = .ok () h1 := by
        mstep M.get_apply h
        exact e1
      rw [show _ = Res.ok () _ from hb]
      exact e2
    · rw [List.map_cons, List.flatten_cons]; exact f1.append f2

/-- the heap after `contains` was set -/
def contained (h : Heap) (g : GRef) (l : List TRef) : Heap :=
  { h with gcont := upd h.gcont g (some l), twithin := fun t => if t ∈ l then some g else h.twithin t }

theorem setContainsGroup_ok (g : GRef) (l : List TRef) (h : Heap) :
    setContainsGroup g l h = .ok () (contained h g l) := by
  unfold setContainsGroup
  mstep (show M.modify _ h = .ok () _ from rfl)
  have key : ∀ (l : List TRef) (h : Heap), M.forL l
      (fun t => M.modify fun h => { h with twithin := upd h.twithin t (some g) }) h =
      .ok () { h with twithin := fun t => if t ∈ l then some g else h.twithin t } := by
    intro l
    induction l with
    | nil => intro h; simp
    | cons t ts ih =>
      intro h
      rw [M.forL_cons]
      simp only [M.modify]
      rw [ih]
      congr 2
      funext s
      by_cases e : s ∈ ts
      · simp [e]
      · by_cases e2 : s = t <;> simp [e, e2, upd]
  rw [key]
  rfl

end ATG
