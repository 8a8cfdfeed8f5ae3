import Verif.Lemmas.InterleaveRun
import Verif.Lemmas.Homely
/-!
# The group after a tier was interleaved
-/
namespace ATG

theorem getElem?_weave {α} {pre post : List α} {n : α} {i : Nat} {t t' : α}
    (e1 : (pre ++ n :: post)[i]? = some t) (e2 : (pre ++ n :: post)[i + 1]? = some t') :
    ((∃ j : Nat, (pre ++ post)[j]? = some t ∧ (pre ++ post)[j + 1]? = some t') ∨
      (pre.getLast? = some t ∧ t' = n) ∨ (t = n ∧ post.head? = some t')) := by
  by_cases h1 : i + 1 < pre.length
  · rw [List.getElem?_append_left (by omega)] at e1 e2
    exact Or.inl ⟨i, by rw [List.getElem?_append_left (by omega)]; exact e1,
      by rw [List.getElem?_append_left (by omega)]; exact e2⟩
  · by_cases h2 : i + 1 = pre.length
    · rw [List.getElem?_append_left (by omega)] at e1
      rw [List.getElem?_append_right (by omega), h2] at e2
      simp at e2
      refine Or.inr (Or.inl ⟨?_, e2.symm⟩)
      rw [List.getLast?_eq_getElem?, ← e1]
      congr 1
      omega
    · by_cases h3 : i = pre.length
      · rw [h3, List.getElem?_append_right (by omega)] at e1 e2
        simp at e1
        refine Or.inr (Or.inr ⟨e1.symm, ?_⟩)
        rw [show pre.length + 1 - pre.length = 1 by omega] at e2
        rw [List.head?_eq_getElem?]
        simpa using e2
      · rw [List.getElem?_append_right (by omega)] at e1 e2
        refine Or.inl ⟨i - 1, ?_, ?_⟩
        · rw [List.getElem?_append_right (by omega)]
          rw [show i - pre.length = (i - 1 - pre.length) + 1 by omega] at e1
          simpa using e1
        · rw [List.getElem?_append_right (by omega)]
          rw [show i + 1 - pre.length = (i - 1 + 1 - pre.length) + 1 by omega] at e2
          simpa using e2

theorem getElem?_middle {α} {pre post : List α} {a b : α} (e1 : pre.getLast? = some a) (e2 : post.head? = some b) :
    (pre ++ post)[pre.length - 1]? = some a ∧ (pre ++ post)[pre.length - 1 + 1]? = some b := by
  have hp : pre ≠ [] := by intro q; rw [q] at e1; simp at e1
  have : 0 < pre.length := List.length_pos_iff.mpr hp
  rw [List.getLast?_eq_getElem?] at e1
  rw [List.head?_eq_getElem?] at e2
  constructor
  · rw [List.getElem?_append_left (by omega)]; exact e1
  · rw [List.getElem?_append_right (by omega), show pre.length - 1 + 1 - pre.length = 0 by omega]; exact e2

namespace Woven
variable {h h5 : Heap} {g : GRef} {tiers : List TRef} {k : TRef} {new : CRef} {labels : Bool} {rs : List Ref}

theorem mem_rs (w : Woven h g tiers k new labels rs h5) (x : Ref) (hx : x ∈ rs) : h.nE ≤ x ∧ x < h5.nE := by
  have := w.nE
  rw [w.range] at hx this
  rw [List.length_range'] at this
  have := List.mem_range'.mp hx
  obtain ⟨i, hi, rfl⟩ := this
  constructor
  · unfold Ref at *; omega
  · unfold Ref at *; omega

theorem old_rs (w : Woven h g tiers k new labels rs h5) (x : Ref) (hx : x < h.nE) : x ∉ rs := fun q => by
  have := (w.mem_rs x q).1
  unfold Ref at *; omega

theorem allocated (w : Woven h g tiers k new labels rs h5) (al : Allocated h) (v x : Ref) (hx : x ∈ (h5.subs v).vals) :
    v ∉ rs ∧ x ∉ rs ∧ x ∈ (h.subs v).vals ∧ v < h.nE ∧ x < h.nE := by
  have hv : v ∉ rs := by
    intro q
    rw [(w.fresh v q).2.1] at hx
    simp [SL.empty] at hx
  rw [w.subs v hv] at hx
  have := al v x hx
  exact ⟨hv, w.old_rs x this.2, hx, this⟩

theorem tidy {L : Ref → Prop} (w : Woven h g tiers k new labels rs h5) (al : Allocated h) (td : TidyOn L h) :
    TidyOn (fun x => L x ∨ x ∈ rs) h5 := by
  have hgood : ∀ v, ∀ x ∈ (h5.subs v).vals, ∀ y ∈ (h5.subs v).vals, SameValue h5 x y → SameValue h x y := by
    intro v x hx y hy
    obtain ⟨-, a2, -⟩ := w.allocated al v x hx
    obtain ⟨-, b2, -⟩ := w.allocated al v y hy
    unfold SameValue Heap.isPoint
    rw [w.cls x a2, w.cls y b2, w.start x a2, w.start y b2, w.stop x a2, w.stop y b2, w.label x a2,
      w.label y b2, w.ct]
    exact id
  refine ⟨?_, ?_, ?_, ?_, ?_, ?_⟩
  · intro v x hx
    obtain ⟨-, a2, a3, -⟩ := w.allocated al v x hx
    rw [w.sup x a2]
    exact td.down v x a3
  · intro v x hL hx
    by_cases hr : x ∈ rs
    · rw [(w.fresh x hr).2.2] at hx; simp at hx
    · rw [w.sup x hr] at hx
      have := td.up v x (hL.resolve_right hr) hx
      rw [w.subs v (w.old_rs v (al v x this).1)]
      exact this
  · intro v
    by_cases hv : v ∈ rs
    · rw [(w.fresh v hv).2.1]; simp [SL.empty]
    · rw [w.subs v hv]; exact td.nodup v
  · intro v x hx y hy hs
    have a := w.allocated al v x hx
    have b := w.allocated al v y hy
    exact td.distinct v x a.2.2.1 y b.2.2.1 (hgood v x hx y hy hs)
  · intro v x hx y hy
    have a := w.allocated al v x hx
    have b := w.allocated al v y hy
    rw [w.cls x a.2.1, w.cls y b.2.1]
    exact td.cls v x a.2.2.1 y b.2.2.1
  · intro v x hx
    have a := w.allocated al v x hx
    rw [w.label x a.2.1]
    exact td.label v x a.2.2.1

end Woven

theorem FitGroup.sorted {h : Heap} {ts : List TRef} (f : FitGroup h ts) (t : TRef) (ht : t ∈ ts) :
    SortedByStart h (h.tseq t).vals := by
  have h1 := f.disjoint t ht
  have h2 := f.positive t ht
  unfold SortedByStart
  rw [List.pairwise_iff_forall_sublist] at h1 ⊢
  intro a b hab
  have := h1 hab
  have := h2 a (hab.subset (by simp))
  grind

/-- The result of interleaving a tier into the group `g`, whose tiers were `pre` and `post`. -/
structure Interleaved (L : Ref → Prop) (h : Heap) (g : GRef) (pre post : List TRef) (k : TRef) (new : CRef)
    (labels : Bool) (h' : Heap) : Prop where
  gtiers : h'.gtiers = upd (upd h.gtiers g (pre ++ h.nT :: post)) h.nG (pre ++ h.nT :: post)
  nG : h'.nG = h.nG + 1
  gpoint : h'.gpoint = upd h.gpoint h.nG false
  agroups : h'.agroups = h.agroups
  ct : h'.ct = h.ct
  copy : CopyOf h k h' h.nT new labels
  related : RelatedByContainment h' (pre ++ h.nT :: post)
  fit : FitGroup h' (pre ++ h.nT :: post)
  up : UpClosed h' (pre ++ h.nT :: post)
  tidy : TidyOn (fun x => L x ∨ h.nE ≤ x ∧ x < h'.nE) h'
  allocated : Allocated h'
  allocatedUp : AllocatedUp h'
  nE : h.nE ≤ h'.nE
  nT : h'.nT = h.nT + 1
  entries : ∀ x, x < h.nE → h'.start x = h.start x ∧ h'.stop x = h.stop x ∧ h'.label x = h.label x ∧
    h'.cls x = h.cls x
  tiers : ∀ t, t < h.nT → h'.tseq t = h.tseq t ∧ h'.tcls t = h.tcls t ∧ h'.tname t = h.tname t
  links : ∀ t, t < h.nT → t ∉ pre ++ post → h'.tsup t = h.tsup t ∧ h'.tsub t = h.tsub t
  apart : ∀ x, x < h.nE → ¬ Beneath h (pre ++ post) x → (h'.subs x).vals = (h.subs x).vals ∧ h'.sup x = h.sup x ∧
    h'.within x = h.within x ∧ h'.cont x = h.cont x ∧ h'.fol x = h.fol x ∧ h'.prev x = h.prev x
  outside : ∀ v x, x ∈ (h'.subs v).vals → x ∈ (h.subs v).vals ∨
    (∃ t ∈ pre ++ h.nT :: post, v ∈ (h'.tseq t).vals) ∧ ∃ t ∈ pre ++ h.nT :: post, x ∈ (h'.tseq t).vals
  outsideUp : ∀ v x, h'.sup x = some v → h.sup x = some v ∨
    OnTiers h' (pre ++ h.nT :: post) v ∧ OnTiers h' (pre ++ h.nT :: post) x
  home : ∀ x ∈ (h'.tseq h.nT).vals, h'.intier x = some h.nT
  intier : ∀ x, x < h.nE → h'.intier x = h.intier x
  tsup : ∀ t ∈ pre ++ h.nT :: post, h'.tsup t = h.ct.sup (h'.tcls t) ∧ h'.tsub t = h.ct.sub (h'.tcls t)
  typed : Typed h' (pre ++ h.nT :: post)
  ecls : ∀ x, x < h.nE → ¬ OnTiers h (pre ++ post) x → (h'.subs x).ecls = (h.subs x).ecls
  first : ∀ t, pre.head? = some t → ∀ x ∈ (h.tseq t).vals, h.sup x = none →
    h'.fol x = h.fol x ∧ h'.within x = h.within x ∧ h'.prev x = h.prev x
  chained : pre = [] → UnderTop h.ct new → Strung h' (pre ++ h.nT :: post)
  backed : pre = [] → Backed h' (pre ++ h.nT :: post)

theorem interleaveGroup_ok {L : Ref → Prop} (h : Heap) (g : GRef) (new d : CRef) (k : TRef) (labels : Bool)
    (pre post : List TRef) (hsp : h.gtiers g = pre ++ post)
    (hd : ∀ t ∈ pre, h.tcls t ≠ d) (hd' : ∀ t, post.head? = some t → h.tcls t = d)
    (hk : post.head? = some k ∨ pre.getLast? = some k)
    (cl : ClassLinks h.ct (pre.map h.tcls ++ new :: post.map h.tcls))
    (hpt : h.ct.isSub new cPoint = false) (hne : (h.tseq k).vals ≠ []) (fit : FitGroup h (pre ++ post))
    (td : TidyOn L h) (hL : ∀ x, OnTiers h (pre ++ post) x → L x) (uc : UpClosed h (pre ++ post)) (ac : Allocated h)
    (au : AllocatedUp h) :
    ∃ h', interleaveGroup g new (some d) (some (h.tcls k)) labels h = .ok h.nG h' ∧
      Interleaved L h g pre post k new labels h' := by
  have hkm : k ∈ pre ++ post := by
    rcases hk with hk | hk
    · exact List.mem_append.mpr (Or.inr (List.mem_of_head? hk))
    · exact List.mem_append.mpr (Or.inl (List.mem_of_getLast? hk))
  have hnd : ((pre ++ post).map h.tcls).Nodup := by
    rw [List.map_append]
    have := cl.distinct
    exact this.sublist (List.Sublist.append_left (List.sublist_cons_self _ _) _)
  have hsup : ∃ s, h.ct.sup new = some s := by
    cases hq : pre.getLast? with
    | none =>
      have : pre = [] := List.getLast?_eq_none_iff.mp hq
      subst this
      obtain ⟨p, q, -⟩ := cl.top new (by simp)
      exact ⟨p, q⟩
    | some a =>
      have := getElem?_middle (pre := pre.map h.tcls) (post := new :: post.map h.tcls) (a := h.tcls a) (b := new)
        (by rw [List.getLast?_map, hq]; rfl) rfl
      exact ⟨_, (cl.down _ _ _ this.1 this.2).2⟩
  obtain ⟨s, hsup⟩ := hsup
  have hold : ∀ t ∈ h.gtiers g, t < h.nT := fun t ht => (fit.old t (by rw [← hsp]; exact ht)).1
  obtain ⟨rs, h5, e, w⟩ := interleaveGroup_woven h g new d s k labels pre post hsp hd hd'
    (find_of_nodup h.tcls k _ (by rw [hsp]; exact hnd) (by rw [hsp]; exact hkm)) hsup hpt hne
    (fit.label k hkm) (fit.sorted k hkm) hold
  have hnot : ∀ t ∈ pre ++ post, t ≠ h.nT := fun t ht => Nat.ne_of_lt (fit.old t ht).1
  have htc : ∀ t ∈ pre ++ post, h5.tcls t = h.tcls t := fun t ht => by rw [w.tcls, upd_ne _ _ _ _ (hnot t ht)]
  have htq : ∀ t ∈ pre ++ post, h5.tseq t = h.tseq t := fun t ht => w.tseq t (hnot t ht)
  have hoE : ∀ t ∈ pre ++ post, ∀ x ∈ (h.tseq t).vals, x ∉ rs := fun t ht x hx =>
    w.old_rs x ((fit.old t ht).2 x hx)
  have hmem : ∀ t, t ∈ pre ++ h.nT :: post → t = h.nT ∨ t ∈ pre ++ post := by
    intro t ht
    simp only [List.mem_append, List.mem_cons] at ht ⊢
    rcases ht with q | q | q
    · exact Or.inr (Or.inl q)
    · exact Or.inl q
    · exact Or.inr (Or.inr q)
  have hmem' : ∀ t, t ∈ pre ++ post → t ∈ pre ++ h.nT :: post := by
    intro t ht
    simp only [List.mem_append, List.mem_cons] at ht ⊢
    exact ht.imp id Or.inr
  have hmapT : (pre ++ h.nT :: post).map h5.tcls = pre.map h.tcls ++ new :: post.map h.tcls := by
    rw [List.map_append, List.map_cons, w.tcls, upd_same]
    congr 1
    · apply List.map_congr_left
      intro t ht; exact upd_ne _ _ _ _ (hnot t (by simp [ht]))
    · congr 1
      apply List.map_congr_left
      intro t ht; exact upd_ne _ _ _ _ (hnot t (by simp [ht]))
  have hspan : ∀ t ∈ pre ++ post, (h5.tseq t).vals.map h5.span = (h.tseq t).vals.map h.span := by
    intro t ht
    rw [htq t ht]
    apply List.map_congr_left
    intro x hx
    unfold Heap.span
    rw [w.start x (hoE t ht x hx), w.stop x (hoE t ht x hx)]
  have hspanN : (h5.tseq h.nT).vals.map h5.span = (h.tseq k).vals.map h.span := by
    rw [w.tvals]
    have := congrArg (List.map (fun p : Time × Time × String => (p.1, p.2.1))) w.values
    simp only [List.map_map, Function.comp_def] at this
    exact this
  have hself : Aligned h5 (h5.tseq k).vals (h5.tseq h.nT).vals ∧ Aligned h5 (h5.tseq h.nT).vals (h5.tseq k).vals := by
    apply Aligned.copy
    · rw [hspanN, hspan k hkm]
    · have := fit.disjoint k hkm
      rw [htq k hkm]
      refine List.Pairwise.imp_of_mem ?_ this
      intro a b ha hb hab
      rw [w.stop a (hoE k hkm a ha), w.start b (hoE k hkm b hb)]; exact hab
    · intro x hx
      rw [htq k hkm] at hx
      rw [w.stop x (hoE k hkm x hx), w.start x (hoE k hkm x hx)]
      exact fit.positive k hkm x hx
  have hal : ∀ (i : Nat) t t', (pre ++ h.nT :: post)[i]? = some t → (pre ++ h.nT :: post)[i + 1]? = some t' →
      Aligned h5 (h5.tseq t).vals (h5.tseq t').vals := by
    intro i t t' e1 e2
    rcases getElem?_weave e1 e2 with ⟨j, q1, q2⟩ | ⟨q1, rfl⟩ | ⟨rfl, q2⟩
    · exact (fit.aligned j t t' q1 q2).of_spans (hspan t (List.mem_of_getElem? q1)) (hspan t' (List.mem_of_getElem? q2))
    · have ht : t ∈ pre ++ post := by simp [List.mem_of_getLast? q1]
      rcases hk with hk | hk
      · have := getElem?_middle q1 hk
        exact (fit.aligned _ t k this.1 this.2).of_spans (hspan t ht) hspanN
      · rw [q1, Option.some.injEq] at hk
        subst hk
        exact hself.1
    · have ht : t' ∈ pre ++ post := by simp [List.mem_of_head? q2]
      rcases hk with hk | hk
      · rw [q2, Option.some.injEq] at hk
        subst hk
        exact hself.2
      · have := getElem?_middle hk q2
        exact (fit.aligned _ k t' this.1 this.2).of_spans hspanN (hspan t' ht)
  have honce : ((pre ++ h.nT :: post).map fun t => (h5.tseq t).vals).flatten.Nodup := by
    have hp : ((pre ++ h.nT :: post).map fun t => (h5.tseq t).vals).flatten.Perm
        (rs ++ ((pre ++ post).map fun t => (h.tseq t).vals).flatten) := by
      have : ((pre ++ post).map fun t => (h.tseq t).vals) = ((pre ++ post).map fun t => (h5.tseq t).vals) := by
        apply List.map_congr_left
        intro t ht; rw [htq t ht]
      rw [this]
      refine ((List.perm_middle.map _).flatten).trans ?_
      rw [List.map_cons, List.flatten_cons, w.tvals]
    rw [hp.nodup_iff, List.nodup_append]
    refine ⟨by rw [w.range]; exact List.nodup_range', fit.once, ?_⟩
    intro a ha b hb hab
    obtain ⟨l, hl, hbl⟩ := List.mem_flatten.mp hb
    obtain ⟨t, ht, rfl⟩ := List.mem_map.mp hl
    exact hoE t ht b hbl (hab ▸ ha)
  have hcls5 : ∀ t ∈ pre ++ h.nT :: post, ∀ x ∈ (h5.tseq t).vals, h5.cls x = h5.tcls t := by
    intro t ht x hx
    rcases hmem t ht with rfl | ht
    · rw [w.tvals] at hx
      rw [(w.fresh x hx).1, w.tcls, upd_same]
    · rw [htq t ht] at hx
      rw [w.cls x (hoE t ht x hx), htc t ht]
      exact fit.cls t ht x hx
  have hlab5 : ∀ t ∈ pre ++ h.nT :: post, ∀ x ∈ (h5.tseq t).vals, h5.label x ≠ "#" := by
    intro t ht x hx
    rcases hmem t ht with rfl | ht
    · rw [w.tvals] at hx
      have : (h5.start x, h5.stop x, h5.label x) ∈ (h.tseq k).vals.map fun x => (h.start x, h.stop x, if labels then h.label x else "") := by
        rw [← w.values]; exact List.mem_map.mpr ⟨x, hx, rfl⟩
      obtain ⟨y, hy, hyx⟩ := List.mem_map.mp this
      simp only [Prod.mk.injEq] at hyx
      rw [← hyx.2.2]
      cases labels
      · simp
      · exact fit.label k hkm y hy
    · rw [htq t ht] at hx
      rw [w.label x (hoE t ht x hx)]
      exact fit.label t ht x hx
  have al5 : AlignedTiers h5 (pre ++ h.nT :: post) := by
    refine ⟨honce, hcls5, hlab5, ?_, hal⟩
    intro i t t' e1 e2
    have q1 : ((pre ++ h.nT :: post).map h5.tcls)[i]? = some (h5.tcls t) := by rw [List.getElem?_map, e1]; rfl
    have q2 : ((pre ++ h.nT :: post).map h5.tcls)[i + 1]? = some (h5.tcls t') := by rw [List.getElem?_map, e2]; rfl
    rw [hmapT] at q1 q2
    rw [w.ct]
    exact (cl.down i _ _ q1 q2).1
  have ch5 : ClassChain h5 (pre ++ h.nT :: post) := by
    apply ClassLinks.chain
    · rw [hmapT, w.ct]; exact cl
    · intro t ht; rw [w.ct]; exact w.tsup t ht
    · intro t ht; rw [w.ct]; exact w.tsub t ht
  have hE5 : ∀ x, x ∈ entriesOf h5 (pre ++ h.nT :: post) ↔ x ∈ rs ∨ ∃ t ∈ pre ++ post, x ∈ (h.tseq t).vals := by
    intro x
    rw [mem_entriesOf]
    constructor
    · rintro ⟨t, ht, hx⟩
      rcases hmem t ht with rfl | ht
      · rw [w.tvals] at hx; exact Or.inl hx
      · rw [htq t ht] at hx; exact Or.inr ⟨t, ht, hx⟩
    · rintro (hx | ⟨t, ht, hx⟩)
      · exact ⟨h.nT, by simp, by rw [w.tvals]; exact hx⟩
      · exact ⟨t, hmem' t ht, by rw [htq t ht]; exact hx⟩
  have hcl5 : ∀ v x, x ∈ (h5.subs v).vals →
      (v ∈ entriesOf h5 (pre ++ h.nT :: post) ↔ x ∈ entriesOf h5 (pre ++ h.nT :: post)) := by
    intro v x hx
    obtain ⟨a1, a2, a3, -⟩ := w.allocated ac v x hx
    rw [hE5, hE5]
    simp only [a1, a2, false_or]
    exact fit.closed v x a3
  have hup5 : ∀ v x, h5.sup x = some v → h.sup x = some v ∧ x ∉ rs ∧ v ∉ rs := by
    intro v x hx
    have hr : x ∉ rs := fun hr => by rw [(w.fresh x hr).2.2] at hx; cases hx
    rw [w.sup x hr] at hx
    exact ⟨hx, hr, w.old_rs v (au v x hx).1⟩
  obtain ⟨h', e', b1, b2, b3, b4, b5, b6, b7, b8, b9, b10, b11, b13, -, b12⟩ :=
    newGroup_among (pre ++ h.nT :: post) h5 ch5 (by simp) al5 (A := fun x => Beneath h (pre ++ post) x ∨ x ∈ rs)
      (w.tidy ac td) (fun x hx => ((hE5 x).mp hx).elim Or.inr (fun q => Or.inl (hL x q)))
      (fun x hx => ((hE5 x).mp hx).elim Or.inr (fun q => Or.inl (.on q)))
      (by
        intro v x hx
        obtain ⟨q1, q2, q3⟩ := hup5 v x hx
        simp only [q2, q3, or_false]
        exact uc.beneath q1)
  obtain ⟨h6, e6, kd1, kd2, kd3, kd4, kd5⟩ := newGroup_kinds (pre ++ h.nT :: post) h5 ch5 (by simp) al5 (w.tidy ac td)
    (fun x hx => ((hE5 x).mp hx).elim Or.inr (fun q => Or.inl (hL x q)))
  have hkd : h6 = h' := by
    rw [e'] at e6
    injection e6 with _ q
    exact q.symm
  subst hkd
  have b5 := b5 fun v hv x hx _ => (hcl5 v x hx).mp hv
  have b11 : ∀ v x, x ∈ (h6.subs v).vals → x ∈ (h5.subs v).vals ∨ v ∈ entriesOf h5 (pre ++ h.nT :: post) ∧
      x ∈ entriesOf h5 (pre ++ h.nT :: post) := fun v x hx => (b11 v x hx).imp And.left id
  have hlt5 : ∀ y, y ∈ entriesOf h5 (pre ++ h.nT :: post) → y < h5.nE := by
    intro y hy
    rcases (hE5 y).mp hy with q | ⟨t, ht, q⟩
    · exact (w.mem_rs y q).2
    · have := (fit.old t ht).2 y q
      have q := w.nE
      unfold Ref at *; omega
  have hsp' : h6.span = h5.span := by unfold Heap.span; rw [b4.start, b4.stop]
  refine ⟨h6, by rw [e, e', w.nG], ?_⟩
  constructor
  · rw [b1, w.gtiers, w.nG]
  · rw [b2, w.nG]
  · rw [kd5, w.gpoint, w.nG]
  · rw [b10, w.agroups]
  · rw [b4.ct, w.ct]
  · constructor
    · rw [b4.tseq, b4.start, b4.stop, b4.label, w.tvals]; exact w.values
    · rw [b4.tcls, w.tcls, upd_same]
    · intro x hx
      rw [b4.tseq, w.tvals] at hx
      rw [b4.cls]; exact (w.fresh x hx).1
    · refine ⟨Nat.le_refl _, ?_⟩
      intro x hx
      rw [b4.tseq, w.tvals] at hx
      exact (w.mem_rs x hx).1
  · exact b3
  · constructor
    · rw [b4.tseq]; exact honce
    · rw [b4.tseq, b4.cls, b4.tcls]; exact hcls5
    · rw [b4.tseq, b4.label]; exact hlab5
    · intro t ht
      rw [b4.tseq, b4.start, b4.stop]
      rcases hmem t ht with rfl | ht
      · exact hself.1.lowerDisjoint
      · rw [htq t ht]
        refine List.Pairwise.imp_of_mem ?_ (fit.disjoint t ht)
        intro a b ha hb hab
        rw [w.stop a (hoE t ht a ha), w.start b (hoE t ht b hb)]; exact hab
    · intro t ht x hx
      rw [b4.tseq] at hx
      rw [b4.start, b4.stop]
      rcases hmem t ht with rfl | ht
      · have : h5.span x ∈ (h.tseq k).vals.map h.span := by rw [← hspanN]; exact List.mem_map.mpr ⟨x, hx, rfl⟩
        obtain ⟨y, hy, hyx⟩ := List.mem_map.mp this
        have := fit.positive k hkm y hy
        unfold Heap.span at hyx
        simp only [Prod.mk.injEq] at hyx
        rw [← hyx.1, ← hyx.2]; exact this
      · rw [htq t ht] at hx
        rw [w.stop x (hoE t ht x hx), w.start x (hoE t ht x hx)]
        exact fit.positive t ht x hx
    · intro i t t' e1 e2
      rw [b4.tseq]
      exact (hal i t t' e1 e2).congr b4.start b4.stop
    · intro v x hx
      rw [b4.tseq]
      simp only [← mem_entriesOf]
      rcases b11 v x hx with q | q
      · exact hcl5 v x q
      · exact ⟨fun _ => q.2, fun _ => q.1⟩
    · intro t ht
      rw [b4.tseq, b4.nE, b7, w.nT]
      rcases hmem t ht with rfl | ht
      · refine ⟨Nat.lt_succ_self _, ?_⟩
        intro x hx
        rw [w.tvals] at hx
        exact (w.mem_rs x hx).2
      · refine ⟨Nat.lt_succ_of_lt (fit.old t ht).1, ?_⟩
        intro x hx
        rw [htq t ht] at hx
        have := (fit.old t ht).2 x hx
        have q := w.nE
        unfold Ref at *; omega
  · intro v x hx hxt
    unfold OnTiers at hxt ⊢
    rw [b4.tseq, ← mem_entriesOf] at hxt ⊢
    rcases b13 v x hx with q | q
    · exact absurd hxt q.2
    · exact q.1
  · refine b5.mono ?_
    intro x hx
    refine hx.imp id fun q => ?_
    have q1 := w.nE
    have q2 := b4.nE
    have q3 := congrArg List.length w.range
    rw [List.length_range'] at q3
    rw [w.range, List.mem_range'_1]
    unfold Ref at *; omega
  · intro v x hx
    rw [b4.nE]
    rcases b11 v x hx with q | q
    · have := w.allocated ac v x q
      have q := w.nE
      unfold Ref at *; omega
    · exact ⟨hlt5 _ q.1, hlt5 _ q.2⟩
  · intro v x hx
    rw [b4.nE]
    rcases b13 v x hx with q | q
    · have := au v x (hup5 v x q.1).1
      have q := w.nE
      unfold Ref at *; omega
    · exact ⟨hlt5 _ q.1, hlt5 _ q.2⟩
  · rw [b4.nE, w.nE]; unfold Ref at *; omega
  · rw [b7, w.nT]
  · intro x hx
    have := w.old_rs x hx
    rw [b4.start, b4.stop, b4.label, b4.cls]
    exact ⟨w.start x this, w.stop x this, w.label x this, w.cls x this⟩
  · intro t ht
    rw [b4.tseq, b4.tcls, b4.tname]
    have hn : t ≠ h.nT := Nat.ne_of_lt ht
    exact ⟨w.tseq t hn, by rw [w.tcls, upd_ne _ _ _ _ hn], w.tname t hn⟩
  · intro t ht hn
    rw [b8, b9]
    have hne' : t ≠ h.nT := Nat.ne_of_lt ht
    refine w.links t ?_ hne'
    intro q
    rcases hmem t q with q | q
    · exact hne' q
    · exact hn q
  · intro x hx hn
    have hr := w.old_rs x hx
    have hn5 : ¬ (Beneath h (pre ++ post) x ∨ x ∈ rs) := fun q => q.elim hn hr
    rw [b6.subs x hn5, b6.sup x hn5, b6.within x hn5, b6.cont x hn5, b6.fol x hn5, b6.prev x hn5,
      w.subs x hr, w.sup x hr, w.within x hr, w.cont x hr, w.fol x hr, w.prev x hr]
    exact ⟨rfl, rfl, rfl, rfl, rfl, rfl⟩
  · intro v x hx
    rw [b4.tseq]
    simp only [← mem_entriesOf]
    rcases b11 v x hx with q | q
    · exact Or.inl (w.allocated ac v x q).2.2.1
    · exact Or.inr q
  · intro v x hx
    unfold OnTiers
    rw [b4.tseq]
    simp only [← mem_entriesOf]
    rcases b13 v x hx with q | q
    · exact Or.inl (hup5 v x q.1).1
    · exact Or.inr q
  · intro x hx
    rw [b4.tseq, w.tvals] at hx
    rw [kd4]; exact w.home x hx
  · intro x hx
    rw [kd4]; exact w.intier x (w.old_rs x hx)
  · intro t ht
    rw [b8, b9, b4.tcls]; exact ⟨w.tsup t ht, w.tsub t ht⟩
  · intro i t t' q1 q2 v hv
    rw [b4.tseq] at hv
    rw [b4.tcls]
    exact kd2 i t t' q1 q2 v hv
  · intro x hx hn
    rw [kd1 x, w.subs x (w.old_rs x hx)]
    rintro ⟨t, ht, hxt⟩
    rcases hmem t ht with rfl | ht
    · rw [w.tvals] at hxt
      exact w.old_rs x hx hxt
    · rw [htq t ht] at hxt
      exact hn ⟨t, ht, hxt⟩
  · intro t ht x hx hs
    have htm : t ∈ pre ++ post := List.mem_append_left _ (List.mem_of_head? ht)
    have hr := hoE t htm x hx
    have k := kd3 t (by rw [← List.head?_eq_getElem?, List.head?_append, ht]; rfl) x (by rw [htq t htm]; exact hx)
      (by rw [w.sup x hr]; exact hs)
    rw [k.1, k.2.1, k.2.2]
    exact ⟨w.fol x hr, w.within x hr, w.prev x hr⟩
  · rintro rfl htop t ht i u hu
    simp only [List.nil_append, List.getElem?_cons_zero, Option.some.injEq] at ht
    subst ht
    rw [b4.tseq] at hu ⊢
    have hum := List.mem_of_getElem? hu
    have k := kd3 h.nT rfl u hum (w.fresh u (by rw [← w.tvals]; exact hum)).2.2
    rw [k.1, k.2.1]
    rw [w.tvals] at hu hum ⊢
    exact ⟨w.chain i u hu, w.rooted htop u hum⟩
  · rintro rfl t ht i u hu
    simp only [List.nil_append, List.getElem?_cons_zero, Option.some.injEq] at ht
    subst ht
    rw [b4.tseq] at hu ⊢
    have hum := List.mem_of_getElem? hu
    have k := kd3 h.nT rfl u hum (w.fresh u (by rw [← w.tvals]; exact hum)).2.2
    rw [k.2.2]
    rw [w.tvals] at hu ⊢
    exact w.back i u hu

end ATG
