import Verif.Lemmas.GapAlign
import Verif.Lemmas.ReRelate
import Verif.Spec.Cleanup
/-!
# Filling the gaps of several tiers
-/
namespace ATG

theorem blankedAll_away (c : CRef) (G : List (Time × Time)) :
    ∀ (h : Heap) (x : Ref), x < h.nE ∨ h.nE + G.length ≤ x →
      SameEntry h (blankedAll h c G) x ∧ (blankedAll h c G).cont x = h.cont x := by
  induction G with
  | nil => intro h x _; exact ⟨by constructor <;> rfl, rfl⟩
  | cons g G ih =>
    intro h x hx
    rw [List.length_cons] at hx
    have hne : x ≠ h.nE := by romega
    obtain ⟨a1, a2⟩ := ih (blanked h c g.1 g.2) x (by
      show x < h.nE + 1 ∨ h.nE + 1 + G.length ≤ x
      romega)
    refine ⟨SameEntry.trans (b := blanked h c g.1 g.2) ?_ a1, a2.trans (upd_ne _ _ _ _ hne)⟩
    constructor <;> exact upd_ne _ _ _ _ hne

theorem blankedAll_frame (c : CRef) (G : List (Time × Time)) :
    ∀ h : Heap, ∃ nE cls start stop label fol prev subs sup intier within cont,
      blankedAll h c G = { h with nE := nE, cls := cls, start := start, stop := stop, label := label, fol := fol,
                                  prev := prev, subs := subs, sup := sup, intier := intier, within := within,
                                  cont := cont } := by
  induction G with
  | nil => intro h; exact ⟨_, _, _, _, _, _, _, _, _, _, _, _, rfl⟩
  | cons g G ih =>
    intro h
    obtain ⟨n, a, b, c', d, e, f, g', i, j, k, l, q⟩ := ih (blanked h c g.1 g.2)
    exact ⟨n, a, b, c', d, e, f, g', i, j, k, l, q⟩

/-- the gaps of the tiers `ts` have been filled, those of `t` by the entries `new t` -/
structure Fills (h h' : Heap) (ts : List TRef) (new : TRef → List Ref) : Prop where
  nE : h.nE ≤ h'.nE
  frame : h' = { h with nE := h'.nE, cls := h'.cls, start := h'.start, stop := h'.stop, label := h'.label,
                        fol := h'.fol, prev := h'.prev, subs := h'.subs, sup := h'.sup, intier := h'.intier,
                        within := h'.within, cont := h'.cont, tseq := h'.tseq }
  away : ∀ x, x < h.nE ∨ h'.nE ≤ x → SameEntry h h' x ∧ h'.cont x = h.cont x
  made : ∀ x, h.nE ≤ x → x < h'.nE → ∃ t ∈ ts, x ∈ new t
  range : ∀ t ∈ ts, ∀ x ∈ new t, h.nE ≤ x ∧ x < h'.nE
  blank : ∀ t ∈ ts, ∀ x ∈ new t, ∃ s e, IsBlank h' (h.tcls t) s e x
  nodup : ∀ t ∈ ts, (new t).Nodup
  apart : ∀ t ∈ ts, ∀ u ∈ ts, t ≠ u → ∀ x ∈ new t, x ∉ new u
  other : ∀ u, u ∉ ts → h'.tseq u = h.tseq u
  ecls : ∀ t ∈ ts, (h'.tseq t).ecls = some (h.tcls t)
  sub : ∀ t ∈ ts, (h.tseq t).vals.Sublist (h'.tseq t).vals
  perm : ∀ t ∈ ts, (h'.tseq t).vals.Perm ((h.tseq t).vals ++ new t)
  spans : ∀ t ∈ ts, (new t).map h'.span = gapsOf ((h.tseq t).vals.map h.span)
  laid : ∀ t ∈ ts, Laid ((h'.tseq t).vals.map h'.span)
  gapless : ∀ t ∈ ts, gapsOf ((h'.tseq t).vals.map h'.span) = []

theorem fill_one (h : Heap) (t : TRef) (ft : Fillable h t) :
    ∃ h', tierFill t (gapsOf ((h.tseq t).vals.map h.span)) h = .ok () h' ∧
      Fills h h' [t] (fun _ => List.range' h.nE (gapsOf ((h.tseq t).vals.map h.span)).length) := by
  obtain ⟨L', hfill, hl, hgaps, hsub, hperm⟩ := tierFill_ok t (h.tcls t) _ h (h.tseq t).vals
    (by rw [← ft.ecls]) rfl ft.old ft.laid ft.pos rfl
  generalize hG : gapsOf ((h.tseq t).vals.map h.span) = G at *
  have hn := blankedAll_nE (h.tcls t) G h
  refine ⟨_, hfill, ?_⟩
  have hnew : ∀ (i : Nat) s e, G[i]? = some (s, e) →
      IsBlank { blankedAll h (h.tcls t) G with tseq := upd h.tseq t ⟨L', some (h.tcls t)⟩ } (h.tcls t) s e (h.nE + i) := by
    intro i s e hi
    have := blankedAll_new (h.tcls t) _ h i s e hi
    exact ⟨this.cls, this.start, this.stop, this.label, this.fol, this.prev, this.subs, this.sup, this.intier⟩
  constructor
  · show h.nE ≤ (blankedAll h (h.tcls t) G).nE
    rw [hn]; omega
  · obtain ⟨n, a, b, c', d, e, f, g', i, j, k, l, q⟩ := blankedAll_frame (h.tcls t) G h
    rw [q]
  · intro x hx
    obtain ⟨a, b⟩ := blankedAll_away (h.tcls t) G h x (by
      rcases hx with hx | hx
      · exact Or.inl hx
      · right; rw [← hn]; exact hx)
    exact ⟨⟨a.cls, a.start, a.stop, a.label, a.fol, a.prev, a.subs, a.sup, a.intier, a.within⟩, b⟩
  · intro x h1 h2
    have h2 : x < (blankedAll h (h.tcls t) G).nE := h2
    rw [hn] at h2
    exact ⟨t, by simp, by rw [List.mem_range']; exact ⟨x - h.nE, by romega, by romega⟩⟩
  · intro t' ht' x hx
    rw [List.mem_range'_1] at hx
    show _ ∧ x < (blankedAll h (h.tcls t) G).nE
    rw [hn]
    exact hx
  · intro t' ht' x hx
    have : t' = t := by simpa using ht'
    subst this
    rw [List.mem_range'_1] at hx
    obtain ⟨p, hp⟩ : ∃ p, G[x - h.nE]? = some p := ⟨_, List.getElem?_eq_getElem (by romega)⟩
    have := hnew (x - h.nE) p.1 p.2 hp
    rw [show h.nE + (x - h.nE) = x by romega] at this
    exact ⟨_, _, this⟩
  · intro t' ht'
    exact List.nodup_range'
  · intro t' ht' u hu hne
    have : t' = t := by simpa using ht'
    have : u = t := by simpa using hu
    subst this
    exact absurd ‹t' = u› hne
  · intro u hu
    exact upd_ne _ _ _ _ (by simpa using hu)
  · intro t' ht'
    have : t' = t := by simpa using ht'
    subst this
    show (upd h.tseq t' _ t').ecls = _
    rw [upd_same]
  · intro t' ht'
    have : t' = t := by simpa using ht'
    subst this
    show (h.tseq t').vals.Sublist (upd h.tseq t' _ t').vals
    rw [upd_same]
    exact hsub
  · intro t' ht'
    have : t' = t := by simpa using ht'
    subst this
    show (upd h.tseq t' _ t').vals.Perm _
    rw [upd_same]
    exact hperm
  · intro t' ht'
    have : t' = t := by simpa using ht'
    subst this
    rw [hG]
    apply List.ext_getElem?
    intro i
    rw [List.getElem?_map]
    by_cases hi : i < G.length
    · rw [List.getElem?_range' hi, List.getElem?_eq_getElem hi]
      have := hnew i _ _ (List.getElem?_eq_getElem hi)
      rw [Option.map_some, Nat.one_mul]
      unfold Heap.span
      rw [this.start, this.stop]
      rfl
    · rw [List.getElem?_eq_none (show G.length ≤ i by omega), List.getElem?_eq_none (by simp; omega)]; rfl
  · intro t' ht'
    have : t' = t := by simpa using ht'
    subst this
    show Laid ((upd h.tseq t' _ t').vals.map _)
    rw [upd_same]
    exact hl
  · intro t' ht'
    have : t' = t := by simpa using ht'
    subst this
    show gapsOf ((upd h.tseq t' _ t').vals.map _) = _
    rw [upd_same]
    exact hgaps

/-- fill the gaps of one tier after the other -/
def fillAll : List TRef → M Unit
  | [] => pure ()
  | t :: rest => do
    let h ← M.get
    tierFill t (gapsOf ((h.tseq t).vals.map h.span))
    fillAll rest

theorem Fills.span {h h' : Heap} {ts : List TRef} {new : TRef → List Ref} (f : Fills h h' ts new) {x : Ref}
    (hx : x < h.nE) : h'.span x = h.span x := by
  have := (f.away x (Or.inl hx)).1
  unfold Heap.span
  rw [this.start, this.stop]

theorem fillAll_ok : ∀ (ts : List TRef) (h : Heap), ts.Nodup → (∀ t ∈ ts, Fillable h t) →
    ∃ h' new, fillAll ts h = .ok () h' ∧ Fills h h' ts new := by
  intro ts
  induction ts with
  | nil =>
    intro h _ _
    refine ⟨h, fun _ => [], rfl, ?_⟩
    have hno : ∀ t : TRef, t ∉ ([] : List TRef) := fun t ht => nomatch ht
    exact ⟨Nat.le_refl _, rfl, fun x _ => ⟨by constructor <;> rfl, rfl⟩, fun x h1 h2 => by romega,
      fun t ht => absurd ht (hno t), fun t ht => absurd ht (hno t), fun t ht => absurd ht (hno t),
      fun t ht => absurd ht (hno t), fun _ _ => rfl, fun t ht => absurd ht (hno t), fun t ht => absurd ht (hno t),
      fun t ht => absurd ht (hno t), fun t ht => absurd ht (hno t), fun t ht => absurd ht (hno t),
      fun t ht => absurd ht (hno t)⟩
  | cons t rest ih =>
    intro h hnd hf
    obtain ⟨hnt, hnd'⟩ := List.nodup_cons.mp hnd
    obtain ⟨h1, e1, f1⟩ := fill_one h t (hf t (by simp))
    generalize List.range' h.nE (gapsOf ((h.tseq t).vals.map h.span)).length = N at f1
    have m1 : t ∈ [t] := by simp
    have hseq : ∀ u ∈ rest, h1.tseq u = h.tseq u := fun u hu => f1.other u (by
      intro e
      have : u = t := by simpa using e
      exact hnt (this ▸ hu))
    have htc : h1.tcls = h.tcls := by rw [f1.frame]
    have hmap : ∀ u ∈ rest, (h.tseq u).vals.map h1.span = (h.tseq u).vals.map h.span := fun u hu =>
      List.map_congr_left fun x hx => f1.span ((hf u (List.mem_cons_of_mem _ hu)).old x hx)
    obtain ⟨h2, new, e2, f2⟩ := ih h1 hnd' (by
      intro u hu
      have q := hf u (List.mem_cons_of_mem _ hu)
      refine ⟨?_, ?_, ?_, ?_⟩
      · intro x hx; rw [hseq u hu] at hx; have := q.old x hx; have := f1.nE; romega
      · rw [hseq u hu, htc]; exact q.ecls
      · rw [hseq u hu, hmap u hu]; exact q.laid
      · rw [hseq u hu, hmap u hu]
        intro hg x hx
        rw [(f1.away x (Or.inl (q.old x hx))).1.start]; exact q.pos hg x hx)
    have hN : ∀ x ∈ N, h.nE ≤ x ∧ x < h1.nE := fun x hx => f1.range t m1 x hx
    have hsp2 : ∀ x, x < h1.nE → h2.span x = h1.span x := fun x hx => f2.span hx
    have ht2 : h2.tseq t = h1.tseq t := f2.other t hnt
    have hin1 : ∀ x ∈ (h1.tseq t).vals, x < h1.nE := by
      intro x hx
      rcases List.mem_append.mp ((f1.perm t m1).mem_iff.mp hx) with hx | hx
      · have := (hf t (by simp)).old x hx; have := f1.nE; romega
      · exact (hN x hx).2
    have hmap2 : (h2.tseq t).vals.map h2.span = (h1.tseq t).vals.map h1.span := by
      rw [ht2]
      exact List.map_congr_left fun x hx => hsp2 x (hin1 x hx)
    have hnew : ∀ u ∈ rest, (if u = t then N else new u) = new u := fun u hu =>
      if_neg fun (e : u = t) => hnt (e ▸ hu)
    refine ⟨h2, fun u => if u = t then N else new u, ?_, ?_⟩
    · unfold fillAll
      mstep M.get_apply h
      mstep e1
      exact e2
    · have l1 := f1.nE
      have l2 := f2.nE
      constructor
      · exact Nat.le_trans l1 l2
      · have k := f2.frame
        rw [f1.frame] at k
        exact k
      · intro x hx
        have a := f1.away x (by romega)
        have b := f2.away x (by romega)
        exact ⟨a.1.trans b.1, b.2.trans a.2⟩
      · intro x a b
        by_cases hx : x < h1.nE
        · obtain ⟨u, hu, hxu⟩ := f1.made x a hx
          exact ⟨t, by simp, by simpa using hxu⟩
        · obtain ⟨u, hu, hxu⟩ := f2.made x (by romega) b
          exact ⟨u, List.mem_cons_of_mem _ hu, by simp only [hnew u hu]; exact hxu⟩
      · intro u hu x hx
        rcases List.mem_cons.mp hu with rfl | hu
        · simp only [if_true] at hx
          have := hN x hx
          romega
        · simp only [hnew u hu] at hx
          have := f2.range u hu x hx
          romega
      · intro u hu x hx
        rcases List.mem_cons.mp hu with rfl | hu
        · simp only [if_true] at hx
          obtain ⟨s, e, q⟩ := f1.blank u m1 x hx
          have w := (f2.away x (Or.inl (hN x hx).2)).1
          exact ⟨s, e, ⟨w.cls.trans q.cls, w.start.trans q.start, w.stop.trans q.stop, w.label.trans q.label,
            w.fol.trans q.fol, w.prev.trans q.prev, w.subs.trans q.subs, w.sup.trans q.sup, w.intier.trans q.intier⟩⟩
        · simp only [hnew u hu] at hx
          rw [← htc]
          exact f2.blank u hu x hx
      · intro u hu
        rcases List.mem_cons.mp hu with rfl | hu
        · simp only [if_true]; exact f1.nodup u m1
        · simp only [hnew u hu]; exact f2.nodup u hu
      · intro u hu' v hv' hne x hx hxv
        rcases List.mem_cons.mp hu' with rfl | hu
        · rcases List.mem_cons.mp hv' with rfl | hv
          · exact hne rfl
          · simp only [if_true] at hx
            simp only [hnew v hv] at hxv
            have := hN x hx
            have := f2.range v hv x hxv
            romega
        · rcases List.mem_cons.mp hv' with rfl | hv
          · simp only [if_true] at hxv
            simp only [hnew u hu] at hx
            have := hN x hxv
            have := f2.range u hu x hx
            romega
          · simp only [hnew u hu] at hx
            simp only [hnew v hv] at hxv
            exact f2.apart u hu v hv hne x hx hxv
      · intro u hu
        have h1u : u ∉ [t] := fun e => hu (by have : u = t := by simpa using e
                                              simp [this])
        rw [f2.other u (fun e => hu (List.mem_cons_of_mem _ e)), f1.other u h1u]
      · intro u hu
        rcases List.mem_cons.mp hu with rfl | hu
        · rw [ht2]; exact f1.ecls u m1
        · rw [← htc]; exact f2.ecls u hu
      · intro u hu
        rcases List.mem_cons.mp hu with rfl | hu
        · rw [ht2]; exact f1.sub u m1
        · rw [← hseq u hu]; exact f2.sub u hu
      · intro u hu
        rcases List.mem_cons.mp hu with rfl | hu
        · simp only [if_true]; rw [ht2]; exact f1.perm u m1
        · simp only [hnew u hu]; rw [← hseq u hu]; exact f2.perm u hu
      · intro u hu
        rcases List.mem_cons.mp hu with rfl | hu
        · simp only [if_true]
          rw [← f1.spans u m1]
          exact List.map_congr_left fun x hx => hsp2 x (hN x hx).2
        · simp only [hnew u hu]
          rw [f2.spans u hu, hseq u hu, hmap u hu]
      · intro u hu
        rcases List.mem_cons.mp hu with rfl | hu
        · rw [hmap2]; exact f1.laid u m1
        · exact f2.laid u hu
      · intro u hu
        rcases List.mem_cons.mp hu with rfl | hu
        · rw [hmap2]; exact f1.gapless u m1
        · exact f2.gapless u hu

end ATG
