import Verif.Lemmas.IvalAppend
import Verif.Lemmas.Weave
/-!
# Cleaning up an interval
-/
namespace ATG

/-- subset lists hold existing entries, and only existing intervals have one -/
def Alloc (h : Heap) : Prop := ∀ v x, x ∈ (h.subs v).vals → v < h.nE ∧ x < h.nE

theorem blanked_subs (h : Heap) (c : CRef) (s e : Time) (v : Ref) (hv : v ≠ h.nE) :
    (blanked h c s e).subs v = h.subs v := upd_ne _ _ _ _ hv

theorem blanked_alloc {h : Heap} (al : Alloc h) (c : CRef) (s e : Time) : Alloc (blanked h c s e) := by
  intro v x hx
  show v < h.nE + 1 ∧ x < h.nE + 1
  by_cases hv : v = h.nE
  · subst hv
    have : (blanked h c s e).subs h.nE = SL.empty := upd_same _ _ _
    rw [this] at hx; simp [SL.empty] at hx
  · rw [blanked_subs h c s e v hv] at hx
    have := al v x hx
    constructor <;> romega

theorem blanked_tidy {h : Heap} (td : Tidy h) (al : Alloc h) (c : CRef) (s e : Time) :
    Tidy (blanked h c s e) := by
  have he : (blanked h c s e).subs h.nE = SL.empty := upd_same _ _ _
  have g : ∀ v, GoodList (blanked h c s e) ((blanked h c s e).subs v).vals := by
    intro v
    by_cases hv : v = h.nE
    · subst hv
      rw [he]
      refine ⟨by simp [SL.empty], ?_, ?_, ?_⟩ <;> intro x hx <;> simp [SL.empty] at hx
    · rw [blanked_subs h c s e v hv]
      have hx : ∀ x ∈ (h.subs v).vals, SameEntry h (blanked h c s e) x := fun x hx =>
        blanked_same h c s e x (al v x hx).2
      refine ⟨td.nodup v, ?_, ?_, ?_⟩
      · intro x hx1 y hy1 hsv
        apply td.distinct v x hx1 y hy1
        have h1 := hx x hx1; have h2 := hx y hy1
        obtain ⟨a1, a2, a3, a4⟩ := hsv
        refine ⟨?_, ?_, ?_, ?_⟩
        · unfold Heap.isPoint at a1 ⊢
          rw [h1.cls, h2.cls] at a1; exact a1
        · rw [h1.start, h2.start] at a2; exact a2
        · rw [h1.stop, h2.stop] at a3; exact a3
        · rw [h1.label, h2.label] at a4; exact a4
      · intro x hx1 y hy1
        rw [(hx x hx1).cls, (hx y hy1).cls]; exact td.cls v x hx1 y hy1
      · intro x hx1
        rw [(hx x hx1).label]; exact td.label v x hx1
  refine ⟨?_, fun v => (g v).nodup, fun v => (g v).distinct, fun v => (g v).cls, fun v => (g v).label⟩
  intro v x
  by_cases hv : v = h.nE
  · subst hv
    rw [he]
    constructor
    · intro q; simp [SL.empty] at q
    · intro q
      by_cases hx : x = h.nE
      · subst hx
        have : (blanked h c s e).sup h.nE = none := upd_same _ _ _
        rw [this] at q; cases q
      · have : (blanked h c s e).sup x = h.sup x := upd_ne _ _ _ _ hx
        rw [this] at q
        have := (al h.nE x ((td.agree h.nE x).mpr q)).1
        romega
  · rw [blanked_subs h c s e v hv]
    by_cases hx : x = h.nE
    · subst hx
      have : (blanked h c s e).sup h.nE = none := upd_same _ _ _
      rw [this]
      constructor
      · intro q; have := (al v h.nE q).2; romega
      · intro q; cases q
    · have : (blanked h c s e).sup x = h.sup x := upd_ne _ _ _ _ hx
      rw [this]; exact td.agree v x

theorem blankedAll_alloc (c : CRef) (G : List (Time × Time)) : ∀ {h : Heap}, Alloc h → Alloc (blankedAll h c G) := by
  induction G with
  | nil => intro h a; exact a
  | cons g G ih => intro h a; exact ih (blanked_alloc a c g.1 g.2)

theorem blankedAll_tidy (c : CRef) (G : List (Time × Time)) : ∀ {h : Heap}, Tidy h → Alloc h →
    Tidy (blankedAll h c G) := by
  induction G with
  | nil => intro h t _; exact t
  | cons g G ih => intro h t a; exact ih (blanked_tidy t a c g.1 g.2) (blanked_alloc a c g.1 g.2)

/-- `buildToAdd` collects one new blank per span, sorted -/
theorem buildToAdd_ok (c : CRef) (G : List (Time × Time)) :
    ∀ (h : Heap) (A : List Ref), (∀ x ∈ A, x < h.nE) → (∀ x ∈ A, h.cls x = c) →
      (∀ g ∈ G, ∀ x ∈ A, h.start x ≠ g.1) → (G.map (·.1)).Nodup → SortedByStart h A →
      ∃ T, buildToAdd c G ⟨A, if A = [] then none else some c⟩ h =
          .ok ⟨T, if T = [] then none else some c⟩ (blankedAll h c G) ∧
        T.Perm (A ++ List.range' h.nE G.length) ∧ SortedByStart (blankedAll h c G) T := by
  induction G with
  | nil => intro h A _ _ _ _ hs; exact ⟨A, rfl, by simp, hs⟩
  | cons g G ih =>
    obtain ⟨s, e⟩ := g
    intro h A hA hc hg hn hs
    have hst : ∀ x ∈ A, SameEntry h (blanked h c s e) x := fun x hx => blanked_same h c s e x (hA x hx)
    have hns : (blanked h c s e).start h.nE = s := upd_same _ _ _
    have hcl : (blanked h c s e).cls h.nE = c := upd_same _ _ _
    let A' := slSort (blanked h c s e) (A ++ [h.nE])
    have hA' : ∀ x, x ∈ A' ↔ x ∈ A ∨ x = h.nE := by
      intro x; rw [(slSort_perm _ _).mem_iff]; simp
    have hA'ne : A' ≠ [] := by
      intro q
      have := (hA' h.nE).mpr (Or.inr rfl)
      rw [q] at this; cases this
    have hadd : slAdd (fun _ => pure ()) ⟨A, if A = [] then none else some c⟩ [h.nE] (blanked h c s e) =
        .ok ⟨A', if A' = [] then none else some c⟩ (blanked h c s e) := by
      rw [if_neg hA'ne]
      by_cases q : A = []
      · subst q
        exact slAdd_ok_empty (fun _ => pure ()) (fun _ h => h) (fun _ _ => rfl) (fun _ _ => ⟨rfl, rfl⟩)
          [h.nE] (blanked h c s e) c h.nE [] rfl (by simpa using hcl)
      · rw [if_neg q]
        have hnl : ¬ Listed (blanked h c s e) A h.nE := by
          rintro (hm | ⟨y, hy, hs⟩)
          · have := hA _ hm; romega
          · have e1 := hs.2.1
            rw [(hst y hy).start, hns] at e1
            exact hg (s, e) (by simp) y hy e1
        have hnw : newOf (blanked h c s e) A [h.nE] = [h.nE] := by
          simp [newOf, (slContains_false_iff (blanked h c s e) A h.nE).mpr hnl]
        have hall : ∀ y ∈ A ++ newOf (blanked h c s e) A [h.nE], (blanked h c s e).cls y = c := by
          rw [hnw]
          intro y hy
          rcases List.mem_append.mp hy with q | q
          · rw [(hst y q).cls]; exact hc y q
          · simp at q; rw [q]; exact hcl
        have := slAdd_ok (fun _ => pure ()) ⟨A, some c⟩ [h.nE] (blanked h c s e) c c (by rw [hnw]; simp) rfl
          (by rw [hnw]; simpa using hcl) (by simp [isSub_refl]) (by
            intro y hy; unfold Heap.isPoint; rw [hall y hy])
        rw [castAll_self _ _ _ hall, hnw] at this
        exact this
    obtain ⟨T, hT, hp, hs'⟩ := ih (blanked h c s e) A'
      (by
        intro x hx
        show x < h.nE + 1
        rcases (hA' x).mp hx with q | q
        · have := hA x q; romega
        · romega)
      (by
        intro x hx
        rcases (hA' x).mp hx with q | q
        · rw [(hst x q).cls]; exact hc x q
        · rw [q]; exact hcl)
      (by
        intro g hgm x hx
        rcases (hA' x).mp hx with q | q
        · rw [(hst x q).start]; exact hg g (by simp [hgm]) x q
        · rw [q, hns]
          intro heq
          rw [List.map_cons, List.nodup_cons] at hn
          exact hn.1 (List.mem_map.mpr ⟨g, hgm, heq.symm⟩))
      (by rw [List.map_cons, List.nodup_cons] at hn; exact hn.2)
      (slSort_sorted _ _)
    refine ⟨T, ?_, ?_, hs'⟩
    · unfold buildToAdd
      mstep (newEntry_blank c s e h)
      mstep hadd
      exact hT
    · refine hp.trans ?_
      rw [List.length_cons, range'_succ']
      show (A' ++ List.range' (h.nE + 1) G.length).Perm _
      refine (List.Perm.append_right _ (slSort_perm _ _)).trans ?_
      rw [List.append_assoc]
      exact List.Perm.refl _

/-- what appending the new intervals `T` to `w` does -/
structure AppendedAll (h h' : Heap) (w : Ref) (d : CRef) (T : List Ref) : Prop where
  tidy : Tidy h'
  perm : (h'.subs w).vals.Perm ((h.subs w).vals ++ T)
  sorted : T ≠ [] → SortedByStart h (h'.subs w).vals
  same : T = [] → h' = h
  ecls : (h'.subs w).ecls = some d
  others : ∀ v, v ≠ w → h'.subs v = h.subs v
  linked : T ≠ [] → DoublyLinked h' (h'.subs w).vals
  linkedOthers : ∀ v, v ≠ w → DoublyLinked h (h.subs v).vals → DoublyLinked h' (h.subs v).vals
  sup : ∀ r, h'.sup r = if r ∈ T then some w else h.sup r
  within : ∀ r, h'.within r =
    if r ∈ T ∨ (T ≠ [] ∧ r ∈ (h.subs w).vals) then some (.ival w) else h.within r
  links : ∀ r, r ∉ (h.subs w).vals → r ∉ T → h'.fol r = h.fol r ∧ h'.prev r = h.prev r
  frame : h' = { h with subs := h'.subs, sup := h'.sup, within := h'.within, cont := h'.cont, fol := h'.fol,
                        prev := h'.prev }

theorem forL_ivalAppend (w : Ref) (d : CRef) (T : List Ref) : ∀ (h : Heap), Tidy h →
    h.ct.sub (h.cls w) = some d → (h.subs w).ecls = some d → (∀ y ∈ (h.subs w).vals, h.cls y = d) →
    (∀ t, h.intier w = some t → withinTruthy h t = none) →
    (∀ x ∈ T, h.cls x = d ∧ h.sup x = none ∧ h.label x ≠ "#") →
    (∀ x ∈ T, ∀ y ∈ (h.subs w).vals, h.start y ≠ h.start x) → (T.map h.start).Nodup →
    ∃ h', M.forL T (fun r => ivalAppend w r) h = .ok () h' ∧ AppendedAll h h' w d T := by
  induction T with
  | nil =>
    intro h td hd hec hc hfree hT hne hn
    exact ⟨h, rfl, td, by simp, by simp, by simp, hec, fun _ _ => rfl, by simp, fun _ _ q => q, by simp, by simp,
      fun _ _ _ => ⟨rfl, rfl⟩, rfl⟩
  | cons x T ih =>
    intro h td hd hec hc hfree hT hne hn
    obtain ⟨hx1, hx2, hx3⟩ := hT x (by simp)
    have hxn : ∀ v, x ∉ (h.subs v).vals := by
      intro v hh; have := (td.agree v x).mp hh; rw [hx2] at this; cases this
    have hnl : ¬ Listed h (h.subs w).vals x := by
      rintro (q | ⟨y, hy, hs⟩)
      · exact hxn w q
      · exact hne x (by simp) y hy hs.2.1
    obtain ⟨h1, e1, a1⟩ := ivalAppend_new td w x d hd hx1 hx2 hx3 hnl hc (Or.inl hec) hfree
    have hl1 : (h1.subs w).vals = slSort h ((h.subs w).vals ++ [x]) := by rw [a1.list]
    have hmem1 : ∀ y, y ∈ (h1.subs w).vals ↔ y ∈ (h.subs w).vals ∨ y = x := by
      intro y; rw [hl1, (slSort_perm _ _).mem_iff]; simp
    have hcls : h1.cls = h.cls := by rw [a1.frame]
    have hct : h1.ct = h.ct := by rw [a1.frame]
    have hstart : h1.start = h.start := by rw [a1.frame]
    have hlab : h1.label = h.label := by rw [a1.frame]
    have hit : h1.intier = h.intier := by rw [a1.frame]
    have hwt : ∀ t, withinTruthy h1 t = withinTruthy h t := by intro t; rw [a1.frame]; rfl
    rw [List.map_cons, List.nodup_cons] at hn
    obtain ⟨h2, e2, a2⟩ := ih h1 a1.tidy (by rw [hct, hcls]; exact hd) (by rw [a1.list])
      (by
        intro y hy
        rw [hcls]
        rcases (hmem1 y).mp hy with q | q
        · exact hc y q
        · rw [q]; exact hx1)
      (by intro t ht; rw [hwt]; rw [hit] at ht; exact hfree t ht)
      (by
        intro y hy
        obtain ⟨b1, b2, b3⟩ := hT y (by simp [hy])
        rw [hcls, hlab, a1.sup]
        refine ⟨b1, ?_, b3⟩
        rw [if_neg]
        · exact b2
        · intro q; subst q; exact hn.1 (List.mem_map_of_mem hy))
      (by
        intro z hz y hy
        rw [hstart]
        rcases (hmem1 y).mp hy with q | q
        · exact hne z (by simp [hz]) y q
        · subst q
          intro heq
          exact hn.1 (heq ▸ List.mem_map_of_mem hz))
      (by rw [hstart]; exact hn.2)
    refine ⟨h2, ?_, a2.tidy, ?_, ?_, by simp, a2.ecls, ?_, ?_, ?_, ?_, ?_, ?_, ?_⟩
    · rw [M.forL_cons, e1]; exact e2
    · refine a2.perm.trans ?_
      rw [hl1]
      refine (List.Perm.append_right _ (slSort_perm _ _)).trans ?_
      simp
    · intro _
      by_cases q : T = []
      · rw [a2.same q, hl1]; exact slSort_sorted _ _
      · have := a2.sorted q
        unfold SortedByStart at *
        rw [hstart] at this; exact this
    · intro v hv; rw [a2.others v hv, a1.others v hv]
    · intro _
      by_cases q : T = []
      · rw [a2.same q]; exact a1.linked
      · exact a2.linked q
    · intro v hv hl
      have := a2.linkedOthers v hv (by rw [a1.others v hv]; exact a1.linkedOthers v hv hl)
      rw [a1.others v hv] at this; exact this
    · intro r
      rw [a2.sup, a1.sup]
      by_cases q : r ∈ T
      · simp [q]
      · by_cases q2 : r = x
        · simp [q2]
        · simp [q, q2]
    · intro r
      rw [a2.within, a1.within]
      by_cases q : r ∈ T
      · simp [q]
      · by_cases q2 : r = x
        · simp [q2]
        · by_cases q3 : r ∈ (h.subs w).vals
          · simp [q3]
          · have : r ∉ (h1.subs w).vals := fun hh => ((hmem1 r).mp hh).elim q3 q2
            simp [q, q2, q3, this]
    · intro r hr hrT
      have h1' := a1.links r hr (fun e => hrT (by simp [e]))
      have h2' := a2.links r (fun hh => ((hmem1 r).mp hh).elim hr (fun e => hrT (by simp [e])))
        (fun e => hrT (by simp [e]))
      rw [h2'.1, h2'.2]; exact h1'
    · rw [a2.frame, a1.frame]

theorem Fits.laid {l : List (Time × Time)} : ∀ {a b}, Fits a l b → Laid l ∧ ∀ p ∈ l, a ≤ p.1 ∧ p.2 ≤ b := by
  induction l with
  | nil => intro a b h; simp [Laid]
  | cons p r ih =>
    intro a b h
    obtain ⟨h1, h2, h3⟩ := h
    obtain ⟨⟨i1, i2⟩, i3⟩ := ih h3
    refine ⟨⟨?_, ?_⟩, ?_⟩
    · intro q hq
      rcases List.mem_cons.mp hq with e | e
      · rw [e]; exact h2
      · exact i1 q e
    · rw [List.pairwise_cons]; exact ⟨fun q hq => (i3 q hq).1, i2⟩
    · intro q hq
      rcases List.mem_cons.mp hq with e | e
      · rw [e]; exact ⟨h1, h3.le⟩
      · have := i3 q e; grind

theorem Laid.sorted {l : List (Time × Time)} (hl : Laid l) : l.Pairwise fun p q => p.1 < q.1 := by
  have := hl.2.and (List.Pairwise.imp_of_mem (fun {a b} ha hb _ => hl.1 a ha) hl.2 : l.Pairwise fun a _ => a.1 < a.2)
  exact this.imp fun {a b} h => by grind

theorem pairwise_trich {α} {R : α → α → Prop} {l : List α} (hp : l.Pairwise R) {x y : α} (hx : x ∈ l)
    (hy : y ∈ l) : x = y ∨ R x y ∨ R y x := by
  induction l with
  | nil => cases hx
  | cons z l ih =>
    rw [List.pairwise_cons] at hp
    rcases List.mem_cons.mp hx with a | a <;> rcases List.mem_cons.mp hy with b | b
    · left; rw [a, b]
    · right; left; rw [a]; exact hp.1 y b
    · right; right; rw [b]; exact hp.1 x a
    · exact ih hp.2 a b

/-- what a cleanup with a non-empty subset list does -/
theorem ivalCleanup_fill (n : Nat) (w : Ref) (d : CRef) (h : Heap) (td : Tidy h) (al : Alloc h)
    (hw : w < h.nE)
    (hd : h.ct.sub (h.cls w) = some d) (hb : h.ct.isSub d cBottom = false) (hne : (h.subs w).vals ≠ [])
    (hec : (h.subs w).ecls = some d) (hc : ∀ y ∈ (h.subs w).vals, h.cls y = d)
    (hf : Fits (h.start w) ((h.subs w).vals.map h.span) (h.stop w))
    (hfree : ∀ t, h.intier w = some t → withinTruthy h t = none) :
    ∃ h' T, ivalCleanupN (n + 1) w true h = .ok () h' ∧
      AppendedAll (blankedAll h d (cleanupSpans h w)) h' w d T ∧
      T.Perm (List.range' h.nE (cleanupSpans h w).length) ∧
      (h.subs w).vals.Sublist (h'.subs w).vals ∧
      (h'.subs w).vals.map h'.span = woven (h.start w) ((h.subs w).vals.map h.span) (h.stop w) := by
  have hperm := cleanupSpans_perm h w hne
  have hwp := woven_perm ((h.subs w).vals.map h.span) (h.start w) (h.stop w)
  obtain ⟨hlaid, hwb⟩ := woven_laid _ _ _ hf
  generalize hW : woven (h.start w) ((h.subs w).vals.map h.span) (h.stop w) = W at *
  -- the starts of the woven list are distinct
  have hWn : (W.map (·.1)).Nodup := by
    rw [List.nodup_iff_pairwise_ne, List.pairwise_map]
    have := hlaid.2.and (List.Pairwise.imp_of_mem (fun {a b} ha hb _ => hlaid.1 a ha) hlaid.2 : W.Pairwise fun a _ => a.1 < a.2)
    exact this.imp fun {a b} h => by grind
  have hSn : (((h.subs w).vals.map h.span ++ cleanupSpans h w).map (·.1)).Nodup :=
    ((hwp.trans (List.Perm.append_left _ hperm.symm)).map _).nodup_iff.mp hWn
  rw [List.map_append, List.nodup_append] at hSn
  obtain ⟨hn1, hn2, hn3⟩ := hSn
  generalize hG : cleanupSpans h w = G at *
  obtain ⟨T, hT, hTp, hTs⟩ := buildToAdd_ok d G h [] (by simp) (by simp) (by simp) hn2 (by simp [SortedByStart])
  rw [List.nil_append] at hTp
  have hold : ∀ x, x < h.nE → SameEntry h (blankedAll h d G) x := fun x hx => blankedAll_same d G h x hx
  have hsubs : (blankedAll h d G).subs w = h.subs w := (hold w hw).subs
  have hTm : ∀ x ∈ T, ∃ i s e, x = h.nE + i ∧ G[i]? = some (s, e) ∧ IsBlank (blankedAll h d G) d s e x := by
    intro x hx
    have := hTp.mem_iff.mp hx
    rw [List.mem_range'] at this
    obtain ⟨i, hi, rfl⟩ := this
    refine ⟨i, G[i].1, G[i].2, by rw [Nat.one_mul], by simp [hi], ?_⟩
    have := blankedAll_new d G h i G[i].1 G[i].2 (by simp [hi])
    rw [Nat.one_mul]
    exact this
  have htier : ∀ G h, (blankedAll h d G).ct = h.ct ∧ (blankedAll h d G).twithin = h.twithin ∧
      (blankedAll h d G).gtiers = h.gtiers := by
    intro G
    induction G with
    | nil => intro h; exact ⟨rfl, rfl, rfl⟩
    | cons g G ih => intro h; exact ih (blanked h d g.1 g.2)
  have hspan : ∀ x, x < h.nE → (blankedAll h d G).span x = h.span x := by
    intro x hx
    unfold Heap.span; rw [(hold x hx).start, (hold x hx).stop]
  have hTspan : (T.map (blankedAll h d G).span).Perm G := by
    refine (hTp.map _).trans ?_
    have : (List.range' h.nE G.length).map (blankedAll h d G).span = G := by
      apply List.ext_getElem
      · simp
      · intro i h1 h2
        simp only [List.getElem_map, List.getElem_range', Nat.one_mul]
        have := blankedAll_new d G h i G[i].1 G[i].2 (by simp [h2])
        unfold Heap.span
        rw [this.start, this.stop]
    rw [this]
  have hTn : (T.map (blankedAll h d G).start).Nodup := by
    have := (hTspan.map (·.1)).nodup_iff.mpr hn2
    rw [List.map_map] at this
    exact this
  obtain ⟨h', hrun, ap⟩ := forL_ivalAppend w d T (blankedAll h d G) (blankedAll_tidy d G td al)
    (by rw [(htier G h).1, (hold w hw).cls]; exact hd) (by rw [hsubs]; exact hec)
    (by
      intro y hy
      rw [hsubs] at hy
      rw [(hold y (al w y hy).2).cls]; exact hc y hy)
    (by
      intro t ht
      rw [(hold w hw).intier] at ht
      have := hfree t ht
      unfold withinTruthy at this ⊢
      rw [(htier G h).2.1, (htier G h).2.2]; exact this)
    (by
      intro x hx
      obtain ⟨i, s, e, -, -, hb⟩ := hTm x hx
      exact ⟨hb.cls, hb.sup, by rw [hb.label]; decide⟩)
    (by
      intro x hx y hy heq
      rw [hsubs] at hy
      obtain ⟨i, s, e, -, hi, hb⟩ := hTm x hx
      rw [(hold y (al w y hy).2).start, hb.start] at heq
      exact hn3 (h.start y) (by rw [List.map_map]; exact List.mem_map.mpr ⟨y, hy, rfl⟩) s
        (List.mem_map.mpr ⟨(s, e), List.mem_of_getElem? hi, rfl⟩) heq)
    hTn
  have hK : (h'.subs w).vals.Perm ((h.subs w).vals ++ T) := by
    have := ap.perm; rw [hsubs] at this; exact this
  have hs' : h'.span = (blankedAll h d G).span := by
    unfold Heap.span; rw [ap.frame]
  have hKspan : ((h'.subs w).vals.map h'.span).Perm W := by
    rw [hs']
    refine (hK.map _).trans ?_
    rw [List.map_append]
    refine (List.Perm.append ?_ hTspan).trans ((List.Perm.append_left _ hperm).trans hwp.symm)
    rw [List.map_congr_left fun x hx => hspan x (al w x hx).2]
  have hvs : (h.subs w).vals.Pairwise fun a b => h.start a < h.start b := by
    have := hf.laid.1.sorted
    rw [List.pairwise_map] at this; exact this
  have hvs' : (h.subs w).vals.Pairwise fun a b => (blankedAll h d G).start a < (blankedAll h d G).start b := by
    refine hvs.imp_of_mem fun {a b} ha hb q => ?_
    rw [(hold a (al w a ha).2).start, (hold b (al w b hb).2).start]; exact q
  have hKs : SortedByStart (blankedAll h d G) (h'.subs w).vals := by
    by_cases q : T = []
    · rw [ap.same q, hsubs]
      exact hvs'.imp fun {a b} q => Rat.le_of_lt q
    · exact ap.sorted q
  have hinj : ∀ p ∈ W, ∀ q ∈ W, p.1 = q.1 → p = q := by
    intro p hp q hq e
    rcases pairwise_trich hlaid.sorted hp hq with a | a | a
    · exact a
    · grind
    · grind
  have hfin : (h'.subs w).vals.map h'.span = W := by
    apply sorted_perm_eq (·.1) _ _ hKspan
    · rw [hs', List.pairwise_map]; exact hKs
    · exact hlaid.sorted.imp fun {a b} q => Rat.le_of_lt q
    · intro p hp q hq; exact hinj p (hKspan.mem_iff.mp hp) q (hKspan.mem_iff.mp hq)
  refine ⟨h', T, ?_, ap, hTp, ?_, hfin⟩
  · unfold ivalCleanupN
    mstep rfl
    mstep (show isSubO (h.ct.sub (h.cls w)) cBottom h = Res.ok false h by rw [hd]; simp [isSubO, hb])
    simp only [Bool.false_eq_true, if_false, hd]
    rw [if_neg (by
      intro q
      apply hne
      exact List.length_eq_zero_iff.mp (by omega))]
    simp only [Bool.not_true, Bool.false_eq_true, if_false]
    rw [hG]
    mstep hT
    exact hrun
  · have hTout : ∀ x ∈ T, x ∉ (h.subs w).vals := by
      intro x hx hv
      obtain ⟨i, s, e, rfl, -, -⟩ := hTm x hx
      have := (al w _ hv).2; romega
    have hfp : ((h'.subs w).vals.filter (· ∈ (h.subs w).vals)).Perm (h.subs w).vals := by
      refine (hK.filter _).trans ?_
      rw [List.filter_append, List.filter_eq_self.mpr (by simp), List.filter_eq_nil_iff.mpr (by
        intro x hx; simpa using hTout x hx), List.append_nil]
    have hfe : (h'.subs w).vals.filter (· ∈ (h.subs w).vals) = (h.subs w).vals := by
      apply sorted_perm_eq (blankedAll h d G).start _ _ hfp
      · exact List.Pairwise.filter _ hKs
      · exact hvs'.imp fun {a b} q => Rat.le_of_lt q
      · intro x hx y hy e
        have hx := hfp.mem_iff.mp hx
        have hy := hfp.mem_iff.mp hy
        rcases pairwise_trich hvs' hx hy with q | q | q
        · exact q
        · grind
        · grind
    rw [← hfe]; exact List.filter_sublist

end ATG
