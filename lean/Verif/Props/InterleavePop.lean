import Verif.Props.PopTiers
/-!
# C71: interleaving a class and popping it again (`aligned_textgrid.py:511-733`)
-/
namespace ATG

theorem DoublyLinked.determined {h h' : Heap} {l : List Ref} (a : DoublyLinked h l) (b : DoublyLinked h' l) (x : Ref)
    (hx : x ∈ l) : h'.fol x = h.fol x ∧ h'.prev x = h.prev x := by
  obtain ⟨i, hi, rfl⟩ := List.mem_iff_getElem.mp hx
  constructor
  · by_cases hl : i + 1 < l.length
    · have q1 := List.getElem?_eq_getElem hi
      have q2 := List.getElem?_eq_getElem hl
      rw [(a.next i _ _ q1 q2).1, (b.next i _ _ q1 q2).1]
    · have q : l.getLast? = some l[i] := by
        rw [List.getLast?_eq_getElem?, show l.length - 1 = i by omega]
        exact List.getElem?_eq_getElem hi
      rw [a.last _ q, b.last _ q]
  · match i, hi with
    | 0, hi =>
      have q : l.head? = some l[0] := by rw [List.head?_eq_getElem?]; exact List.getElem?_eq_getElem hi
      rw [a.first _ q, b.first _ q]
    | i + 1, hi =>
      have q1 := List.getElem?_eq_getElem (show i < l.length by omega)
      have q2 := List.getElem?_eq_getElem hi
      rw [(a.next i _ _ q1 q2).2, (b.next i _ _ q1 q2).2]

/-- containment determines the relations -/
theorem RelatedByContainment.same {h h' : Heap} {ts : List TRef} (a : RelatedByContainment h ts)
    (b : RelatedByContainment h' ts) (hseq : ∀ t ∈ ts, h'.tseq t = h.tseq t)
    (hsp : ∀ t ∈ ts, ∀ x ∈ (h.tseq t).vals, h'.start x = h.start x ∧ h'.stop x = h.stop x) :
    SameRelations h h' ts := by
  have hs : ∀ (i : Nat) t t', ts[i]? = some t → ts[i + 1]? = some t' → ∀ v ∈ (h.tseq t).vals,
      (h'.subs v).vals = (h.subs v).vals := by
    intro i t t' e1 e2 v hv
    have m1 := List.mem_of_getElem? e1
    have m2 := List.mem_of_getElem? e2
    rw [(a.subs i t t' e1 e2 v hv).1, (b.subs i t t' e1 e2 v (by rw [hseq t m1]; exact hv)).1, hseq t' m2]
    apply List.filter_congr
    intro x hx
    obtain ⟨v1, v2⟩ := hsp t m1 v hv
    obtain ⟨w1, w2⟩ := hsp t' m2 x hx
    have : Inside h' v x ↔ Inside h v x := by unfold Inside; rw [v1, v2, w1, w2]
    simp only [this]
  have hup : ∀ (i : Nat) t', ts[i + 1]? = some t' → ∀ x ∈ (h.tseq t').vals, ∃ t v, ts[i]? = some t ∧
      v ∈ (h.tseq t).vals ∧ x ∈ (h.subs v).vals := by
    intro i t' e x hx
    have hl : i < ts.length := by
      have := List.getElem?_eq_some_iff.mp e
      obtain ⟨q, -⟩ := this
      omega
    have e1 := List.getElem?_eq_getElem hl
    obtain ⟨v, hv, q⟩ := a.covered i _ t' e1 e x hx
    exact ⟨_, v, e1, hv, q⟩
  refine ⟨hs, ?_, ?_⟩
  · intro t ht x hx
    obtain ⟨i, e⟩ := List.mem_iff_getElem?.mp ht
    match i with
    | 0 => rw [a.top t e x hx, b.top t e x (by rw [hseq t ht]; exact hx)]
    | i + 1 =>
      obtain ⟨t0, v, e0, hv, q⟩ := hup i t e x hx
      rw [(a.sup i t0 t e0 e v hv x q).1]
      have hv' : v ∈ (h'.tseq t0).vals := by rw [hseq t0 (List.mem_of_getElem? e0)]; exact hv
      exact (b.sup i t0 t e0 e v hv' x (by rw [hs i t0 t e0 e v hv]; exact q)).1
  · intro i t e x hx
    obtain ⟨t0, v, e0, hv, q⟩ := hup i t e x hx
    have hv' : v ∈ (h'.tseq t0).vals := by rw [hseq t0 (List.mem_of_getElem? e0)]; exact hv
    have l2 := b.linked i t0 t e0 e v hv'
    rw [hs i t0 t e0 e v hv] at l2
    exact (a.linked i t0 t e0 e v hv).determined l2 x q

theorem classByName_mem {h : Heap} {a : ARef} {name : String} {c : CRef} (e : classByName h a name = .ok c) :
    ∃ g ∈ h.agroups a, ∃ t ∈ h.gtiers g, h.tcls t = c := by
  unfold classByName at e
  split at e
  · rename_i c' q
    have hc : c' ∈ (((h.agroups a).flatMap fun g => (h.gtiers g).map h.tcls).eraseDups).filter
      (fun c => h.ct.name c == name) := by rw [q]; simp
    have := (List.mem_filter.mp hc).1
    rw [List.mem_eraseDups, List.mem_flatMap] at this
    obtain ⟨g, hg, ht⟩ := this
    obtain ⟨t, htm, q⟩ := List.mem_map.mp ht
    cases e
    exact ⟨g, hg, t, htm, q⟩
  · cases e

/-- **C71.** Interleaving a class and popping it again gives the textgrid back: both succeed; there are as many
    groups, and each has its tiers of before, with their entries, times and labels. If the tiers of a group
    were related by containment, the subset lists, supersets and neighbours of its intervals are the same as
    before. The classes above and below are linked to each other again.

    The hypotheses are those of C69, and that no tier has a class with the new name. `_partial`, as C69 and C70
    are: it is missing for tiers whose boundaries are not aligned and groups sharing entries. -/
theorem C71_interleave_pop_partial (h : Heap) (a : ARef) (name cname : String) (above fromBelow labels : Bool)
    (u d : CRef) (hr : WFC h.ct) (hn : PlainName name) (hne : name ≠ "") (hcne : cname ≠ "")
    (hc : classByName h a cname = .ok (if above then d else u)) (adj : AdjacentAt above h.ct u d)
    (ht : ∀ g ∈ h.agroups a, ∀ t ∈ h.gtiers g, h.tcls t < h.ct.next)
    (old : ∀ g ∈ h.agroups a, g < h.nG ∧ ∀ t ∈ h.gtiers g, t < h.nT ∧ ∀ x ∈ (h.tseq t).vals, x < h.nE)
    (nd : (h.agroups a).Nodup) (sep : Separate h (h.agroups a)) (td : Tidy h) (ac : Allocated h)
    (spot : ∀ g ∈ h.agroups a, (∃ t ∈ h.gtiers g, h.tcls t = if above then d else u) →
      ∃ pre post k, Spot h g pre post k u d fromBelow ∧ ClassLinks h.ct ((pre ++ post).map h.tcls) ∧
        OwnLinks h.ct ((pre ++ post).map h.tcls))
    (fresh : ∀ g ∈ h.agroups a, ∀ t ∈ h.gtiers g, h.ct.name (h.tcls t) ≠ name) :
    ∃ h', (do interleave a name above cname fromBelow labels; popClass a name) h = .ok () h' ∧
      (h'.agroups a).length = (h.agroups a).length ∧
      (∀ (i : Nat) g g', (h.agroups a)[i]? = some g → (h'.agroups a)[i]? = some g' →
        h'.gtiers g' = h.gtiers g ∧
        (RelatedByContainment h (h.gtiers g) → SameRelations h h' (h.gtiers g)) ∧
        ((∃ t ∈ h.gtiers g, h.tcls t = if above then d else u) → RelatedByContainment h' (h.gtiers g))) ∧
      (∀ x, x < h.nE → h'.start x = h.start x ∧ h'.stop x = h.stop x ∧ h'.label x = h.label x ∧ h'.cls x = h.cls x) ∧
      (∀ t, t < h.nT → h'.tseq t = h.tseq t ∧ h'.tcls t = h.tcls t ∧ h'.tname t = h.tname t) ∧
      h'.ct.sub u = some d ∧ h'.ct.sup d = some u := by
  obtain ⟨new, h1, e1, k1, -, -, -, -, k6, k7, k8, k9, rest⟩ :=
    interleave_all h a name cname above fromBelow labels u d hr hn hne hcne hc adj ht old nd sep (td.on fun _ => True)
      (fun _ _ _ _ => trivial) ac (td.allocatedUp ac) spot (spot_far (P := fun cs => ClassLinks h.ct cs ∧ OwnLinks h.ct cs) sep td spot)
  have td1 : Tidy h1 := rest.tidy.tidy fun _ => Or.inl trivial
  have hname : ∀ g ∈ h.agroups a, ∀ t ∈ h.gtiers g, h1.ct.name (h1.tcls t) ≠ name := by
    intro g hg t htm
    rw [(k9 t ((old g hg).2 t htm).1).2.1, rest.names _ (ht g hg t htm)]
    exact fresh g hg t htm
  have hidx : ∀ g1 ∈ h1.agroups a, ∃ (i : Nat) (g : GRef), (h.agroups a)[i]? = some g ∧ (h1.agroups a)[i]? = some g1 := by
    intro g1 hg1
    obtain ⟨i, e⟩ := List.mem_iff_getElem?.mp hg1
    have hl := (List.getElem?_eq_some_iff.mp e).1
    rw [k6] at hl
    exact ⟨i, _, List.getElem?_eq_getElem hl, e⟩
  have hstay : staying h1 name (h1.agroups a) = h1.agroups a := by
    unfold staying
    rw [List.filter_eq_self]
    intro g1 hg1
    obtain ⟨i, g, q1, q2⟩ := hidx g1 hg1
    have hg := List.mem_of_getElem? q1
    have := k7 i g g1 q1 q2
    simp only [ne_eq, decide_eq_true_eq]
    by_cases hex : ∃ t ∈ h.gtiers g, h.tcls t = if above then d else u
    · rw [if_pos hex] at this
      obtain ⟨pre, post, k, t', s1, s2, -⟩ := this
      obtain ⟨t, htm, -⟩ := hex
      rw [s1.eq] at htm
      have := List.length_pos_of_mem htm
      intro q
      have := congrArg List.length q
      rw [s2] at this
      simp at this
      simp at *
      omega
    · rw [if_neg hex] at this
      rw [this.1, this.2.1]
      intro q
      have : name ∈ (h.gtiers g).map (fun t => h1.ct.name (h1.tcls t)) := by rw [q]; simp
      obtain ⟨t, htm, q⟩ := List.mem_map.mp this
      exact hname g hg t htm q
  obtain ⟨gc, hgc, tc, htc, hcc⟩ := classByName_mem hc
  have hdone : ∀ (i : Nat) g g1, (h.agroups a)[i]? = some g → (h1.agroups a)[i]? = some g1 →
      (∃ t ∈ h.gtiers g, h.tcls t = if above then d else u) → ∃ pre t' post,
        PopSpot h1 g1 name new pre t' post ∧ h.gtiers g = pre ++ post ∧
        ClassLinks h1.ct ((pre ++ t' :: post).map h1.tcls) ∧ OwnLinks h1.ct ((pre ++ post).map h1.tcls) := by
    intro i g g1 q1 q2 hex
    have hg := List.mem_of_getElem? q1
    have := k7 i g g1 q1 q2
    rw [if_pos hex] at this
    obtain ⟨pre, post, k, t', s1, s2, s3, -, s5⟩ := this
    obtain ⟨pre0, post0, k0, sp, cl, ol⟩ := spot g hg hex
    rw [← sp.eq, s1.eq] at cl ol
    have hm : ∀ t ∈ pre ++ post, t ∈ h.gtiers g := fun t q => by rw [s1.eq]; exact q
    have htc : ∀ t ∈ pre ++ post, h1.tcls t = h.tcls t := fun t q => (k9 t ((old g hg).2 t (hm t q)).1).2.1
    refine ⟨pre, t', post, ⟨s2, s3.tcls, k1, fun t q => hname g hg t (hm t q), s5⟩, s1.eq, ?_, ?_⟩
    · have := rest.links g hg pre post k s1 cl ol
      rw [List.map_append, List.map_cons, s3.tcls,
        List.map_congr_left (fun t q => htc t (List.mem_append_left _ q)),
        List.map_congr_left (l := post) (fun t q => htc t (List.mem_append_right _ q))]
      exact this
    · rw [List.map_congr_left htc]
      refine rest.own _ ?_ ol
      intro c hcm
      obtain ⟨t, htm, rfl⟩ := List.mem_map.mp hcm
      exact ht g hg t (hm t htm)
  have hpop : ∀ (i : Nat) g g1, (h.agroups a)[i]? = some g → (h1.agroups a)[i]? = some g1 →
      (Popped h1 name g1 ↔ ∃ t ∈ h.gtiers g, h.tcls t = if above then d else u) := by
    intro i g g1 q1 q2
    have hg := List.mem_of_getElem? q1
    constructor
    · rintro ⟨⟨t, htm, q⟩, -⟩
      by_cases hex : ∃ t ∈ h.gtiers g, h.tcls t = if above then d else u
      · exact hex
      · have := k7 i g g1 q1 q2
        rw [if_neg hex] at this
        rw [this.1, this.2.1] at htm
        exact absurd q (hname g hg t htm)
    · intro hex
      obtain ⟨pre, t', post, s, s2, -, -⟩ := hdone i g g1 q1 q2 hex
      refine ⟨⟨t', by rw [s.eq]; simp, by rw [s.cls]; exact s.named⟩, ?_⟩
      obtain ⟨t, htm, -⟩ := hex
      rw [s2] at htm
      have := List.length_pos_of_mem htm
      rw [s.eq]
      simp at *
      omega
  have hne1 : h1.agroups a ≠ [] := by
    intro q
    rw [q] at k6
    rw [List.length_eq_zero_iff.mp k6.symm] at hgc
    exact nomatch hgc
  obtain ⟨h2, e2, j1, j2, j3, j4, -⟩ := C70_pop_partial h1 a name u new d rest.between rest.lt rest.nodup rest.sep
    td1 (by rw [hstay]; exact hne1) (by
      intro g1 hg1 hp
      obtain ⟨i, g, q1, q2⟩ := hidx g1 hg1
      obtain ⟨pre, t', post, s, -, cl, ol⟩ := hdone i g g1 q1 q2 ((hpop i g g1 q1 q2).mp hp)
      exact ⟨pre, t', post, s, cl, ol⟩)
  rw [hstay] at j1 j2
  have hE : ∀ x, x < h.nE → h2.start x = h.start x ∧ h2.stop x = h.stop x ∧ h2.label x = h.label x ∧
      h2.cls x = h.cls x := by
    intro x hx
    rw [j3.start, j3.stop, j3.label, j3.cls]
    exact k8 x hx
  have hT : ∀ t, t < h.nT → h2.tseq t = h.tseq t ∧ h2.tcls t = h.tcls t ∧ h2.tname t = h.tname t := by
    intro t htm
    rw [j3.tseq, j3.tcls, j3.tname]
    exact k9 t htm
  refine ⟨h2, (M.bind_ok e1).trans e2, j1.trans k6, ?_, hE, hT, ?_⟩
  · intro i g g2 q1 q2
    have hg := List.mem_of_getElem? q1
    have hl := (List.getElem?_eq_some_iff.mp q1).1
    have q3 := List.getElem?_eq_getElem (l := h1.agroups a) (i := i) (by rw [k6]; exact hl)
    generalize (h1.agroups a)[i]'(by rw [k6]; exact hl) = g1 at q3
    have hj := j2 i g1 g2 q3 q2
    have hseq : ∀ t ∈ h.gtiers g, h2.tseq t = h.tseq t := fun t q => (hT t ((old g hg).2 t q).1).1
    have hspan : ∀ t ∈ h.gtiers g, ∀ x ∈ (h.tseq t).vals, h2.start x = h.start x ∧ h2.stop x = h.stop x :=
      fun t q x hx => ⟨(hE x (((old g hg).2 t q).2 x hx)).1, (hE x (((old g hg).2 t q).2 x hx)).2.1⟩
    by_cases hex : ∃ t ∈ h.gtiers g, h.tcls t = if above then d else u
    · rw [if_pos ((hpop i g g1 q1 q3).mpr hex)] at hj
      obtain ⟨pre, t', post, s, s2, -, -⟩ := hdone i g g1 q1 q3 hex
      obtain ⟨pre2, pt, post2, p1, p2, p3, p4, p5, -⟩ := hj
      have hsame : pre2 ++ post2 = pre ++ post := by
        have f : ∀ (l1 l2 : List TRef) (y : TRef), (∀ t ∈ l1 ++ l2, h1.ct.name (h1.tcls t) ≠ name) →
            h1.ct.name (h1.tcls y) = name →
            (l1 ++ y :: l2).filter (fun t => decide (h1.ct.name (h1.tcls t) ≠ name)) = l1 ++ l2 := by
          intro l1 l2 y m1 m2
          rw [List.filter_append, List.filter_cons_of_neg (by simp [m2]),
            List.filter_eq_self.mpr (fun t q => by simp [m1 t (List.mem_append_left _ q)]),
            List.filter_eq_self.mpr (fun t q => by simp [m1 t (List.mem_append_right _ q)])]
        rw [← f pre2 post2 pt p3 p2, ← f pre post t' s.only (by rw [s.cls]; exact s.named), ← p1, ← s.eq]
      rw [hsame, ← s2] at p4 p5
      exact ⟨p4, fun r => r.same p5 hseq hspan, fun _ => p5⟩
    · rw [if_neg (fun q => hex ((hpop i g g1 q1 q3).mp q))] at hj
      have hu := k7 i g g1 q1 q3
      rw [if_neg hex] at hu
      obtain ⟨u1, u2, u3⟩ := hu
      subst u1
      rw [u2] at hj
      exact ⟨by rw [hj.1, hj.2.1], fun r => r.same (r.unmoved (u3.trans hj.2.2)) hseq hspan, fun q => absurd q hex⟩
  · obtain ⟨i, q1⟩ := List.mem_iff_getElem?.mp hgc
    have hl := (List.getElem?_eq_some_iff.mp q1).1
    have q3 := List.getElem?_eq_getElem (l := h1.agroups a) (i := i) (by rw [k6]; exact hl)
    exact j4 ⟨_, List.mem_of_getElem? q3, (hpop i gc _ q1 q3).mpr ⟨tc, htc, hcc⟩⟩

theorem exGroupAndWord_related : RelatedByContainment exGroupAndWord [0, 1] := by
  refine ⟨?_, ?_, ?_, ?_, ?_, ?_⟩
  · intro i t t' h1 h2
    match i with
    | 0 => cases h1; cases h2; decide +kernel
    | i + 1 => simp at h2
  · intro i t t' h1 h2
    match i with
    | 0 =>
      cases h1; cases h2
      intro v hv
      have hv : v = 0 ∨ v = 1 := by simpa [exGroupAndWord] using hv
      rcases hv with rfl | rfl
      · refine ⟨?_, by decide, by decide⟩
        intro i x y q1 q2
        match i with
        | 0 => cases q1; cases q2; decide
        | i + 1 => exact absurd q2 (by simp [exGroupAndWord])
      · refine ⟨?_, by decide, by decide⟩
        intro i x y q1 q2
        exact absurd q2 (by simp [exGroupAndWord])
    | i + 1 => simp at h2
  · intro i t t' h1 h2
    match i with
    | 0 => cases h1; cases h2; decide
    | i + 1 => simp at h2
  · intro i t t' h1 h2
    match i with
    | 0 => cases h1; cases h2; decide
    | i + 1 => simp at h2
  · intro t e; cases e; decide
  · intro i t t' h1 h2
    match i with
    | 0 => cases h1; cases h2; decide
    | i + 1 => simp at h2

/-- a case meeting the hypotheses of C71: `Syl` comes above `Phone` and goes again; the words have their phones -/
example : ∃ h', (do interleave 0 "Syl" true "Phone" true false; popClass 0 "Syl") exGroupAndWord = .ok () h' ∧
    (h'.agroups 0).map h'.gtiers = [[0, 1], [2]] ∧ (h'.subs 0).vals = [2, 3] ∧ (h'.subs 1).vals = [4] ∧
    h'.sup 4 = some 1 ∧ h'.ct.sub cWord = some cPhone := by
  obtain ⟨h', e, k1, k2, -, -, k3, -⟩ := C71_interleave_pop_partial exGroupAndWord 0 "Syl" "Phone" true true false
    cWord cPhone (wfc_of_check (by decide +kernel)) (by decide +kernel) (by decide) (by decide) (by decide +kernel)
    (Adjacent.at (by decide +kernel) _) (by decide +kernel) (by decide +kernel) (by decide) (by unfold Separate; decide)
    exGroupAndWord_tidy
    (by intro v x hx; rcases exGroupAndWord_subs v with ⟨rfl, e⟩ | ⟨rfl, e⟩ | ⟨-, -, e⟩ <;> rw [e] at hx <;>
          first | (revert x; decide) | exact (nomatch hx))
    (by
      intro g hg hex
      have hg : g = 0 ∨ g = 1 := by simpa [exGroupAndWord] using hg
      rcases hg with rfl | rfl
      · refine ⟨[0], [1], 1, exGroupAndWord_spot, exGroupAndWord_links, ?_⟩
        intro c hc
        have hc : c = cWord ∨ c = cPhone := by simpa [exGroupAndWord] using hc
        rcases hc with rfl | rfl
        · exact ⟨⟨cPhone, 7, by decide +kernel⟩, by decide +kernel⟩
        · exact ⟨⟨8, cWord, by decide +kernel⟩, by decide +kernel⟩
      · exact absurd hex (by decide +kernel))
    (by decide +kernel)
  match hg : h'.agroups 0, k1 with
  | [g, g2], _ =>
    obtain ⟨a1, a2, -⟩ := k2 0 0 g rfl (by rw [hg]; rfl)
    obtain ⟨b1, -, -⟩ := k2 1 1 g2 rfl (by rw [hg]; rfl)
    have r := a2 exGroupAndWord_related
    refine ⟨h', e, by rw [hg, List.map_cons, List.map_cons, a1, b1]; rfl, ?_, ?_, ?_, k3⟩
    · exact (r.subs 0 0 1 rfl rfl 0 (by decide)).trans (by decide)
    · exact (r.subs 0 0 1 rfl rfl 1 (by decide)).trans (by decide)
    · exact (r.sup 1 (by decide) 4 (by decide)).trans (by decide)

/-- C71 fails when a class of the name is there already: the popping raises `ValueError`, and the textgrid keeps
    the tier that came between -/
theorem C71_fresh_violated : ∃ (h : Heap) (a : ARef), (h.agroups a).map h.gtiers = [[0, 1], [2]] ∧
    let r := (do interleave a "Word" true "Phone" true false; popClass a "Word") h
    r.out = .error .valueError ∧ (r.heap.agroups a).map r.heap.gtiers = [[0, 3, 1], [2]] :=
  ⟨exGroupAndWord, 0, by decide +kernel⟩

end ATG
