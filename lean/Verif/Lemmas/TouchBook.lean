import Verif.Lemmas.FuseBook
import Verif.Lemmas.Reclone
import Verif.Lemmas.BookInterleave
/-!
# All edits keep textgrids workable and do to the plain data what they should
-/
namespace ATG

theorem split_two {α} {l : List α} {k : Nat} {x y : α} (h1 : l[k]? = some x) (h2 : l[k + 1]? = some y) :
    l = l.take k ++ x :: y :: l.drop (k + 2) := by
  obtain ⟨hk, e1⟩ := List.getElem?_eq_some_iff.mp h1
  obtain ⟨hk', e2⟩ := List.getElem?_eq_some_iff.mp h2
  conv => lhs; rw [← List.take_append_drop k l]
  rw [List.drop_eq_getElem_cons hk, List.drop_eq_getElem_cons hk', e1, e2]

theorem entryAt_ok {h : Heap} {a : ARef} {i j k : Nat} {g : GRef} {t : TRef} {x : Ref} (hg : (h.agroups a)[i]? = some g)
    (ht : (h.gtiers g)[j]? = some t) (hx : (h.tseq t).vals[k]? = some x) : entryAt a i j k h = .ok x h := by
  unfold entryAt
  mstep M.get_apply h
  rw [hg]; simp only
  rw [ht]; simp only
  rw [hx]; rfl

theorem pageOf_set {h h' : Heap} {g : GRef} {j : Nat} {t : TRef} {rs : List Span3} (ht : (h.gtiers g)[j]? = some t)
    (eg : h'.gtiers g = h.gtiers g) (ec : h'.tcls = h.tcls) (ect : h'.ct = h.ct) (hr : rowsOf h' t = rs)
    (ho : ∀ (i : Nat) u, (h.gtiers g)[i]? = some u → i ≠ j → rowsOf h' u = rowsOf h u) :
    pageOf h' g = (pageOf h g).set j (h.ct.name (h.tcls t), rs) := by
  unfold pageOf
  rw [eg, ec, ect]
  apply List.ext_getElem?
  intro m
  rw [List.getElem?_map, List.getElem?_set]
  have hi := (List.getElem?_eq_some_iff.mp ht).1
  by_cases q : j = m
  · subst q; rw [ht]; simp [hr, hi]
  · rw [if_neg q, List.getElem?_map]
    cases hm : (h.gtiers g)[m]? with
    | none => rfl
    | some u =>
      simp only [Option.map_some]
      rw [ho m u hm (Ne.symm q)]

section
variable {R : ClassTab → List (List CRef) → Prop} [LinkedRows R]

theorem FuseStep.page {h h3 : Heap} {gs : List GRef} {g : GRef} {j : Nat} {t : TRef} {A B : List Ref} {a b c d : Ref} {lab : String}
    (s : FuseStep (OnGroups h gs) h h3 t A a b c d B lab) (wk : WorkableFor R h gs) (hg : g ∈ gs) (fs : FuseSpot h g j t A c d B) :
    pageOf h3 g = (pageOf h g).set j (h.ct.name (h.tcls t),
      (rowsOf h t).take A.length ++ (h.start c, h.stop d, lab) :: (rowsOf h t).drop (A.length + 2)) ∧
    ∀ g' ∈ gs, g' ≠ g → pageOf h3 g' = pageOf h g' := by
  have f := wk.fit g hg
  obtain ⟨ne, aA, aB, bA, bB⟩ := (fs.sideBySide f).survivor s.role
  have eg : h3.gtiers = h.gtiers := by rw [s.after.rest]
  have ect := s.fused.classes.2
  have val : ∀ x, x ≠ a → (h3.start x, h3.stop x, h3.label x) = (h.start x, h.stop x, h.label x) := by
    intro x hx
    obtain ⟨v1, v2, v3⟩ := s.fused.values x hx
    rw [v1, v2, v3]
  constructor
  · refine pageOf_set fs.tier (by rw [eg]) s.after.frame.1 ect ?_ ?_
    · unfold rowsOf
      rw [s.after.list, fs.list]
      simp only [List.map_append, List.map_cons]
      rw [List.map_congr_left (fun x hx => val x (fun e => aA (e ▸ hx))), List.map_congr_left (l := B) (fun x hx => val x (fun e => aB (e ▸ hx))),
        s.fused.start, s.fused.stop, s.fused.label]
      rw [List.take_append_of_le_length (by simp), List.take_of_length_le (by simp),
        List.drop_append, List.drop_eq_nil_of_le (by simp)]
      simp
    · intro i u hi hne
      rcases s.tseqs f fs hi with ⟨q, -⟩ | ⟨-, -, e, ha, -⟩
      · exact absurd q hne
      · refine rowsOf_congr e ?_
        intro x hx
        exact s.fused.values x (fun e => ha (e ▸ hx))
  · intro g' hg' hne
    have m := (s.unmoved wk hg fs hg' hne).1
    unfold pageOf
    rw [eg, s.after.frame.1, ect]
    apply List.map_congr_left
    intro u hu
    rw [rowsOf_congr (m.tseq u hu) (fun x hx => by
      obtain ⟨v1, v2, v3, -⟩ := m.value u hu x hx
      exact ⟨v1, v2, v3⟩)]

theorem rowsOf_get {h : Heap} {t : TRef} {k : Nat} {r : Span3} (e : (rowsOf h t)[k]? = some r) :
    ∃ x, (h.tseq t).vals[k]? = some x ∧ r = (h.start x, h.stop x, h.label x) := by
  unfold rowsOf at e
  rw [List.getElem?_map, Option.map_eq_some_iff] at e
  obtain ⟨x, hx, e⟩ := e
  exact ⟨x, hx, e.symm⟩

theorem pageOf_get {h : Heap} {g : GRef} {j : Nat} {n : String} {rs : List Span3} (e : (pageOf h g)[j]? = some (n, rs)) :
    ∃ t, (h.gtiers g)[j]? = some t ∧ n = h.ct.name (h.tcls t) ∧ rs = rowsOf h t := by
  unfold pageOf at e
  rw [List.getElem?_map, Option.map_eq_some_iff] at e
  obtain ⟨x, hx, e⟩ := e
  cases e
  exact ⟨x, hx, rfl, rfl⟩

/-- the plain data of a draft -/
theorem DraftedBy.book {P : Heap → List TRef → Prop} {h : Heap} {a : ARef} {d : Draft} (dr : DraftedBy P h (h.agroups a) d) : bookOf h a = d.map (·.1) := by
  obtain ⟨fl, rfl, -⟩ := dr
  rw [List.map_map]
  rfl

theorem DraftedBy.onPage {P : Heap → List TRef → Prop} {h : Heap} {gs : List GRef} {d d' : Draft} {i : Nat} {ok : Bool → Bool} {f : Page → Option Page}
    (dr : DraftedBy P h gs d) (e : d.onPage i ok f = some d') :
    ∃ g p' c, gs[i]? = some g ∧ f (pageOf h g) = some p' ∧ ok c = true ∧ (c = true → P h (h.gtiers g)) ∧
      d[i]? = some (pageOf h g, c) ∧ d' = d.set i (p', c) := by
  unfold Draft.onPage at e
  obtain ⟨fl, hd, hc⟩ := dr
  cases hb : d[i]? with
  | none => rw [hb] at e; cases e
  | some q =>
    rw [hb] at e
    simp only at e
    by_cases ho : ok q.2 = true
    · rw [if_pos ho, Option.map_eq_some_iff] at e
      obtain ⟨p', h1, h2⟩ := e
      rw [hd, List.getElem?_map, Option.map_eq_some_iff] at hb
      obtain ⟨g, hg, rfl⟩ := hb
      exact ⟨g, p', fl g, hg, h1, ho, hc g (List.mem_of_getElem? hg), rfl, h2.symm⟩
    · rw [if_neg ho] at e; cases e

/-- the page of one group changed -/
theorem DraftedBy.set {P : Heap → List TRef → Prop} {h h' : Heap} {gs : List GRef} {d : Draft} {i : Nat} {g : GRef} {p' : Page} {c : Bool}
    (dr : DraftedBy P h gs d)
    (nd : gs.Nodup) (hg : gs[i]? = some g) (hd : d[i]? = some (pageOf h g, c)) (hp : pageOf h' g = p')
    (ho : ∀ g' ∈ gs, g' ≠ g → pageOf h' g' = pageOf h g')
    (hc : ∀ g' ∈ gs, P h (h.gtiers g') → P h' (h'.gtiers g')) : DraftedBy P h' gs (d.set i (p', c)) := by
  obtain ⟨fl, rfl, hfl⟩ := dr
  refine DraftedBy.of_index nd (by rw [List.length_set, List.length_map]) ?_
  intro m g' hm
  have hgm := List.mem_of_getElem? hm
  rw [List.getElem?_set]
  by_cases q : i = m
  · subst q
    rw [hg] at hm
    cases hm
    rw [List.getElem?_map, hg] at hd
    cases hd
    refine ⟨fl g, ?_, fun q => hc g hgm (hfl g hgm q)⟩
    rw [if_pos rfl, if_pos (by rw [List.length_map]; exact getElem?_lt hg), hp]
  · refine ⟨fl g', ?_, fun q => hc g' hgm (hfl g' hgm q)⟩
    rw [if_neg q, List.getElem?_map, hm, ho g' hgm]
    · rfl
    · rintro rfl
      exact q (nodup_index nd hg hm)

theorem Page.fuse_some {J : String → String → String} {j k : Nat} {p p' : Page} (e : p.fuse J j k = some p') :
    ∃ n rs r r', p[j]? = some (n, rs) ∧ rs[k]? = some r ∧ rs[k + 1]? = some r' ∧ r.2.1 = r'.1 ∧ J r.2.2 r'.2.2 ≠ "#" ∧
      (j = 0 ∨ ∃ q ∈ ((p[j - 1]?).map (·.2)).getD [], (q.1 ≤ r.1 ∧ r.2.1 ≤ q.2.1) ∧ q.1 ≤ r'.1 ∧ r'.2.1 ≤ q.2.1) ∧
      p' = p.set j (n, rs.take k ++ (r.1, r'.2.1, J r.2.2 r'.2.2) :: rs.drop (k + 2)) := by
  unfold Page.fuse at e
  cases h1 : p[j]? with
  | none => rw [h1] at e; cases e
  | some nr =>
    obtain ⟨n, rs⟩ := nr
    rw [h1] at e
    simp only at e
    cases h2 : rs[k]? with
    | none => rw [h2] at e; cases e
    | some r =>
      cases h3 : rs[k + 1]? with
      | none => rw [h2, h3] at e; cases e
      | some r' =>
        rw [h2, h3] at e
        simp only at e
        by_cases c : r.2.1 = r'.1 ∧ J r.2.2 r'.2.2 ≠ "#" ∧
          (j = 0 ∨ ∃ q ∈ ((p[j - 1]?).map (·.2)).getD [], (q.1 ≤ r.1 ∧ r.2.1 ≤ q.2.1) ∧ q.1 ≤ r'.1 ∧ r'.2.1 ≤ q.2.1)
        · rw [if_pos c] at e
          exact ⟨n, rs, r, r', rfl, h2, h3, c.1, c.2.1, c.2.2, (Option.some.inj e).symm⟩
        · rw [if_neg c] at e; cases e

theorem fuseSpot_of_page {h : Heap} {g : GRef} {j k : Nat} {t : TRef} {x y : Ref} (ht : (h.gtiers g)[j]? = some t)
    (hx : (h.tseq t).vals[k]? = some x) (hy : (h.tseq t).vals[k + 1]? = some y) (tc : h.stop x = h.start y)
    (un : j = 0 ∨ ∃ q ∈ (((pageOf h g)[j - 1]?).map (·.2)).getD [], (q.1 ≤ h.start x ∧ h.stop x ≤ q.2.1) ∧
      q.1 ≤ h.start y ∧ h.stop y ≤ q.2.1) :
    FuseSpot h g j t ((h.tseq t).vals.take k) x y ((h.tseq t).vals.drop (k + 2)) := by
  refine ⟨ht, split_two hx hy, tc, ?_⟩
  rintro m s rfl hs
  rcases un with un | ⟨q, hq, i1, i2⟩
  · cases un
  · have : (pageOf h g)[m + 1 - 1]? = some (h.ct.name (h.tcls s), rowsOf h s) := by
      unfold pageOf; rw [List.getElem?_map, Nat.add_sub_cancel, hs]; rfl
    rw [this] at hq
    simp only [Option.map_some, Option.getD_some, rowsOf, List.mem_map] at hq
    obtain ⟨u, hu, rfl⟩ := hq
    exact ⟨u, hu, i1, i2⟩

theorem WorkableFor.fuse {h : Heap} {a : ARef} (wk : WorkableFor R h (h.agroups a)) {J : String → String → String} {i j k : Nat} {g : GRef}
    {p' : Page} (hg : (h.agroups a)[i]? = some g) (hp : Page.fuse J j k (pageOf h g) = some p')
    (hc : j = 0 → Strung h (h.gtiers g)) :
    ∃ h', fuseAt J a i j k h = .ok () h' ∧ h'.agroups = h.agroups ∧ WorkableFor R h' (h.agroups a) ∧ pageOf h' g = p' ∧
      (∀ g' ∈ h.agroups a, g' ≠ g → pageOf h' g' = pageOf h g') ∧
      ∀ g' ∈ h.agroups a, Strung h (h.gtiers g') → Strung h' (h'.gtiers g') := by
  obtain ⟨n, rs, r, r', h1, h2, h3, tc, hl, un, rfl⟩ := Page.fuse_some hp
  obtain ⟨t, ht, rfl, rfl⟩ := pageOf_get h1
  obtain ⟨x, hx, rfl⟩ := rowsOf_get h2
  obtain ⟨y, hy, rfl⟩ := rowsOf_get h3
  have hgm := List.mem_of_getElem? hg
  have hk : ((h.tseq t).vals.take k).length = k := by
    rw [List.length_take]; have := (List.getElem?_eq_some_iff.mp hx).1; omega
  have fs := fuseSpot_of_page ht hx hy tc un
  obtain ⟨h', e, s⟩ := wk.fuseStep hgm fs hc J hl
  have ea : h'.agroups = h.agroups := by rw [s.after.rest]
  have eg : h'.gtiers = h.gtiers := by rw [s.after.rest]
  obtain ⟨pg, po⟩ := s.page wk hgm fs
  rw [hk] at pg
  refine ⟨h', ?_, ea, s.workable hl wk hgm fs, pg, po, ?_⟩
  · unfold fuseAt
    mstep entryAt_ok hg ht hx
    exact e
  · intro g' hg' hc'
    rw [eg]
    by_cases q : g' = g
    · subst q; exact s.chained wk hgm fs (fun _ => ⟨rfl, rfl⟩) hc'
    · exact hc'.unmoved (s.unmoved wk hgm fs hg' q).1

theorem WorkableFor.fuseLeft {h : Heap} {a : ARef} (wk : WorkableFor R h (h.agroups a)) {J : String → String → String} {i j k : Nat} {g : GRef}
    {p' : Page} (hg : (h.agroups a)[i]? = some g) (hp : Page.fuse J j k (pageOf h g) = some p') (hj : j ≠ 0) :
    ∃ h', fuseLeftAt J a i j (k + 1) h = .ok () h' ∧ h'.agroups = h.agroups ∧ WorkableFor R h' (h.agroups a) ∧ pageOf h' g = p' ∧
      (∀ g' ∈ h.agroups a, g' ≠ g → pageOf h' g' = pageOf h g') ∧
      ∀ g' ∈ h.agroups a, Strung h (h.gtiers g') → Strung h' (h'.gtiers g') := by
  obtain ⟨n, rs, r, r', h1, h2, h3, tc, hl, un, rfl⟩ := Page.fuse_some hp
  obtain ⟨t, ht, rfl, rfl⟩ := pageOf_get h1
  obtain ⟨x, hx, rfl⟩ := rowsOf_get h2
  obtain ⟨y, hy, rfl⟩ := rowsOf_get h3
  have hgm := List.mem_of_getElem? hg
  have hk : ((h.tseq t).vals.take k).length = k := by
    rw [List.length_take]; have := (List.getElem?_eq_some_iff.mp hx).1; omega
  have fs := fuseSpot_of_page ht hx hy tc un
  obtain ⟨h', e, s⟩ := wk.fuseStepLeft hgm fs (fun q => absurd q hj) J hl
  have ea : h'.agroups = h.agroups := by rw [s.after.rest]
  have eg : h'.gtiers = h.gtiers := by rw [s.after.rest]
  obtain ⟨pg, po⟩ := s.page wk hgm fs
  rw [hk] at pg
  refine ⟨h', ?_, ea, s.workable hl wk hgm fs, pg, po, ?_⟩
  · unfold fuseLeftAt
    mstep entryAt_ok hg ht hy
    exact e
  · intro g' hg' hc'
    rw [eg]
    by_cases q : g' = g
    · subst q; exact s.chained wk hgm fs (fun e => absurd e hj) hc'
    · exact hc'.unmoved (s.unmoved wk hgm fs hg' q).1

theorem EditableFor.rowsOf_other {h : Heap} {gs : List GRef} (e : EditableFor R h gs) {g g' : GRef} (hg : g ∈ gs) (hg' : g' ∈ gs)
    {i j : Nat} {t u : TRef} {x : Ref} (ht : (h.gtiers g)[j]? = some t) (hu : (h.gtiers g')[i]? = some u)
    (hx : x ∈ (h.tseq t).vals) (hx' : x ∈ (h.tseq u).vals) : g' = g ∧ i = j := by
  have hgg : g' = g := by
    apply Classical.byContradiction
    intro ne
    exact e.sep g' hg' g hg ne u (List.mem_of_getElem? hu) x hx' t (List.mem_of_getElem? ht) hx
  subst hgg
  exact ⟨rfl, (e.fit g' hg).index hu ht hx' hx⟩

theorem EditableFor.relabel {h : Heap} {gs : List GRef} (e : EditableFor R h gs) {g : GRef} (hg : g ∈ gs) {j : Nat} {t : TRef} {x : Ref}
    (ht : (h.gtiers g)[j]? = some t) (hx : x ∈ (h.tseq t).vals) {lab : String} (hl : lab ≠ "#") :
    EditableFor R { h with label := upd h.label x lab } gs := by
  have hlab : ∀ z, h.label z ≠ "#" → upd h.label x lab z ≠ "#" := by
    intro z hz
    by_cases q : z = x
    · subst q; rw [upd_same]; exact hl
    · rw [upd_ne _ _ _ _ q]; exact hz
  refine ⟨e.wfc, e.nodup, e.old, e.sep, ⟨e.tidy.down, e.tidy.up, e.tidy.nodup, ?_, e.tidy.cls, fun v z hz => hlab z (e.tidy.label v z hz)⟩,
    e.alloc, e.allocUp, ?_, e.up, ?_, e.rows⟩
  · intro v y hy z hz sv
    by_cases hxv : x ∈ (h.subs v).vals
    · have f := e.fit g hg
      have r := e.rel g hg
      obtain ⟨i, u, -, hi, hv, -⟩ := r.above ht hx (e.tidy.down v x hxv)
      by_cases q : y = z
      · exact q
      · exfalso
        have hi' : (h.gtiers g)[i + 1]? = some t := by
          obtain ⟨i', u', ej, hi2, hv2, -⟩ := r.above ht hx (e.tidy.down v x hxv)
          rw [f.index hi hi2 hv hv2, ← ej]; exact ht
        have o : InOrder h (h.subs v).vals := by
          rw [(r.subs i u t hi hi' v hv).1]
          exact List.Pairwise.sublist List.filter_sublist (f.inOrder (List.mem_of_getElem? ht))
        exact (o.pair hy hz q).1 sv.2.1
    · apply e.tidy.distinct v y hy z hz
      obtain ⟨s1, s2, s3, s4⟩ := sv
      refine ⟨s1, s2, s3, ?_⟩
      simp only at s4
      rwa [upd_ne _ _ _ _ (fun q : y = x => hxv (q ▸ hy)), upd_ne _ _ _ _ (fun q : z = x => hxv (q ▸ hz))] at s4
  · intro g' hg'
    have f := e.fit g' hg'
    exact ⟨f.once, f.cls, fun u hu z hz => hlab z (f.label u hu z hz), f.disjoint, f.positive,
      fun i u u' h1 h2 => (f.aligned i u u' h1 h2).moved 0 (fun _ _ => ⟨(Rat.add_zero _).symm, (Rat.add_zero _).symm⟩)
        (fun _ _ => ⟨(Rat.add_zero _).symm, (Rat.add_zero _).symm⟩), f.closed, f.old⟩
  · intro g' hg'
    have r := e.rel g' hg'
    exact ⟨r.subs, fun i u u' h1 h2 v hv => ⟨(r.linked i u u' h1 h2 v hv).next, (r.linked i u u' h1 h2 v hv).first,
      (r.linked i u u' h1 h2 v hv).last⟩, r.sup, r.covered, r.top, r.contains⟩

theorem Page.relabel_some {lab : String} {j k : Nat} {p p' : Page} (e : p.relabel lab j k = some p') :
    ∃ n rs r, p[j]? = some (n, rs) ∧ rs[k]? = some r ∧ lab ≠ "#" ∧ p' = p.set j (n, rs.set k (r.1, r.2.1, lab)) := by
  unfold Page.relabel at e
  cases h1 : p[j]? with
  | none => rw [h1] at e; cases e
  | some nr =>
    obtain ⟨n, rs⟩ := nr
    rw [h1] at e
    simp only at e
    cases h2 : rs[k]? with
    | none => rw [h2] at e; cases e
    | some r =>
      rw [h2] at e
      simp only at e
      by_cases c : lab ≠ "#"
      · rw [if_pos c] at e
        exact ⟨n, rs, r, rfl, h2, c, (Option.some.inj e).symm⟩
      · rw [if_neg c] at e; cases e

/-- relabelling an interval of a textgrid that can be edited -/
theorem EditableFor.relabelAt {h : Heap} {a : ARef} (ed : EditableFor R h (h.agroups a)) {lab : String} {i j k : Nat} {g : GRef} {p' : Page}
    (hg : (h.agroups a)[i]? = some g) (hp : Page.relabel lab j k (pageOf h g) = some p') :
    ∃ x, relabelAt lab a i j k h = .ok () { h with label := upd h.label x lab } ∧
      EditableFor R { h with label := upd h.label x lab } (h.agroups a) ∧ pageOf { h with label := upd h.label x lab } g = p' ∧
      ∀ g' ∈ h.agroups a, g' ≠ g → pageOf { h with label := upd h.label x lab } g' = pageOf h g' := by
  obtain ⟨n, rs, r, h1, h2, hl, rfl⟩ := Page.relabel_some hp
  obtain ⟨t, ht, rfl, rfl⟩ := pageOf_get h1
  obtain ⟨x, hx, rfl⟩ := rowsOf_get h2
  have hgm := List.mem_of_getElem? hg
  have hxm := List.mem_of_getElem? hx
  have hnd : (h.tseq t).vals.Nodup := ((ed.fit g hgm).inOrder (List.mem_of_getElem? ht)).nodup
  refine ⟨x, ?_, ed.relabel hgm ht hxm hl, pageOf_set ht rfl rfl rfl ?_ ?_, ?_⟩
  · unfold ATG.relabelAt
    mstep entryAt_ok hg ht hx
    rfl
  · unfold rowsOf
    apply List.ext_getElem?
    intro m
    rw [List.getElem?_map, List.getElem?_set, List.getElem?_map]
    by_cases q : k = m
    · subst q
      have := (List.getElem?_eq_some_iff.mp hx).1
      rw [hx]; simp [this]
    · rw [if_neg q]
      cases hm : (h.tseq t).vals[m]? with
      | none => rfl
      | some z =>
        simp only [Option.map_some]
        rw [upd_ne _ _ _ _ (fun e : z = x => q (nodup_index hnd hx (e ▸ hm)))]
  · intro m u hu hne
    refine rowsOf_congr rfl ?_
    intro z hz
    refine ⟨rfl, rfl, upd_ne _ _ _ _ ?_⟩
    rintro rfl
    exact hne (ed.rowsOf_other hgm hgm ht hu hxm hz).2
  · intro g' hg' hne
    unfold pageOf
    apply List.map_congr_left
    intro u hu
    obtain ⟨m, hm⟩ := List.mem_iff_getElem?.mp hu
    refine congrArg (Prod.mk _) (rowsOf_congr rfl ?_)
    intro z hz
    refine ⟨rfl, rfl, upd_ne _ _ _ _ ?_⟩
    rintro rfl
    exact hne (ed.rowsOf_other hgm hg' ht hm hxm hz).1

end

theorem mapM_map_fst {α β γ} {f : α → Option β} {m : α × γ → β → γ} : ∀ {l : List (α × γ)} {l' : List (β × γ)},
    (l.mapM fun q => (f q.1).map fun p => (p, m q p)) = some l' → (l.map (·.1)).mapM f = some (l'.map (·.1))
  | [], l', e => by
    simp at e
    subst e
    rfl
  | x :: l, l', e => by
    rw [List.mapM_cons] at e
    cases hx : f x.1 with
    | none => rw [hx] at e; cases e
    | some y =>
      rw [hx] at e
      cases hl : l.mapM fun q => (f q.1).map fun p => (p, m q p) with
      | none => rw [hl] at e; cases e
      | some ys =>
        rw [hl] at e
        have e' : (y, m x y) :: ys = l' := Option.some.inj e
        subst e'
        rw [List.map_cons, List.mapM_cons, hx, mapM_map_fst hl]
        rfl

theorem Draft.interleave_book {name cname : String} {above fromBelow labels : Bool} {d d' : Draft}
    (e : d.interleave name above cname fromBelow labels = some d') :
    Book.interleave name above cname fromBelow labels (d.map (·.1)) = some (d'.map (·.1)) := by
  unfold Draft.interleave at e
  split at e
  case isFalse => cases e
  rename_i c
  unfold Book.interleave
  rw [if_pos]
  · exact mapM_map_fst e
  · obtain ⟨c1, c2, c3, ⟨q, hq, c4⟩, c5⟩ := c
    refine ⟨c1, c2, c3, ⟨q.1, List.mem_map.mpr ⟨q, hq, rfl⟩, c4⟩, ?_⟩
    intro p hp
    obtain ⟨q', hq', rfl⟩ := List.mem_map.mp hp
    exact c5 q' hq'

/-- what is left without the rows of classes -/
theorem WorkableFor.linked {R : ClassTab → List (List CRef) → Prop} [LinkedRows R] {h : Heap} {gs : List GRef} (wk : WorkableFor R h gs) :
    WorkableFor RowLinks h gs :=
  ⟨⟨wk.wfc, wk.nodup, wk.old, wk.sep, wk.tidy, wk.alloc, wk.allocUp, wk.fit, wk.up, wk.rel, fun cs hcs => LinkedRows.links wk.rows cs hcs⟩,
    wk.homed, wk.interval, wk.gpoint⟩

/-- fusing, relabelling and shifting, for any classes that are linked -/
theorem WorkableFor.mildStep {R : ClassTab → List (List CRef) → Prop} [LinkedRows R] {h : Heap} {a : ARef}
    (wk : WorkableFor R h (h.agroups a)) {d d' : Draft} (dr : Drafted h (h.agroups a) d) (e : Change)
    (he : e.act d = some d') (hm : e.mild = true) :
    ∃ h', e.run a h = .ok () h' ∧ WorkableFor R h' (h'.agroups a) ∧ Drafted h' (h'.agroups a) d' := by
  cases e with
  | touch e =>
    cases e with
    | fuse J i j k =>
      obtain ⟨g, p', c, hg, hp, ho, hc, hd, rfl⟩ := dr.onPage he
      obtain ⟨h', r, ea, wk', pg, po, ch⟩ := wk.fuse hg hp (by
        rintro rfl
        exact hc (by simpa using ho))
      refine ⟨h', r, ?_⟩
      rw [ea]
      exact ⟨wk', dr.set wk.nodup hg hd pg po ch⟩
    | fuseLeft J i j k =>
      change Draft.onPage i (fun _ => decide (j ≠ 0)) (Page.fuseLeft J j k) d = some d' at he
      obtain ⟨g, p', c, hg, hp, ho, -, hd, rfl⟩ := dr.onPage he
      match k, hp with
      | k + 1, hp =>
        obtain ⟨h', r, ea, wk', pg, po, ch⟩ := wk.fuseLeft hg hp (by simpa using ho)
        refine ⟨h', r, ?_⟩
        rw [ea]
        exact ⟨wk', dr.set wk.nodup hg hd pg po ch⟩
    | relabel lab i j k =>
      change Draft.onPage i (fun _ => true) (Page.relabel lab j k) d = some d' at he
      obtain ⟨g, p', c, hg, hp, -, -, hd, rfl⟩ := dr.onPage he
      obtain ⟨x, r, ed, pg, po⟩ := wk.toEditableFor.relabelAt hg hp
      exact ⟨_, r, ⟨ed, fun g hg => ⟨(wk.homed g hg).home, (wk.homed g hg).below, (wk.homed g hg).typed, (wk.homed g hg).fresh⟩, wk.interval, wk.gpoint⟩,
        dr.set wk.nodup hg hd pg po fun _ _ q => q⟩
  | edit e =>
    cases e with
    | interleave name above cname fromBelow labels => cases hm
    | pop name => cases hm
    | shift t =>
      obtain ⟨h', r, ea, ed, q⟩ := wk.toEditableFor.shift t
      have r' := atgShift_ok a t h wk.toEditableFor.entries_nodup
      rw [r] at r'
      cases r'
      cases he
      refine ⟨_, r, ⟨ed, fun g hg => ⟨(wk.homed g hg).home, (wk.homed g hg).below, (wk.homed g hg).typed, (wk.homed g hg).fresh⟩, wk.interval, wk.gpoint⟩, ?_⟩
      obtain ⟨fl, rfl, hfl⟩ := dr
      refine ⟨fl, ?_, hfl⟩
      unfold Draft.shift
      rw [List.map_map]
      apply List.map_congr_left
      intro g hg
      refine Prod.ext ?_ rfl
      unfold bookOf Book.shift at q
      rw [List.map_map] at q
      obtain ⟨i, hi⟩ := List.mem_iff_getElem?.mp hg
      have q' := congrArg (fun l : List Page => l[i]?) q
      simp only [List.getElem?_map] at q'
      rw [show (shiftOn (atgEntries h a) t h).agroups a = h.agroups a from rfl, hi] at q'
      exact (Option.some.inj q').symm

theorem Workable.step {h : Heap} {a : ARef} (wk : Workable h (h.agroups a)) {d d' : Draft} (dr : Drafted h (h.agroups a) d) (e : Change)
    (he : e.act d = some d') :
    ∃ h', e.run a h = .ok () h' ∧ Workable h' (h'.agroups a) ∧ Drafted h' (h'.agroups a) d' := by
  cases e with
  | touch e => exact wk.mildStep dr _ he rfl
  | edit e =>
    cases e with
    | interleave name above cname fromBelow labels =>
      have hb : (bookOf h a).interleave name above cname fromBelow labels = some (d'.map (·.1)) := by
        rw [dr.book]
        exact Draft.interleave_book he
      obtain ⟨h', r, ed, -, ca⟩ := Editable.interleave wk.toEditableFor name above cname fromBelow labels hb
      exact ⟨h', r, ⟨ed, ca.homed wk.homed, ca.interval wk.interval, ca.gpoint wk.gpoint⟩, ca.drafted _ (Or.inl rfl) d d' dr he⟩
    | pop name =>
      obtain ⟨h', r, ed, -, ca⟩ := Editable.pop wk.toEditableFor name
      cases he
      exact ⟨h', r, ⟨ed, ca.homed wk.homed, ca.interval wk.interval, ca.gpoint wk.gpoint⟩, ca.drafted _ (Or.inl rfl) d dr⟩
    | shift t => exact wk.mildStep dr _ he rfl

end ATG
