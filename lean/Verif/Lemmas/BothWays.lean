import Verif.Spec.BothWays
import Verif.Lemmas.TouchBook
/-!
# Fusing the intervals of first tiers in both directions
-/
namespace ATG

section
variable {R : ClassTab → List (List CRef) → Prop} [LinkedRows R]

/-- fusing rightwards keeps what entries of first tiers know of the previous one, unless it is done on that tier -/
theorem WorkableFor.fuse_backed {h h' : Heap} {a : ARef} (wk : WorkableFor R h (h.agroups a)) {J : String → String → String} {i j k : Nat} {g : GRef}
    {p' : Page} (hg : (h.agroups a)[i]? = some g) (hp : Page.fuse J j k (pageOf h g) = some p')
    (hc : j = 0 → Strung h (h.gtiers g)) (e' : fuseAt J a i j k h = .ok () h') :
    ∀ g' ∈ h.agroups a, (g' = g → j ≠ 0) → Backed h (h.gtiers g') → Backed h' (h'.gtiers g') := by
  obtain ⟨n, rs, r, r', h1, h2, h3, tc, hl, un, rfl⟩ := Page.fuse_some hp
  obtain ⟨t, ht, rfl, rfl⟩ := pageOf_get h1
  obtain ⟨x, hx, rfl⟩ := rowsOf_get h2
  obtain ⟨y, hy, rfl⟩ := rowsOf_get h3
  have hgm := List.mem_of_getElem? hg
  have fs := fuseSpot_of_page ht hx hy tc un
  obtain ⟨h2', e, s⟩ := wk.fuseStep hgm fs hc J hl
  have e2 : fuseAt J a i j k h = .ok () h2' := by
    unfold fuseAt
    mstep entryAt_ok hg ht hx
    exact e
  rw [e2] at e'
  cases e'
  have eg : h'.gtiers = h.gtiers := by rw [s.after.rest]
  intro g' hg' hj hb
  rw [eg]
  by_cases q : g' = g
  · subst q; exact s.backed wk hgm fs (fun e => absurd e (hj rfl)) hb
  · exact hb.unmoved (s.unmoved wk hgm fs hg' q).1

/-- fusing leftwards on any tier -/
theorem WorkableFor.fuseLeftAny {h : Heap} {a : ARef} (wk : WorkableFor R h (h.agroups a)) {J : String → String → String} {i j k : Nat} {g : GRef}
    {p' : Page} (hg : (h.agroups a)[i]? = some g) (hp : Page.fuse J j k (pageOf h g) = some p') (hj : j = 0 → Backed h (h.gtiers g)) :
    ∃ h', fuseLeftAt J a i j (k + 1) h = .ok () h' ∧ h'.agroups = h.agroups ∧ WorkableFor R h' (h.agroups a) ∧ pageOf h' g = p' ∧
      (∀ g' ∈ h.agroups a, g' ≠ g → pageOf h' g' = pageOf h g') ∧
      (∀ g' ∈ h.agroups a, g' ≠ g → Strung h (h.gtiers g') → Strung h' (h'.gtiers g')) ∧
      ∀ g' ∈ h.agroups a, Backed h (h.gtiers g') → Backed h' (h'.gtiers g') := by
  obtain ⟨n, rs, r, r', h1, h2, h3, tc, hl, un, rfl⟩ := Page.fuse_some hp
  obtain ⟨t, ht, rfl, rfl⟩ := pageOf_get h1
  obtain ⟨x, hx, rfl⟩ := rowsOf_get h2
  obtain ⟨y, hy, rfl⟩ := rowsOf_get h3
  have hgm := List.mem_of_getElem? hg
  have hk : ((h.tseq t).vals.take k).length = k := by
    rw [List.length_take]; have := (List.getElem?_eq_some_iff.mp hx).1; omega
  have fs := fuseSpot_of_page ht hx hy tc un
  obtain ⟨h', e, s⟩ := wk.fuseStepLeft hgm fs hj J hl
  have ea : h'.agroups = h.agroups := by rw [s.after.rest]
  have eg : h'.gtiers = h.gtiers := by rw [s.after.rest]
  obtain ⟨pg, po⟩ := s.page wk hgm fs
  rw [hk] at pg
  refine ⟨h', ?_, ea, s.workable hl wk hgm fs, pg, po, ?_, ?_⟩
  · unfold fuseLeftAt
    mstep entryAt_ok hg ht hy
    exact e
  · intro g' hg' q hc'
    rw [eg]
    exact hc'.unmoved (s.unmoved wk hgm fs hg' q).1
  · intro g' hg' hb
    rw [eg]
    by_cases q : g' = g
    · subst q; exact s.backed wk hgm fs (fun _ => ⟨rfl, rfl⟩) hb
    · exact hb.unmoved (s.unmoved wk hgm fs hg' q).1

/-- the page of one group changed, and its mark dropped -/
theorem DraftedBy.setOff {P : Heap → List TRef → Prop} {h h' : Heap} {gs : List GRef} {d : Draft} {i : Nat} {g : GRef} {p' : Page} {c : Bool}
    (dr : DraftedBy P h gs d) (nd : gs.Nodup) (hg : gs[i]? = some g) (hp : pageOf h' g = p')
    (ho : ∀ g' ∈ gs, g' ≠ g → pageOf h' g' = pageOf h g')
    (hc : ∀ g' ∈ gs, g' ≠ g → P h (h.gtiers g') → P h' (h'.gtiers g')) :
    DraftedBy P h' gs (Draft.unmark i (d.set i (p', c))) := by
  obtain ⟨fl, rfl, hfl⟩ := dr
  refine DraftedBy.of_index nd (by unfold Draft.unmark; rw [List.length_modify, List.length_set, List.length_map]) ?_
  intro m g' hm
  have hgm := List.mem_of_getElem? hm
  unfold Draft.unmark
  rw [List.getElem?_modify, List.getElem?_set]
  by_cases q : i = m
  · subst q
    rw [hg] at hm
    cases hm
    refine ⟨false, ?_, fun q => by cases q⟩
    rw [if_pos rfl, if_pos (by rw [List.length_map]; exact getElem?_lt hg), hp]
    simp
  · have hne : g' ≠ g := by
      rintro rfl
      exact q (nodup_index nd hg hm)
    refine ⟨fl g', ?_, fun q => hc g' hgm hne (hfl g' hgm q)⟩
    rw [if_neg q, List.getElem?_map, hm, ho g' hgm hne]
    simp [q]

theorem actBoth_both {e : Change} {q q' : Draft × Draft} (he : ((e.act q.1).bind fun d' => (e.act q.2).map fun b' => (d', b')) = some q') :
    e.act q.1 = some q'.1 ∧ e.act q.2 = some q'.2 := by
  obtain ⟨x, h1, h2⟩ := Option.bind_eq_some_iff.mp he
  obtain ⟨y, h3, h4⟩ := Option.map_eq_some_iff.mp h2
  subst h4
  exact ⟨h1, h3⟩

theorem WorkableFor.bothStep {h : Heap} {a : ARef} (wk : WorkableFor R h (h.agroups a)) {q q' : Draft × Draft}
    (dr : DraftedBoth h (h.agroups a) q) (e : Change) (he : e.actBoth q = some q') (hm : e.mild = true) :
    ∃ h', e.run a h = .ok () h' ∧ WorkableFor R h' (h'.agroups a) ∧ DraftedBoth h' (h'.agroups a) q' := by
  obtain ⟨dr, db⟩ := dr
  cases e with
  | touch e =>
    cases e with
    | fuse J i j k =>
      match j, he with
      | 0, he =>
        obtain ⟨x, h1, h2⟩ := Option.bind_eq_some_iff.mp he
        obtain ⟨y, h3, h4⟩ := Option.map_eq_some_iff.mp h2
        subst h4
        obtain ⟨g, p', c, hg, hp, ho, hc, hd, rfl⟩ := dr.onPage h1
        obtain ⟨g2, p2, c2, hg2, hp2, -, -, hd2, rfl⟩ := db.onPage h3
        rw [hg] at hg2
        cases hg2
        rw [hp] at hp2
        cases hp2
        obtain ⟨h', r, ea, wk', pg, po, ch⟩ := wk.fuse hg hp (fun _ => hc ho)
        have kb := wk.fuse_backed hg hp (fun _ => hc ho) r
        refine ⟨h', r, ?_⟩
        rw [ea]
        exact ⟨wk', dr.set wk.nodup hg hd pg po ch, db.setOff wk.nodup hg pg po fun g' hg' hne => kb g' hg' fun e => absurd e hne⟩
      | j + 1, he =>
        obtain ⟨h1, h3⟩ := actBoth_both he
        obtain ⟨h', r, wk', dr'⟩ := wk.mildStep dr _ h1 hm
        obtain ⟨g, p', c, hg, hp, ho, hc, hd, e2⟩ := db.onPage h3
        obtain ⟨h2, r2, ea, -, pg, po, -⟩ := wk.fuse hg hp (fun e => by cases e)
        have r3 : fuseAt J a i (j + 1) k h = .ok () h' := r
        rw [r2] at r3
        cases r3
        have kb := wk.fuse_backed hg hp (fun e => by cases e) r2
        refine ⟨h', r, wk', dr', ?_⟩
        rw [ea, e2]
        exact db.set wk.nodup hg hd pg po fun g' hg' => kb g' hg' fun _ => by simp
    | fuseLeft J i j k =>
      match j, he with
      | 0, he =>
        obtain ⟨x, h1, h2⟩ := Option.bind_eq_some_iff.mp he
        obtain ⟨y, h3, h4⟩ := Option.map_eq_some_iff.mp h2
        subst h4
        obtain ⟨g, p', c, hg, hp, -, -, hd, rfl⟩ := dr.onPage h1
        obtain ⟨g2, p2, c2, hg2, hp2, ho, hc, hd2, rfl⟩ := db.onPage h3
        rw [hg] at hg2
        cases hg2
        rw [hp] at hp2
        cases hp2
        match k, hp with
        | k + 1, hp =>
          obtain ⟨h', r, ea, wk', pg, po, ch, kb⟩ := wk.fuseLeftAny hg hp (fun _ => hc ho)
          refine ⟨h', r, ?_⟩
          rw [ea]
          exact ⟨wk', dr.setOff wk.nodup hg pg po ch, db.set wk.nodup hg hd2 pg po kb⟩
      | j + 1, he =>
        obtain ⟨h1, h3⟩ := actBoth_both he
        obtain ⟨h', r, wk', dr'⟩ := wk.mildStep dr _ h1 hm
        change Draft.onPage i (fun _ => decide (j + 1 ≠ 0)) (Page.fuseLeft J (j + 1) k) q.2 = some q'.2 at h3
        obtain ⟨g, p', c, hg, hp, ho, -, hd, e2⟩ := db.onPage h3
        refine ⟨h', r, wk', dr', ?_⟩
        match k, hp, r with
        | k + 1, hp, r =>
          obtain ⟨h2, r2, ea, -, pg, po, -, kb⟩ := wk.fuseLeftAny hg hp (fun e => by cases e)
          have r3 : fuseLeftAt J a i (j + 1) (k + 1) h = .ok () h' := r
          rw [r2] at r3
          cases r3
          rw [ea, e2]
          exact db.set wk.nodup hg hd pg po kb
    | relabel lab i j k =>
      obtain ⟨h1, h3⟩ := actBoth_both he
      obtain ⟨h', r, wk', dr'⟩ := wk.mildStep dr _ h1 hm
      change Draft.onPage i (fun _ => true) (Page.relabel lab j k) q.2 = some q'.2 at h3
      obtain ⟨g, p', c, hg, hp, -, -, hd, e2⟩ := db.onPage h3
      obtain ⟨x, r2, -, pg, po⟩ := wk.toEditableFor.relabelAt hg hp
      have r3 : relabelAt lab a i j k h = .ok () h' := r
      rw [r2] at r3
      cases r3
      refine ⟨_, r, wk', dr', ?_⟩
      rw [e2]
      exact db.set wk.nodup hg hd pg po fun _ _ q => q
  | edit e =>
    cases e with
    | interleave name above cname fromBelow labels => cases hm
    | pop name => cases hm
    | shift t =>
      obtain ⟨h1, h3⟩ := actBoth_both (e := .edit (.shift t)) (q := q) he
      obtain ⟨h', r, wk', dr'⟩ := wk.mildStep dr _ h1 hm
      have r' := atgShift_ok a t h wk.toEditableFor.entries_nodup
      have r3 : atgShift a t h = .ok () h' := r
      rw [r'] at r3
      cases r3
      refine ⟨_, r, wk', dr', ?_⟩
      obtain ⟨fl, e1, hfl⟩ := dr
      obtain ⟨fl2, e2, hfl2⟩ := db
      obtain ⟨fl3, e3, -⟩ := dr'
      refine ⟨fl2, ?_, hfl2⟩
      have s1 : q'.1 = Draft.shift t q.1 := (Option.some.inj h1).symm
      have s2 : q'.2 = Draft.shift t q.2 := (Option.some.inj h3).symm
      rw [s1, e1] at e3
      rw [s2, e2]
      unfold Draft.shift at e3 ⊢
      rw [List.map_map] at e3 ⊢
      refine List.map_congr_left fun g hg => ?_
      have := List.map_inj_left.mp e3 g hg
      exact Prod.ext (congrArg Prod.fst this :) rfl

end

theorem Workable.bothStep {h : Heap} {a : ARef} (wk : Workable h (h.agroups a)) {q q' : Draft × Draft}
    (dr : DraftedBoth h (h.agroups a) q) (e : Change) (he : e.actBoth q = some q') :
    ∃ h', e.run a h = .ok () h' ∧ Workable h' (h'.agroups a) ∧ DraftedBoth h' (h'.agroups a) q' := by
  cases e with
  | touch e => exact WorkableFor.bothStep wk dr _ he rfl
  | edit e =>
    cases e with
    | interleave name above cname fromBelow labels =>
      obtain ⟨h1, h3⟩ := actBoth_both he
      have hb : (bookOf h a).interleave name above cname fromBelow labels = some (q'.1.map (·.1)) := by
        rw [dr.1.book]
        exact Draft.interleave_book h1
      obtain ⟨h', r, ed, -, ca⟩ := Editable.interleave wk.toEditableFor name above cname fromBelow labels hb
      exact ⟨h', r, ⟨ed, ca.homed wk.homed, ca.interval wk.interval, ca.gpoint wk.gpoint⟩,
        ca.drafted _ (Or.inl rfl) _ _ dr.1 h1, ca.drafted _ (Or.inr rfl) _ _ dr.2 h3⟩
    | pop name =>
      obtain ⟨h1, h3⟩ := actBoth_both (e := .edit (.pop name)) (q := q) he
      obtain ⟨h', r, ed, -, ca⟩ := Editable.pop wk.toEditableFor name
      refine ⟨h', r, ⟨ed, ca.homed wk.homed, ca.interval wk.interval, ca.gpoint wk.gpoint⟩, ?_, ?_⟩
      · rw [← Option.some.inj h1]; exact ca.drafted _ (Or.inl rfl) _ dr.1
      · rw [← Option.some.inj h3]; exact ca.drafted _ (Or.inr rfl) _ dr.2
    | shift t => exact WorkableFor.bothStep wk dr _ he rfl

end ATG
