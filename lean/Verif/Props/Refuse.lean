import Verif.Lemmas.Refuse
import Verif.Props.Fuse
import Verif.Props.Touch
import Verif.Props.Reload
/-!
# C94 Edits of single intervals that are not possible raise and change nothing

In a textgrid that was imported and edited as in C90, `atg[i][j][k].fuse_rightwards()` and `.fuse_leftwards()` are refused where they
would cross a boundary of the tier above, or the end of the tier: they raise an exception, and nothing at all is changed, so that a
program may go on with the textgrid after `except`. What they do where they are possible is C90.
-/
namespace ATG

/-- **C94, no such interval.** If the plain data have no row at the place of the edit, it raises IndexError and changes nothing. -/
theorem C94_index (h : Heap) (a : ARef) (e : Touch)
    (hn : ∀ p n rs, (bookOf h a)[e.place.1]? = some p → p[e.place.2.1]? = some (n, rs) → rs[e.place.2.2]? = none) :
    e.run a h = .err .indexError h := by
  have key : entryAt a e.place.1 e.place.2.1 e.place.2.2 h = .err .indexError h := by
    refine entryAt_none ?_
    intro g t hg ht
    have := hn (pageOf h g) (h.ct.name (h.tcls t)) (rowsOf h t) (by unfold bookOf; rw [List.getElem?_map, hg]; rfl)
      (by unfold pageOf; rw [List.getElem?_map, ht]; rfl)
    unfold rowsOf at this
    rw [List.getElem?_map] at this
    cases hx : (h.tseq t).vals[e.place.2.2]? with
    | none => rfl
    | some x => rw [hx] at this; cases this
  cases e <;> exact M.bind_err key

variable {R : ClassTab → List (List CRef) → Prop} [LinkedRows R]

/-- **C94, to the right.** At the last row of a tier, and where no row of the tier above contains both the row and the next one,
    `fuse_rightwards` raises and changes nothing, for any label function. On first tiers the group must have its mark, as in C90.
    `_partial`: for textgrids imported and edited as in C90. -/
theorem C94_right_partial (h : Heap) (a : ARef) (wk : WorkableFor R h (h.agroups a)) (d : Draft) (dr : Drafted h (h.agroups a) d)
    (J : String → String → String) (i j k : Nat) (p : Page) (c : Bool) (hd : d[i]? = some (p, c)) (hc : j = 0 → c = true)
    (hp : p.rightEdge j k) : fuseAt J a i j k h = .err .exc h := by
  obtain ⟨fl, rfl, hfl⟩ := dr
  rw [List.getElem?_map, Option.map_eq_some_iff] at hd
  obtain ⟨g, hg, e⟩ := hd
  cases e
  have hgm := List.mem_of_getElem? hg
  obtain ⟨n, rs, r, h1, h2, hr⟩ := hp
  obtain ⟨t, ht, rfl, rfl⟩ := pageOf_get h1
  obtain ⟨x, hx, rfl⟩ := rowsOf_get h2
  have hf : h.fol x = some .bumper := by
    match j, hc, ht, hr with
    | 0, hc, ht, hr =>
      have hl : (h.tseq t).vals[k + 1]? = none := by
        rcases hr with q | ⟨r', -, q, -⟩
        · unfold rowsOf at q
          rw [List.getElem?_map] at q
          cases hy : (h.tseq t).vals[k + 1]? with
          | none => rfl
          | some y => rw [hy] at q; cases q
        · exact absurd rfl q
      rw [(hfl g hgm (hc rfl) t ht k x hx).1, hl]
      rfl
    | j + 1, _, ht, hr =>
      have hj : j < (h.gtiers g).length := by have := (List.getElem?_eq_some_iff.mp ht).1; omega
      refine wk.toEditableFor.rightEnd hgm (List.getElem?_eq_getElem hj) ht hx ?_
      rintro y hy u hu ⟨i1, i2⟩
      have hy' : (rowsOf h t)[k + 1]? = some (h.start y, h.stop y, h.label y) := by
        unfold rowsOf; rw [List.getElem?_map, hy]; rfl
      rcases hr with q | ⟨r', q, -, no⟩
      · rw [hy'] at q; cases q
      · rw [hy'] at q; cases q
        exact no _ (mem_above (List.getElem?_eq_getElem hj) hu) ⟨i1, i2⟩
  unfold fuseAt
  mstep entryAt_ok hg ht hx
  exact C17_right_edge h J x (Or.inl hf)

/-- **C94, to the left.** Below the first tier, `fuse_leftwards` of the first row of a tier, or where no row of the tier above
    contains both the row and the one before, raises and changes nothing.
    `_partial`: for textgrids imported and edited as in C90, and not on first tiers. -/
theorem C94_left_partial (h : Heap) (a : ARef) (wk : WorkableFor R h (h.agroups a)) (J : String → String → String) (i j k : Nat) (p : Page)
    (hb : (bookOf h a)[i]? = some p) (hj : j ≠ 0) (hp : p.leftEdge j k) : fuseLeftAt J a i j k h = .err .exc h := by
  unfold bookOf at hb
  rw [List.getElem?_map, Option.map_eq_some_iff] at hb
  obtain ⟨g, hg, rfl⟩ := hb
  have hgm := List.mem_of_getElem? hg
  obtain ⟨n, rs, r, h1, h2, hr⟩ := hp
  obtain ⟨t, ht, rfl, rfl⟩ := pageOf_get h1
  obtain ⟨x, hx, rfl⟩ := rowsOf_get h2
  obtain ⟨j, rfl⟩ : ∃ m, j = m + 1 := ⟨j - 1, by omega⟩
  have hjl : j < (h.gtiers g).length := by have := (List.getElem?_eq_some_iff.mp ht).1; omega
  have hf : h.prev x = some .bumper := by
    refine wk.toEditableFor.leftEnd hgm (List.getElem?_eq_getElem hjl) ht hx ?_
    rintro m y rfl hy u hu ⟨i1, i2⟩
    have hy' : (rowsOf h t)[m]? = some (h.start y, h.stop y, h.label y) := by
      unfold rowsOf; rw [List.getElem?_map, hy]; rfl
    rcases hr with q | ⟨r', q, no⟩
    · cases q
    · rw [Nat.add_sub_cancel, hy'] at q; cases q
      exact no _ (mem_above (List.getElem?_eq_getElem hjl) hu) ⟨i1, i2⟩
  unfold fuseLeftAt
  mstep entryAt_ok hg ht hx
  exact C17_left_edge h J x (Or.inl hf)

/-- a place in the plain data -/
theorem place_cases (b : Book) (i j k : Nat) : (∃ p n rs r, b[i]? = some p ∧ p[j]? = some (n, rs) ∧ rs[k]? = some r) ∨
    ∀ p n rs, b[i]? = some p → p[j]? = some (n, rs) → rs[k]? = none := by
  cases hp : b[i]? with
  | none => right; intro p n rs q; cases q
  | some p =>
    cases ht : p[j]? with
    | none => right; intro p' n rs q q'; cases q; rw [ht] at q'; cases q'
    | some t =>
      obtain ⟨n, rs⟩ := t
      cases hr : rs[k]? with
      | none => right; intro p' n' rs' q q'; cases q; rw [ht] at q'; cases q'; exact hr
      | some r => exact Or.inl ⟨p, n, rs, r, rfl, ht, hr⟩

/-- **C94, which of the two.** Let the rows of first tiers touch, and their groups have their marks. An edit of a single interval,
    with ordinary labels, is either possible for the plain data, and then the program does just that (`C90_mild_partial`), or it is not,
    and then the program raises, IndexError if there is no such interval and a plain exception otherwise, and changes nothing.
    `_partial`: as above, and not for labels that are the boundary mark (`C17_hash_violated`). -/
theorem C94_decided_partial (h : Heap) (a : ARef) (wk : WorkableFor R h (h.agroups a)) (d : Draft) (dr : Drafted h (h.agroups a) d)
    (so : Solid d) (e : Touch) (hs : e.sure) :
    (∃ d', (Change.touch e).act d = some d') ∨
    (Change.touch e).act d = none ∧ (e.run a h = .err .exc h ∨ e.run a h = .err .indexError h) := by
  have hbook := dr.book
  rcases place_cases (bookOf h a) e.place.1 e.place.2.1 e.place.2.2 with ⟨p, n, rs, r, h1, h2, h3⟩ | hno
  case inr =>
    right
    refine ⟨?_, Or.inr (C94_index h a e hno)⟩
    have none_of : ∀ (ok : Bool → Bool) (f : Page → Option Page), (∀ p, (bookOf h a)[e.place.1]? = some p → f p = none) →
        d.onPage e.place.1 ok f = none := by
      intro ok f hf
      unfold Draft.onPage
      cases hd : d[e.place.1]? with
      | none => rfl
      | some q =>
        simp only
        rw [hf q.1 (by rw [hbook, List.getElem?_map, hd]; rfl)]
        simp
    have fuse_none : ∀ (J : String → String → String) (j k : Nat) (p : Page), (∀ n rs, p[j]? = some (n, rs) → rs[k]? = none ∨ rs[k + 1]? = none) →
        p.fuse J j k = none := by
      intro J j k p q
      unfold Page.fuse
      cases ht : p[j]? with
      | none => rfl
      | some t =>
        obtain ⟨n, rs⟩ := t
        simp only
        rcases q n rs ht with q | q
        · rw [q]
        · rw [q]; cases rs[k]? <;> rfl
    cases e with
    | fuse J i j k => exact none_of _ _ fun p hp => fuse_none J j k p fun n rs q => Or.inl (hno p n rs hp q)
    | fuseLeft J i j k =>
      refine none_of (fun _ => decide (j ≠ 0)) (Page.fuseLeft J j k) fun p hp => ?_
      cases k with
      | zero => rfl
      | succ k => exact fuse_none J j k p fun n rs q => Or.inr (hno p n rs hp q)
    | relabel lab i j k =>
      refine none_of (fun _ => true) (Page.relabel lab j k) fun p hp => ?_
      unfold Page.relabel
      cases ht : p[j]? with
      | none => rfl
      | some t =>
        obtain ⟨n, rs⟩ := t
        simp only
        rw [show rs[k]? = none from hno p n rs hp ht]
  case inl =>
    obtain ⟨q, hd, rfl⟩ : ∃ q, d[e.place.1]? = some q ∧ q.1 = p := by
      rw [hbook, List.getElem?_map, Option.map_eq_some_iff] at h1
      exact h1
    obtain ⟨p, c⟩ := q
    obtain ⟨hc, hso⟩ := so _ (List.mem_of_getElem? hd)
    simp only at hc hso h1 h2
    subst hc
    obtain ⟨g, hg, rfl⟩ : ∃ g, (h.agroups a)[e.place.1]? = some g ∧ pageOf h g = p := by
      unfold bookOf at h1
      rw [List.getElem?_map, Option.map_eq_some_iff] at h1
      exact h1
    have hgm := List.mem_of_getElem? hg
    -- neighbours under a common interval touch
    have touch : ∀ {j k : Nat} {n rs r r'}, (pageOf h g)[j]? = some (n, rs) → rs[k]? = some r → rs[k + 1]? = some r' →
        (j = 0 ∨ ∃ q ∈ (((pageOf h g)[j - 1]?).map (·.2)).getD [], (q.1 ≤ r.1 ∧ r.2.1 ≤ q.2.1) ∧ q.1 ≤ r'.1 ∧ r'.2.1 ≤ q.2.1) →
        r.2.1 = r'.1 := by
      intro j k n rs r r' q1 q2 q3 q4
      cases j with
      | zero => exact hso n rs q1 k r r' q2 q3
      | succ j =>
        obtain ⟨q, hq, i1, i2⟩ := q4.resolve_left (by simp)
        obtain ⟨t, ht, rfl, rfl⟩ := pageOf_get q1
        obtain ⟨x, hx, rfl⟩ := rowsOf_get q2
        obtain ⟨y, hy, rfl⟩ := rowsOf_get q3
        have hjl : j < (h.gtiers g).length := by have := (List.getElem?_eq_some_iff.mp ht).1; omega
        have hs := List.getElem?_eq_getElem hjl
        have : (pageOf h g)[j + 1 - 1]? = some (h.ct.name (h.tcls (h.gtiers g)[j]), rowsOf h (h.gtiers g)[j]) := by
          unfold pageOf; rw [List.getElem?_map, Nat.add_sub_cancel, hs]; rfl
        rw [this] at hq
        simp only [Option.map_some, Option.getD_some, rowsOf, List.mem_map] at hq
        obtain ⟨u, hu, rfl⟩ := hq
        exact wk.toEditableFor.touching hgm hs ht hx hy hu i1 i2
    cases e with
    | relabel lab i j k =>
      left
      refine ⟨d.set i ((pageOf h g).set j (n, rs.set k (r.1, r.2.1, lab)), true), ?_⟩
      show d.onPage i (fun _ => true) (Page.relabel lab j k) = _
      unfold Draft.onPage Page.relabel
      simp only [Touch.place] at hd h2 h3
      rw [hd]
      simp only
      rw [h2]
      simp only
      rw [h3]
      have hs : lab ≠ "#" := hs
      simp [hs]
    | fuse J i j k =>
      simp only [Touch.place] at hd h1 h2 h3 hg
      cases h4 : rs[k + 1]? with
      | none =>
        right
        refine ⟨?_, Or.inl (C94_right_partial h a wk d dr J i j k _ true hd (fun _ => rfl) ⟨n, rs, r, h2, h3, Or.inl h4⟩)⟩
        show d.onPage i _ _ = _
        unfold Draft.onPage Page.fuse
        rw [hd]
        simp only
        rw [h2]
        simp only
        rw [h3, h4]
        simp
      | some r' =>
        by_cases un : j = 0 ∨ ∃ q ∈ (((pageOf h g)[j - 1]?).map (·.2)).getD [], (q.1 ≤ r.1 ∧ r.2.1 ≤ q.2.1) ∧ q.1 ≤ r'.1 ∧ r'.2.1 ≤ q.2.1
        · left
          refine ⟨d.set i ((pageOf h g).set j (n, rs.take k ++ (r.1, r'.2.1, J r.2.2 r'.2.2) :: rs.drop (k + 2)), true), ?_⟩
          show d.onPage i _ _ = _
          unfold Draft.onPage Page.fuse
          rw [hd]
          simp only
          rw [h2]
          simp only
          rw [h3, h4]
          simp only
          rw [if_pos (by simp), if_pos ⟨touch h2 h3 h4 un, hs _ _, un⟩]
          rfl
        · right
          refine ⟨?_, Or.inl (C94_right_partial h a wk d dr J i j k _ true hd (fun _ => rfl)
            ⟨n, rs, r, h2, h3, Or.inr ⟨r', h4, fun q => un (Or.inl q), fun q hq i => un (Or.inr ⟨q, hq, i⟩)⟩⟩)⟩
          show d.onPage i _ _ = _
          unfold Draft.onPage Page.fuse
          rw [hd]
          simp only
          rw [h2]
          simp only
          rw [h3, h4]
          simp only
          rw [if_pos (by simp), if_neg (fun q => un q.2.2)]
          rfl
    | fuseLeft J i j k =>
      simp only [Touch.place] at hd h1 h2 h3 hg
      obtain ⟨hj, hs⟩ := hs
      cases k with
      | zero =>
        right
        refine ⟨?_, Or.inl (C94_left_partial h a wk J i j 0 _ h1 hj ⟨n, rs, r, h2, h3, Or.inl rfl⟩)⟩
        show d.onPage i (fun _ => decide (j ≠ 0)) (Page.fuseLeft J j 0) = _
        unfold Draft.onPage Page.fuseLeft
        rw [hd]
        simp [hj]
      | succ k =>
        have hk : k < rs.length := by have := (List.getElem?_eq_some_iff.mp h3).1; omega
        have h4 := List.getElem?_eq_getElem hk
        by_cases un : ∃ q ∈ (((pageOf h g)[j - 1]?).map (·.2)).getD [], (q.1 ≤ rs[k].1 ∧ rs[k].2.1 ≤ q.2.1) ∧ q.1 ≤ r.1 ∧ r.2.1 ≤ q.2.1
        · left
          refine ⟨d.set i ((pageOf h g).set j (n, rs.take k ++ (rs[k].1, r.2.1, J rs[k].2.2 r.2.2) :: rs.drop (k + 2)), true), ?_⟩
          show d.onPage i (fun _ => decide (j ≠ 0)) (Page.fuseLeft J j (k + 1)) = _
          unfold Draft.onPage Page.fuseLeft Page.fuse
          rw [hd]
          simp only
          rw [h2]
          simp only
          rw [h3, h4]
          simp only
          rw [if_pos (by simpa using hj), if_pos ⟨touch h2 h4 h3 (Or.inr un), hs _ _, Or.inr un⟩]
          rfl
        · right
          refine ⟨?_, Or.inl (C94_left_partial h a wk J i j (k + 1) _ h1 hj
            ⟨n, rs, r, h2, h3, Or.inr ⟨rs[k], h4, fun q hq i => un ⟨q, hq, i⟩⟩⟩)⟩
          show d.onPage i (fun _ => decide (j ≠ 0)) (Page.fuseLeft J j (k + 1)) = _
          unfold Draft.onPage Page.fuseLeft Page.fuse
          rw [hd]
          simp only
          rw [h2]
          simp only
          rw [h3, h4]
          simp only
          rw [if_pos (by simpa using hj), if_neg (fun q => q.2.2.elim hj un)]
          rfl

/-- the rows of first tiers still touch after an edit -/
theorem Solid.step {d d' : Draft} (so : Solid d) {e : Touch} (hs : e.sure) (he : (Change.touch e).act d = some d') : Solid d' := by
  have key : ∀ (i : Nat) (ok : Bool → Bool) (f : Page → Option Page), (∀ p p', f p = some p' →
      (∀ n rs, p[0]? = some (n, rs) → ∀ (k : Nat) r r', rs[k]? = some r → rs[k + 1]? = some r' → r.2.1 = r'.1) →
      ∀ n rs, p'[0]? = some (n, rs) → ∀ (k : Nat) r r', rs[k]? = some r → rs[k + 1]? = some r' → r.2.1 = r'.1) →
      d.onPage i ok f = some d' → Solid d' := by
    intro i ok f hf e
    unfold Draft.onPage at e
    cases hd : d[i]? with
    | none => rw [hd] at e; cases e
    | some q =>
      rw [hd] at e
      simp only at e
      split at e
      case isFalse => cases e
      obtain ⟨p', h1, rfl⟩ := Option.map_eq_some_iff.mp e
      obtain ⟨c1, c2⟩ := so q (List.mem_of_getElem? hd)
      intro q' hq'
      rcases List.mem_or_eq_of_mem_set hq' with hq' | rfl
      · exact so q' hq'
      · exact ⟨c1, hf _ _ h1 c2⟩
  have fuse : ∀ (J : String → String → String) (j k : Nat) (p p' : Page), p.fuse J j k = some p' →
      (∀ n rs, p[0]? = some (n, rs) → ∀ (k : Nat) r r', rs[k]? = some r → rs[k + 1]? = some r' → r.2.1 = r'.1) →
      ∀ n rs, p'[0]? = some (n, rs) → ∀ (k : Nat) r r', rs[k]? = some r → rs[k + 1]? = some r' → r.2.1 = r'.1 := by
    intro J j k p p' hp ht
    obtain ⟨n, rs, r, r', h1, h2, h3, -, -, -, rfl⟩ := Page.fuse_some hp
    intro n' rs' hn m s s' hs hs'
    rw [List.getElem?_set] at hn
    by_cases q : j = 0
    · subst q
      have hl := (List.getElem?_eq_some_iff.mp h1).1
      rw [if_pos rfl, if_pos hl] at hn
      cases hn
      have hk : (rs.take k).length = k := by
        rw [List.length_take]; have := (List.getElem?_eq_some_iff.mp h2).1; omega
      have old := ht n rs h1
      by_cases m1 : m + 1 < k
      · rw [List.getElem?_append_left (by omega), List.getElem?_take, if_pos (by omega)] at hs hs'
        exact old m s s' hs hs'
      · by_cases m2 : m + 1 = k
        · rw [List.getElem?_append_left (by omega), List.getElem?_take, if_pos (by omega)] at hs
          rw [List.getElem?_append_right (by omega), hk, m2, Nat.sub_self] at hs'
          cases hs'
          exact old m s r hs (by rw [m2]; exact h2)
        · by_cases m3 : m = k
          · subst m3
            rw [List.getElem?_append_right (by omega), hk, Nat.sub_self] at hs
            rw [List.getElem?_append_right (by omega), hk, Nat.add_sub_cancel_left] at hs'
            simp only [List.getElem?_cons_succ, List.getElem?_drop] at hs'
            cases hs
            exact old (m + 1) r' s' h3 hs'
          · obtain ⟨u, rfl⟩ : ∃ u, m = k + 1 + u := ⟨m - k - 1, by omega⟩
            rw [List.getElem?_append_right (by omega), hk, show k + 1 + u - k = u + 1 by omega, List.getElem?_cons_succ,
              List.getElem?_drop] at hs
            rw [List.getElem?_append_right (by omega), hk, show k + 1 + u + 1 - k = u + 1 + 1 by omega, List.getElem?_cons_succ,
              List.getElem?_drop] at hs'
            exact old (k + 2 + u) s s' hs hs'
    · rw [if_neg q] at hn
      exact ht n' rs' hn m s s' hs hs'
  cases e with
  | fuse J i j k => exact key i _ _ (fuse J j k) he
  | fuseLeft J i j k =>
    refine key i (fun _ => decide (j ≠ 0)) (Page.fuseLeft J j k) (fun p p' hp => ?_) he
    cases k with
    | zero => cases hp
    | succ k => exact fuse J j k p p' hp
  | relabel lab i j k =>
    refine key i (fun _ => true) (Page.relabel lab j k) (fun p p' hp ht => ?_) he
    obtain ⟨n, rs, r, h1, h2, -, rfl⟩ := Page.relabel_some hp
    intro n' rs' hn m s s' hs hs'
    rw [List.getElem?_set] at hn
    by_cases q : j = 0
    · subst q
      have hl := (List.getElem?_eq_some_iff.mp h1).1
      rw [if_pos rfl, if_pos hl] at hn
      cases hn
      have row : ∀ {m : Nat} {s : Span3}, (rs.set k (r.1, r.2.1, lab))[m]? = some s → ∃ s0, rs[m]? = some s0 ∧ s0.1 = s.1 ∧ s0.2.1 = s.2.1 := by
        intro m s hm
        rw [List.getElem?_set] at hm
        by_cases q : k = m
        · subst q
          rw [if_pos rfl, if_pos (List.getElem?_eq_some_iff.mp h2).1] at hm
          cases hm
          exact ⟨r, h2, rfl, rfl⟩
        · rw [if_neg q] at hm
          exact ⟨s, hm, rfl, rfl⟩
      obtain ⟨s0, a1, -, a2⟩ := row hs
      obtain ⟨s1, b1, b2, -⟩ := row hs'
      rw [← a2, ← b2]
      exact ht n rs h1 m s0 s1 a1 b1
    · rw [if_neg q] at hn
      exact ht n' rs' hn m s s' hs hs'

/-- **C94, a program that tries.** Any list of edits of single intervals with ordinary labels, possible or not, each as
    `try: ... except Exception: pass`: the textgrid ends up with the plain data after the possible ones, the others left out, and can
    be edited on. `_partial`, as `C94_decided_partial` is. -/
theorem C94_attempts_partial (a : ARef) (es : List Touch) : ∀ (h : Heap) (d : Draft), WorkableFor R h (h.agroups a) →
    Drafted h (h.agroups a) d → Solid d → (∀ e ∈ es, e.sure) →
    ∃ h', Touch.tryAll a es h = .ok () h' ∧ WorkableFor R h' (h'.agroups a) ∧ Drafted h' (h'.agroups a) (Touch.actAll es d) ∧
      bookOf h' a = (Touch.actAll es d).map (·.1) := by
  induction es with
  | nil => exact fun h d wk dr _ _ => ⟨h, rfl, wk, dr, dr.book⟩
  | cons e es ih =>
    intro h d wk dr so hs
    have hse := hs e (by simp)
    have hs' := fun e he => hs e (List.mem_cons_of_mem _ he)
    rcases C94_decided_partial h a wk d dr so e hse with ⟨d', he⟩ | ⟨he, hr⟩
    · obtain ⟨k, e1, wk1, dr1⟩ := wk.mildStep dr (.touch e) he rfl
      obtain ⟨h', e2, wk2, dr2, q⟩ := ih k d' wk1 dr1 (so.step hse he) hs'
      refine ⟨h', ?_, wk2, ?_, ?_⟩
      · unfold Touch.tryAll
        refine Eq.trans (M.bind_ok (a := ()) (h' := k) ?_) e2
        unfold attempt
        rw [show e.run a h = .ok () k from e1]
      · unfold Touch.actAll; rw [he]; exact dr2
      · unfold Touch.actAll; rw [he]; exact q
    · obtain ⟨h', e2, wk2, dr2, q⟩ := ih h d wk dr so hs'
      refine ⟨h', ?_, wk2, ?_, ?_⟩
      · unfold Touch.tryAll
        refine Eq.trans (M.bind_ok (a := ()) (h' := h) ?_) e2
        unfold attempt
        rcases hr with hr | hr <;> rw [hr]
      · unfold Touch.actAll; rw [he]; exact dr2
      · unfold Touch.actAll; rw [he]; exact q

theorem Covering.solid {tss : List (List PTier)} {names : List (List String)} {lo hi : Time} (cov : ∀ ts ∈ tss, Covering ts lo hi) :
    Solid (draftFrom tss names) := by
  intro q hq
  obtain ⟨p, hp, rfl⟩ := List.mem_map.mp hq
  refine ⟨rfl, ?_⟩
  intro n rs h0 k r r' h1 h2
  unfold bookFrom at hp
  obtain ⟨⟨ts, ns⟩, hz, rfl⟩ := List.mem_map.mp hp
  have hm := List.mem_of_getElem? h0
  have hrs := (List.of_mem_zip hm).2
  obtain ⟨t, ht, rfl⟩ := List.mem_map.mp hrs
  have g := (cov ts (List.of_mem_zip hz).1 t ht).1
  exact (gapsOf_nil_iff _).mp g k (r.1, r.2.1) (r'.1, r'.2.1) (by unfold rawSpans; rw [List.getElem?_map, h1]; rfl)
    (by unfold rawSpans; rw [List.getElem?_map, h2]; rfl)

/-- **C94, from the Praat textgrid on.** Let the tiers cover the same time without gaps, each group's tiers aligned, for
    hierarchies of classes, complete or without their lowest classes. `AlignedTextGrid(textgrid, classes)` followed by
    any attempts to fuse or relabel single intervals succeeds, and the textgrid has the data after the attempts that are possible
    for the plain data. `_partial`, as C74 and `C94_attempts_partial` are. -/
theorem C94_import_partial (h : Heap) (tiers : List PTier) (arg : ClassArg) (tss : List (List PTier)) (css : List (List CRef))
    (hr : ReachC h.ct) (td : Tidy h) (ac : Allocated h) (hn : nestify h.ct tiers arg = .ok (tss, css)) (hne : tss ≠ [])
    (hlen : tss.map List.length = css.map List.length) (good : ∀ ts ∈ tss, GoodTiers ts) (tc : TopClasses h.ct css)
    (lo hi : Time) (cov : ∀ ts ∈ tss, Covering ts lo hi) (es : List Touch) (hs : ∀ e ∈ es, e.sure) :
    ∃ h', (do let a ← newAtg tiers arg; Touch.tryAll a es; pure a : M ARef) h = .ok h.nA h' ∧
      bookOf h' h.nA = (Touch.actAll es (draftFrom tss (css.map (List.map h.ct.name)))).map (·.1) ∧
      (∀ g ∈ h'.agroups h.nA, RelatedByContainment h' (h'.gtiers g) ∧ FitGroup h' (h'.gtiers g)) ∧
      Separate h' (h'.agroups h.nA) := by
  obtain ⟨h1, e1, hd, gr, -, -, -, hm, tw, -⟩ := C74_exact_partial h tiers arg tss css hr td ac hn hne hlen good tc lo hi cov
  have dr : Drafted h1 (h1.agroups h.nA) (draftFrom tss (css.map (List.map h.ct.name))) := by
    refine ⟨fun _ => true, ?_, fun g hg _ => (hm g hg).1.strung (hm g hg).2⟩
    unfold draftFrom
    rw [← hd.book]
    unfold bookOf
    rw [List.map_map]
    rfl
  have hh : ∀ g ∈ h1.agroups h.nA, Homed h1 (h1.gtiers g) := fun g hg =>
    (hm g hg).1.homed fun t ht => ((tw.part g hg).mem (List.mem_map.mpr ⟨t, ht, rfl⟩)).2.2.1
  obtain ⟨h', e2, wk, -, q⟩ := C94_attempts_partial (R := RowLinks) h.nA es h1 _
    ⟨gr.editableFor tw.wfc tw.old tw.rows, hh, gr.interval, fun g hg => (gr.groups g hg).gpoint⟩ dr (Covering.solid cov) hs
  refine ⟨h', ?_, q, fun g hg => ⟨wk.rel g hg, wk.fit g hg⟩, wk.sep⟩
  mstep e1
  mstep e2
  rfl

/-! ## Cases that meet the hypotheses -/

/-- of the first speaker: the first phone with the next, which is in another word; "T" with the one before it, in the same word;
    the last word with the next one, which there is not; a tier and a group that do not exist; the first two words; then the first phone with the
    next, which is now in the same word -/
def exTries : List Touch :=
  [.fuse joinSpace 0 1 0, .fuseLeft joinSpace 0 1 2, .fuse joinSpace 0 0 2, .relabel "x" 0 2 0, .fuseLeft joinSpace 5 1 0,
   .fuse joinSpace 0 0 0, .fuse joinSpace 0 1 0]

theorem joinSpace_sure (s t : String) : joinSpace s t ≠ "#" := by
  intro e
  have := congrArg String.toList e
  unfold joinSpace at this
  have hm : ' ' ∈ (s ++ " " ++ t).toList := by simp
  rw [this] at hm
  revert hm
  decide

example : ∃ h', (do let a ← newAtg exPraat (.flat [cWord, cPhone])
                    Touch.tryAll a exTries
                    pure a : M ARef) heap0 = .ok 0 h' ∧
    bookOf h' 0 = [[("Word", [(0, 3, " cat"), (3, 4, "")]), ("Phone", [(0, 3, " K T"), (3, 4, "")])],
                   [("Word", [(0, 2, "hm"), (2, 4, "")]), ("Phone", [(0, 1, "HH"), (1, 2, "M"), (2, 4, "")])]] := by
  obtain ⟨h', e, q, -⟩ := C94_import_partial heap0 exPraat (.flat [cWord, cPhone]) [exPraat.take 2, exPraat.drop 2]
    [[cWord, cPhone], [cWord, cPhone]] .base heap0_tidy heap0_alloc rfl (by simp) (by decide) exPraat_good
    wordPhone_good.topClasses 0 4 exPraat_covering exTries (by
      intro e he
      simp only [exTries, List.mem_cons, List.not_mem_nil, or_false] at he
      rcases he with rfl | rfl | rfl | rfl | rfl | rfl | rfl
      · exact joinSpace_sure
      · exact ⟨by decide, joinSpace_sure⟩
      · exact joinSpace_sure
      · show "x" ≠ "#"; decide
      · exact ⟨by decide, joinSpace_sure⟩
      · exact joinSpace_sure
      · exact joinSpace_sure)
  refine ⟨h', e, q.trans ?_⟩
  decide +kernel

/-- the words and phones of both speakers, read from `exPraat` -/
def exTryGrid : Heap := run0 (newAtg exPraat (.flat [cWord, cPhone]))

/-- the same by running the program: what is refused, and how -/
theorem exTries_run :
    (fuseAt joinSpace 0 0 1 0 exTryGrid).out = .error .exc ∧ (fuseLeftAt joinSpace 0 0 1 2 exTryGrid).out = .ok () ∧
    (fuseAt joinSpace 0 0 0 2 exTryGrid).out = .error .exc ∧ (relabelAt "x" 0 0 2 0 exTryGrid).out = .error .indexError ∧
    (fuseLeftAt joinSpace 0 0 1 0 exTryGrid).out = .error .exc ∧ (fuseAt joinSpace 0 0 0 0 exTryGrid).out = .ok () := by
  decide +kernel

end ATG
