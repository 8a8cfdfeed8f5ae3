import Verif.Spec.Table
import Verif.Props.DataFrame
import Verif.Props.Within
import Verif.Props.BothWays
import Verif.Props.BookGaps
/-!
# C103 Data frames have the data

Whenever `to_df(atg, with_subset=False)` returns a data frame, for a textgrid that was imported and edited, it has one row for each interval of the
edited data, group by group, tier by tier and in order of time, with its place in its tier, its label, times, class and group.
-/
namespace ATG

/-- what holds of each frame holds of the frames together -/
theorem collect_inv {α β : Type} {f : α → Except Err (List Row)} {w : Row → β} {g : α → List β} : ∀ {l : List α} {r : List Row},
    (∀ x ∈ l, ∀ s, f x = .ok s → s.map w = g x) → collect f l = .ok r → r.map w = l.flatMap g
  | [], r, _, h => by cases h; rfl
  | x :: l, r, hf, h => by
    rw [collect] at h
    cases h1 : f x with
    | error e => rw [h1] at h; cases h
    | ok s =>
      cases h2 : collect f l with
      | error e => rw [h1, h2] at h; cases h
      | ok r' =>
        rw [h1, h2] at h
        cases h
        rw [List.map_append, hf x (by simp) s h1, collect_inv (fun y hy => hf y (List.mem_cons_of_mem _ hy)) h2]
        rfl

theorem concat_inv {α β : Type} {f : α → Except Err (List Row)} {w : Row → β} {g : α → List β} {l : List α} {r : List Row}
    (hf : ∀ x ∈ l, ∀ s, f x = .ok s → s.map w = g x) (h : concatRows f l = .ok r) : r.map w = l.flatMap g := by
  unfold concatRows at h
  split at h
  · cases h
  · exact collect_inv hf h

theorem findIdx_nodup {l : List Ref} (nd : l.Nodup) {k : Nat} {x : Ref} (hx : l[k]? = some x) : l.findIdx? (· == x) = some k := by
  obtain ⟨hk, rfl⟩ := List.getElem?_eq_some_iff.mp hx
  rw [List.findIdx?_eq_some_iff_getElem]
  refine ⟨hk, by simp, ?_⟩
  intro j hj
  have := (List.pairwise_iff_getElem.mp nd) j k (by omega) hk hj
  simpa using this

/-- one entry on a tier of intervals that knows it -/
theorem entryRows_flat {h : Heap} {t : TRef} {k : Nat} {x : Ref} {s : List Row} (nd : (h.tseq t).vals.Nodup) (hx : (h.tseq t).vals[k]? = some x)
    (home : h.intier x = some t) (hp : h.isPoint x = false) (e : entryRows h false x = .ok s) :
    s.map withoutId = [[("tier_index", .int k), ("label", .text (h.label x)), ("start", .num (h.start x)), ("end", .num (h.stop x)),
      ("entry_class", .text (h.ct.name (h.cls x)))]] := by
  have hk : tierIndex h x = .ok (some k) := by
    unfold tierIndex
    rw [home]
    simp only [findIdx_nodup nd hx]
  rw [entryRows, if_neg (by simp), entryRowFlat] at e
  unfold attrCells at e
  cases hi : nodeId h (.entry x) with
  | error y => rw [hi] at e; cases e
  | ok i =>
    rw [hi, hk] at e
    simp only [hp, Bool.false_eq_true, if_false] at e
    cases e
    rfl

theorem tierRows_flat {h : Heap} {t : TRef} {s : List Row} (nd : (h.tseq t).vals.Nodup)
    (home : ∀ x ∈ (h.tseq t).vals, h.intier x = some t) (hp : ∀ x ∈ (h.tseq t).vals, h.isPoint x = false)
    (hc : ∀ x ∈ (h.tseq t).vals, h.cls x = h.tcls t) (e : tierRows h false t = .ok s) :
    s.map withoutId = (rowsOf h t).mapIdx fun k r =>
      [("tier_index", .int k), ("label", .text r.2.2), ("start", .num r.1), ("end", .num r.2.1),
        ("entry_class", .text (h.ct.name (h.tcls t)))] := by
  rw [concat_inv (g := fun x => [[("tier_index", .int (((h.tseq t).vals.findIdx? (· == x)).getD 0)), ("label", .text (h.label x)),
    ("start", .num (h.start x)), ("end", .num (h.stop x)), ("entry_class", .text (h.ct.name (h.tcls t)))]]) ?_ e]
  · rw [← List.map_eq_flatMap]
    apply List.ext_getElem?
    intro k
    unfold rowsOf
    rw [List.getElem?_map, List.getElem?_mapIdx, List.getElem?_map]
    cases hx : (h.tseq t).vals[k]? with
    | none => rfl
    | some x => simp only [Option.map_some, findIdx_nodup nd hx, Option.getD_some]
  · intro x hx r er
    obtain ⟨k, hk⟩ := List.mem_iff_getElem?.mp hx
    rw [entryRows_flat nd hk (home x hx) (hp x hx) er, findIdx_nodup nd hk, hc x hx]
    rfl

variable {R : ClassTab → List (List CRef) → Prop}

/-- **C103, for any workable textgrid.** If the data frame without subsets can be made, then apart from the ids its rows are the table of the plain
    data. -/
theorem C103_workable (nm : GRef → String) {h : Heap} {a : ARef} (wk : WorkableFor R h (h.agroups a)) {rows : List Row}
    (e : textgridRows h nm false a = .ok rows) : rows.map withoutId = Book.table ((h.agroups a).map nm) (bookOf h a) := by
  have zip : ∀ l : List GRef, Book.table (l.map nm) (l.map (pageOf h)) = l.flatMap fun g => (pageOf h g).table (nm g) := by
    intro l
    unfold Book.table
    induction l with
    | nil => rfl
    | cons g l ih =>
      rw [List.map_cons, List.map_cons, List.zip_cons_cons, List.flatMap_cons, ih]
      rfl
  unfold textgridRows at e
  unfold bookOf
  rw [zip]
  refine concat_inv ?_ e
  intro g hg s es
  have fit := wk.fit g hg
  have hm := wk.homed g hg
  unfold groupRows at es
  simp only [Bool.and_false, Bool.false_eq_true, if_false] at es
  cases ec : concatRows (tierRows h false) (h.gtiers g) with
  | error y => rw [ec] at es; cases es
  | ok r =>
    rw [ec] at es
    cases es
    have hr := concat_inv (w := withoutId) (fun t ht s es => tierRows_flat ?_ (hm.home t ht) ?_ (fit.cls t ht) es) ec
    · rw [List.map_map]
      have : (withoutId ∘ fun r => r ++ [("name", Cell.text (nm g))]) = fun r => withoutId r ++ [("name", Cell.text (nm g))] := by
        funext r
        unfold withoutId
        simp
      rw [this, show (r.map fun r => withoutId r ++ [("name", Cell.text (nm g))]) =
        (r.map withoutId).map fun r => r ++ [("name", Cell.text (nm g))] by rw [List.map_map]; rfl, hr]
      unfold Page.table pageOf
      rw [List.map_flatMap, List.flatMap_map]
      congr 1
      funext t
      apply List.ext_getElem?
      intro k
      rw [List.getElem?_map, List.getElem?_mapIdx, List.getElem?_mapIdx]
      cases (rowsOf h t)[k]? <;> rfl
    · exact (List.pairwise_flatten.mp fit.once).1 _ (List.mem_map.mpr ⟨t, ht, rfl⟩)
    · intro x hx
      unfold Heap.isPoint
      rw [fit.cls t ht x hx]
      exact wk.interval g hg t ht

/-- what should hold: the frame can be made, and has the data -/
def C103_statement : Prop :=
  ∀ (nm : GRef → String) (h : Heap) (tiers : List PTier) (arg : ClassArg) (es : List Change) (h' : Heap), ReachC h.ct → Tidy h → Allocated h →
    (do let a ← newAtg tiers arg; Change.runAll a es; pure a : M ARef) h = .ok h.nA h' →
    ∃ rows, textgridRows h' nm false h.nA = .ok rows ∧ rows.map withoutId = Book.table ((h'.agroups h.nA).map nm) (bookOf h' h.nA)

/-- **C103, from the Praat textgrid on.** In a textgrid imported and edited as in C99, a data frame that is returned has the edited data.
    `_partial`: it is not shown that no id raises (there are no invariants of the containers), and the tiers are aligned and without gaps. -/
theorem C103_import_partial (nm : GRef → String) (h : Heap) (tiers : List PTier) (arg : ClassArg)
    (tss : List (List PTier)) (css : List (List CRef))
    (hr : ReachC h.ct) (td : Tidy h) (ac : Allocated h) (hn : nestify h.ct tiers arg = .ok (tss, css)) (hne : tss ≠ [])
    (hlen : tss.map List.length = css.map List.length) (good : ∀ ts ∈ tss, GoodTiers ts) (es : List Change)
    (gc : Suits h.ct css es) (lo hi : Time) (cov : ∀ ts ∈ tss, Covering ts lo hi) (q' : Draft × Draft)
    (hd' : Change.actBothAll es (draftFrom tss (css.map (List.map h.ct.name)), draftFrom tss (css.map (List.map h.ct.name))) = some q') :
    ∃ h', (do let a ← newAtg tiers arg; Change.runAll a es; pure a : M ARef) h = .ok h.nA h' ∧
      ∀ rows, textgridRows h' nm false h.nA = .ok rows →
        rows.map withoutId = Book.table ((h'.agroups h.nA).map nm) (q'.1.map (·.1)) ∧
        rows.length = (q'.1.map fun p => (p.1.map fun t => t.2.length).sum).sum := by
  obtain ⟨h', e, z, wk, -⟩ := import_workableBoth h tiers arg tss css hr td ac hn hne hlen good es gc lo hi cov q' hd'
  refine ⟨h', e, fun rows er => ?_⟩
  have t := C103_workable nm wk er
  rw [z.1] at t
  refine ⟨t, ?_⟩
  have l := congrArg List.length t
  rw [List.length_map] at l
  rw [l]
  have hl : (h'.agroups h.nA).length = q'.1.length := by
    have := congrArg List.length z.1
    unfold bookOf at this
    simpa using this
  generalize q'.1 = d at hl
  generalize h'.agroups h.nA = gs at hl
  unfold Book.table
  induction d generalizing gs with
  | nil => rfl
  | cons p d ih =>
    cases gs with
    | nil => cases hl
    | cons g gs =>
      simp only [List.map_cons, List.zip_cons_cons, List.flatMap_cons, List.length_append, List.sum_cons]
      rw [ih gs (by simpa using hl)]
      congr 1
      unfold Page.table
      rw [List.length_flatMap]
      simp

theorem not_part_point {ct : ClassTab} (w : WFC ct) : ∀ (n : Nat) (c : CRef), c ≤ n → c < ct.next →
    ct.isSub c cHierarchyPart = true → ct.isSub c cPoint = false := by
  intro n
  induction n with
  | zero =>
    intro c hc hl h
    have : c = 0 := Nat.le_zero.mp hc
    subst this
    rw [isSub_root _ w.p0]
    rfl
  | succ n ih =>
    intro c hc hl h
    cases hp : ct.parent c with
    | none =>
      rw [isSub_root _ hp] at h ⊢
      have : c = cHierarchyPart := by simpa using h
      subst this
      rfl
    | some p =>
      have hlt := w.down c p hl hp
      rw [isSub_parent w _ hl hp] at h ⊢
      have h3 : c ≠ cHierarchyPart := by
        intro e
        subst e
        have := w.p0
        rw [show (0 : CRef) = cHierarchyPart from rfl, hp] at this
        cases this
      have h4 : c ≠ cPoint := by
        intro e
        subst e
        have := w.p4
        rw [show (4 : CRef) = cPoint from rfl, hp] at this
        cases this
      have h' : ct.isSub p cHierarchyPart = true := by simpa [h3] using h
      rw [ih p (by unfold CRef at *; omega) (Nat.lt_trans hlt hl) h']
      simpa using h4

theorem table_zip (nm : GRef → String) (h : Heap) (l : List GRef) :
    Book.table (l.map nm) (l.map (pageOf h)) = l.flatMap fun g => (pageOf h g).table (nm g) := by
  unfold Book.table
  induction l with
  | nil => rfl
  | cons g l ih =>
    rw [List.map_cons, List.map_cons, List.zip_cons_cons, List.flatMap_cons, ih]
    rfl

/-- **C103, for any textgrid that can be edited**, also where intervals do not know their tiers: if the data frame without subsets can be made, then apart
    from the ids and the places its rows are the table of the plain data. -/
theorem C103_editable (nm : GRef → String) {h : Heap} {a : ARef} (ed : Editable h (h.agroups a)) {rows : List Row}
    (e : textgridRows h nm false a = .ok rows) :
    rows.map withoutPlace = (Book.table ((h.agroups a).map nm) (bookOf h a)).map withoutPlace := by
  unfold textgridRows at e
  unfold bookOf
  rw [table_zip, List.map_flatMap]
  refine concat_inv ?_ e
  intro g hg s es
  have fit := ed.fit g hg
  unfold groupRows at es
  simp only [Bool.and_false, Bool.false_eq_true, if_false] at es
  cases ec : concatRows (tierRows h false) (h.gtiers g) with
  | error y => rw [ec] at es; cases es
  | ok r =>
    rw [ec] at es
    cases es
    have hr := concat_inv (w := withoutPlace) (l := h.gtiers g) (r := r)
      (g := fun t => (rowsOf h t).map fun q => [("label", .text q.2.2), ("start", .num q.1), ("end", .num q.2.1),
        ("entry_class", .text (h.ct.name (h.tcls t)))]) ?_ ec
    · rw [List.map_map]
      have : (withoutPlace ∘ fun r => r ++ [("name", Cell.text (nm g))]) = fun r => withoutPlace r ++ [("name", Cell.text (nm g))] := by
        funext r
        unfold withoutPlace
        simp
      rw [this, show (r.map fun r => withoutPlace r ++ [("name", Cell.text (nm g))]) =
        (r.map withoutPlace).map fun r => r ++ [("name", Cell.text (nm g))] by rw [List.map_map]; rfl, hr]
      unfold Page.table pageOf
      rw [List.map_flatMap, List.map_flatMap, List.flatMap_map]
      congr 1
      funext t
      apply List.ext_getElem?
      intro k
      rw [List.getElem?_map, List.getElem?_map, List.getElem?_map, List.getElem?_mapIdx]
      cases (rowsOf h t)[k]? <;> rfl
    · intro t ht s es
      have np : h.ct.isSub (h.tcls t) cPoint = false := by
        have row := ed.rows.row _ (List.mem_map.mpr ⟨g, hg, rfl⟩)
        have hc : h.tcls t ∈ (h.gtiers g).map h.tcls := List.mem_map.mpr ⟨t, ht, rfl⟩
        exact not_part_point ed.wfc _ _ (Nat.le_refl _) (row.lt _ hc) (row.part _ hc)
      rw [concat_inv (w := withoutPlace) (l := (h.tseq t).vals)
        (g := fun x => [[("label", .text (h.label x)), ("start", .num (h.start x)), ("end", .num (h.stop x)),
          ("entry_class", .text (h.ct.name (h.tcls t)))]]) ?_ es]
      · rw [← List.map_eq_flatMap]
        unfold rowsOf
        rw [List.map_map]
        rfl
      · intro x hx s es
        have hp : h.isPoint x = false := by unfold Heap.isPoint; rw [fit.cls t ht x hx]; exact np
        rw [entryRows, if_neg (by simp), entryRowFlat] at es
        unfold attrCells at es
        cases hi : nodeId h (.entry x) with
        | error y => rw [hi] at es; cases es
        | ok i =>
          rw [hi] at es
          cases hk : tierIndex h x with
          | error y => rw [hk] at es; cases es
          | ok k =>
            rw [hk] at es
            simp only [hp, Bool.false_eq_true, if_false] at es
            cases es
            rw [← fit.cls t ht x hx]
            rfl

/-- **C103, from tiers with gaps or unmatched boundaries.** In a textgrid imported and edited as in `C87_gaps_partial`, a data frame that is returned has
    the edited data with the gaps filled, apart from the ids and the places, which the fillers do not have (`C103_gap_violated`).
    `_partial`: it is not shown that no id raises. -/
theorem C103_gaps_partial (nm : GRef → String) (h : Heap) (tiers : List PTier) (arg : ClassArg) (tss tss' : List (List PTier))
    (css : List (List CRef))
    (hr : ReachC h.ct) (td : Tidy h) (ac : Allocated h) (hn : nestify h.ct tiers arg = .ok (tss, css)) (hne : tss ≠ [])
    (hlen : tss.map List.length = css.map List.length) (ev : EvenClasses h.ct css) (hl : tss'.length = tss.length)
    (rec : ∀ (i : Nat) ts ts', tss[i]? = some ts → tss'[i]? = some ts' → Reconciled ts ts')
    (lo hi : Time) (cov : ∀ ts ∈ tss, Reaches ts lo hi) :
    ∃ tss'', tss''.length = tss'.length ∧
      (∀ (i : Nat) ts ts', tss'[i]? = some ts → tss''[i]? = some ts' → Completed ts ts') ∧
      ∀ (es : List Edit) (b' : Book), Edit.actAll es (bookFrom tss'' (css.map (List.map h.ct.name))) = some b' →
        ∃ h', (do let a ← newAtg tiers arg; Edit.runAll a es; pure a : M ARef) h = .ok h.nA h' ∧
          ∀ rows, textgridRows h' nm false h.nA = .ok rows →
            rows.map withoutPlace = (Book.table ((h'.agroups h.nA).map nm) b').map withoutPlace := by
  obtain ⟨h1, tss'', e1, hd, l, c, gr, -, -, -, oc⟩ := C89_result_partial h tiers arg tss tss' css hr td ac hn hne hlen
    ev.1 hl rec lo hi cov
  refine ⟨tss'', l, c, ?_⟩
  intro es b' hb
  rw [← hd.book] at hb
  obtain ⟨h', e2, ed, q⟩ := C87_history_partial h.nA es h1 b' (gr.editable (oc ev.2)) hb
  refine ⟨h', ?_, fun rows er => ?_⟩
  · mstep e1
    mstep e2
    rfl
  · rw [← q]
    exact C103_editable nm ed er

/-! ## When there is a frame -/

theorem collect_returns {α : Type} {f : α → Except Err (List Row)} : ∀ {l : List α},
    (∃ r, collect f l = .ok r) ↔ ∀ x ∈ l, ∃ s, f x = .ok s
  | [] => ⟨fun _ x hx => absurd hx (by simp), fun _ => ⟨[], rfl⟩⟩
  | x :: l => by
    have ih := collect_returns (f := f) (l := l)
    constructor
    · rintro ⟨r, hr⟩
      rw [collect] at hr
      cases h1 : f x with
      | error e => rw [h1] at hr; cases hr
      | ok s =>
        cases h2 : collect f l with
        | error e => rw [h1, h2] at hr; cases hr
        | ok r' =>
          intro y hy
          rcases List.mem_cons.mp hy with rfl | hy
          · exact ⟨s, h1⟩
          · exact ih.mp ⟨r', h2⟩ y hy
    · intro hall
      obtain ⟨s, h1⟩ := hall x (by simp)
      obtain ⟨r', h2⟩ := ih.mpr fun y hy => hall y (List.mem_cons_of_mem _ hy)
      exact ⟨s ++ r', by rw [collect, h1, h2]⟩

theorem concat_returns {α : Type} {f : α → Except Err (List Row)} {l : List α} :
    (∃ r, concatRows f l = .ok r) ↔ l ≠ [] ∧ ∀ x ∈ l, ∃ s, f x = .ok s := by
  unfold concatRows
  by_cases hl : l = []
  · rw [if_pos hl]
    exact ⟨fun ⟨_, e⟩ => (by cases e), fun e => absurd hl e.1⟩
  · rw [if_neg hl, collect_returns]
    exact ⟨fun e => ⟨hl, e⟩, fun e => e.2⟩

/-- **C103, when there is a frame.** In every textgrid whatever, `to_df(atg, with_subset=False)` returns exactly when there is a group, every group has
    a tier, every tier an entry, and neither `id` nor `tier_index` raises for an entry. -/
theorem C103_returned (nm : GRef → String) (h : Heap) (a : ARef) :
    (∃ rows, textgridRows h nm false a = .ok rows) ↔
      h.agroups a ≠ [] ∧ ∀ g ∈ h.agroups a, h.gtiers g ≠ [] ∧ ∀ t ∈ h.gtiers g, (h.tseq t).vals ≠ [] ∧
        ∀ x ∈ (h.tseq t).vals, (∃ i, nodeId h (.entry x) = .ok i) ∧ ∃ k, tierIndex h x = .ok k := by
  have one : ∀ x, (∃ s, entryRows h false x = .ok s) ↔ (∃ i, nodeId h (.entry x) = .ok i) ∧ ∃ k, tierIndex h x = .ok k := by
    intro x
    rw [entryRows, if_neg (by simp), entryRowFlat]
    unfold attrCells
    cases nodeId h (.entry x) with
    | error e => exact ⟨fun ⟨_, q⟩ => (by cases q), fun ⟨⟨_, q⟩, _⟩ => (by cases q)⟩
    | ok i =>
      cases tierIndex h x with
      | error e => exact ⟨fun ⟨_, q⟩ => (by cases q), fun ⟨_, _, q⟩ => (by cases q)⟩
      | ok k => exact ⟨fun _ => ⟨⟨i, rfl⟩, k, rfl⟩, fun _ => ⟨_, rfl⟩⟩
  have grp : ∀ g, (∃ s, groupRows h nm false g = .ok s) ↔ ∃ s, concatRows (tierRows h false) (h.gtiers g) = .ok s := by
    intro g
    unfold groupRows
    simp only [Bool.and_false, Bool.false_eq_true, if_false]
    cases concatRows (tierRows h false) (h.gtiers g) with
    | error e => exact ⟨fun ⟨_, q⟩ => (by cases q), fun ⟨_, q⟩ => (by cases q)⟩
    | ok r => exact ⟨fun _ => ⟨r, rfl⟩, fun _ => ⟨_, rfl⟩⟩
  unfold textgridRows
  rw [concat_returns]
  refine and_congr_right fun _ => forall_congr' fun g => imp_congr_right fun _ => ?_
  rw [grp, concat_returns]
  refine and_congr_right fun _ => forall_congr' fun t => imp_congr_right fun _ => ?_
  unfold tierRows
  rw [concat_returns]
  exact and_congr_right fun _ => forall_congr' fun x => imp_congr_right fun _ => one x

/-- **C103, when there is a frame, from the Praat textgrid on.** After an import and edits as in C99 there is a frame exactly when the edited data have
    no empty part and no `id` raises; and then it has these data. `_partial`, as `C103_import_partial` is. -/
theorem C103_import_returned_partial (nm : GRef → String) (h : Heap) (tiers : List PTier) (arg : ClassArg)
    (tss : List (List PTier)) (css : List (List CRef))
    (hr : ReachC h.ct) (td : Tidy h) (ac : Allocated h) (hn : nestify h.ct tiers arg = .ok (tss, css)) (hne : tss ≠ [])
    (hlen : tss.map List.length = css.map List.length) (good : ∀ ts ∈ tss, GoodTiers ts) (es : List Change)
    (gc : Suits h.ct css es) (lo hi : Time) (cov : ∀ ts ∈ tss, Covering ts lo hi) (q' : Draft × Draft)
    (hd' : Change.actBothAll es (draftFrom tss (css.map (List.map h.ct.name)), draftFrom tss (css.map (List.map h.ct.name))) = some q') :
    ∃ h', (do let a ← newAtg tiers arg; Change.runAll a es; pure a : M ARef) h = .ok h.nA h' ∧
      ((∃ rows, textgridRows h' nm false h.nA = .ok rows ∧
          rows.map withoutId = Book.table ((h'.agroups h.nA).map nm) (q'.1.map (·.1))) ↔
        (q'.1.map (·.1) ≠ [] ∧ ∀ p ∈ q'.1.map (·.1), p ≠ [] ∧ ∀ t ∈ p, t.2 ≠ []) ∧
        ∀ g ∈ h'.agroups h.nA, ∀ t ∈ h'.gtiers g, ∀ x ∈ (h'.tseq t).vals, ∃ i, nodeId h' (.entry x) = .ok i) := by
  obtain ⟨h', e, z, wk, -⟩ := import_workableBoth h tiers arg tss css hr td ac hn hne hlen good es gc lo hi cov q' hd'
  refine ⟨h', e, ?_⟩
  have place : ∀ g ∈ h'.agroups h.nA, ∀ t ∈ h'.gtiers g, ∀ x ∈ (h'.tseq t).vals, ∃ k, tierIndex h' x = .ok k := by
    intro g hg t ht x hx
    obtain ⟨k, hk⟩ := List.mem_iff_getElem?.mp hx
    have nd := (List.pairwise_flatten.mp (wk.fit g hg).once).1 _ (List.mem_map.mpr ⟨t, ht, rfl⟩)
    refine ⟨some k, ?_⟩
    unfold tierIndex
    rw [(wk.homed g hg).home t ht x hx]
    simp only [findIdx_nodup nd hk]
  rw [← z.1]
  have nonempty : (bookOf h' h.nA ≠ [] ∧ ∀ p ∈ bookOf h' h.nA, p ≠ [] ∧ ∀ t ∈ p, t.2 ≠ []) ↔
      h'.agroups h.nA ≠ [] ∧ ∀ g ∈ h'.agroups h.nA, h'.gtiers g ≠ [] ∧ ∀ t ∈ h'.gtiers g, (h'.tseq t).vals ≠ [] := by
    constructor
    · rintro ⟨b1, b2⟩
      refine ⟨fun q => b1 (by unfold bookOf; rw [q]; rfl), fun g hg => ?_⟩
      obtain ⟨c1, c2⟩ := b2 (pageOf h' g) (List.mem_map.mpr ⟨g, hg, rfl⟩)
      refine ⟨fun q => c1 (by unfold pageOf; rw [q]; rfl), fun t ht q => c2 _ (List.mem_map.mpr ⟨t, ht, rfl⟩) ?_⟩
      show rowsOf h' t = []
      unfold rowsOf
      rw [q]
      rfl
    · rintro ⟨b1, b2⟩
      refine ⟨fun q => b1 (List.map_eq_nil_iff.mp q), fun p hp => ?_⟩
      obtain ⟨g, hg, rfl⟩ := List.mem_map.mp hp
      refine ⟨fun q => (b2 g hg).1 (List.map_eq_nil_iff.mp q), fun u hu q => ?_⟩
      obtain ⟨t, ht, rfl⟩ := List.mem_map.mp hu
      exact (b2 g hg).2 t ht (List.map_eq_nil_iff.mp q)
  rw [nonempty]
  constructor
  · rintro ⟨rows, er, -⟩
    obtain ⟨a1, a2⟩ := (C103_returned nm h' h.nA).mp ⟨rows, er⟩
    exact ⟨⟨a1, fun g hg => ⟨(a2 g hg).1, fun t ht => ((a2 g hg).2 t ht).1⟩⟩,
      fun g hg t ht x hx => (((a2 g hg).2 t ht).2 x hx).1⟩
  · rintro ⟨⟨a1, a2⟩, a3⟩
    obtain ⟨rows, er⟩ := (C103_returned nm h' h.nA).mpr ⟨a1, fun g hg => ⟨(a2 g hg).1, fun t ht => ⟨(a2 g hg).2 t ht,
      fun x hx => ⟨a3 g hg t ht x hx, place g hg t ht x hx⟩⟩⟩⟩
    exact ⟨rows, er, C103_workable nm wk er⟩

/-! ## The ids -/

/-- the id in a row -/
def idCell (r : Row) : Option Cell := (r.find? fun c => c.1 == "id").map (·.2)

/-- **C103, the ids.** In every textgrid whose intervals and points are each on one tier only and all under the textgrid, the ids of the rows of a frame
    are different from each other. -/
theorem C103_ids (nm : GRef → String) {h : Heap} {a : ARef}
    (once : ((h.agroups a).flatMap fun g => (h.gtiers g).flatMap fun t => (h.tseq t).vals).Nodup)
    (under : ∀ g ∈ h.agroups a, ∀ t ∈ h.gtiers g, ∀ x ∈ (h.tseq t).vals, Under h (.textgrid a) (.entry x)) {rows : List Row}
    (e : textgridRows h nm false a = .ok rows) : (rows.map idCell).Nodup := by
  have ids := (C103_returned nm h a).mp ⟨rows, e⟩
  let f : Ref → Option Cell := fun x => some (.text (match nodeId h (.entry x) with | .ok i => i | .error _ => ""))
  have one : ∀ x s, entryRows h false x = .ok s → s.map idCell = [f x] := by
    intro x s es
    rw [entryRows, if_neg (by simp), entryRowFlat] at es
    unfold attrCells at es
    cases hi : nodeId h (.entry x) with
    | error y => rw [hi] at es; cases es
    | ok i =>
      cases hk : tierIndex h x with
      | error y => rw [hi, hk] at es; cases es
      | ok k =>
        rw [hi, hk] at es
        cases es
        show _ = [some (Cell.text (match nodeId h (.entry x) with | .ok i => i | .error _ => ""))]
        rw [hi]
        rfl
  have all : rows.map idCell = (h.agroups a).flatMap fun g => (h.gtiers g).flatMap fun t => (h.tseq t).vals.flatMap fun x => [f x] := by
    unfold textgridRows at e
    refine concat_inv ?_ e
    intro g hg s es
    unfold groupRows at es
    simp only [Bool.and_false, Bool.false_eq_true, if_false] at es
    cases ec : concatRows (tierRows h false) (h.gtiers g) with
    | error y => rw [ec] at es; cases es
    | ok r =>
      rw [ec] at es
      cases es
      -- every row has an id already before the name is appended
      have lone : ∀ x s, entryRows h false x = .ok s → s.map (fun r => idCell (r ++ [("name", Cell.text (nm g))])) = [f x] := by
        intro x s es
        rw [← one x s es]
        apply List.map_congr_left
        intro r _
        unfold idCell
        rw [List.find?_append]
        cases r.find? (fun c => c.1 == "id") <;> rfl
      rw [List.map_map]
      exact concat_inv (w := fun r => idCell (r ++ [("name", Cell.text (nm g))]))
        (fun t _ s es => concat_inv (fun x _ s es => lone x s es) es) ec
  have flat : (rows.map idCell) = ((h.agroups a).flatMap fun g => (h.gtiers g).flatMap fun t => (h.tseq t).vals).map f := by
    rw [all, List.map_flatMap]
    congr 1
    funext g
    rw [List.map_flatMap]
    congr 1
    funext t
    rw [← List.map_eq_flatMap]
  rw [flat]
  refine List.pairwise_map.mpr (once.imp_of_mem ?_)
  intro x y hx hy ne q
  obtain ⟨g, hg, hx⟩ := List.mem_flatMap.mp hx
  obtain ⟨t, ht, hx⟩ := List.mem_flatMap.mp hx
  obtain ⟨g', hg', hy⟩ := List.mem_flatMap.mp hy
  obtain ⟨t', ht', hy⟩ := List.mem_flatMap.mp hy
  obtain ⟨i, hi⟩ := (((ids.2 g hg).2 t ht).2 x hx).1
  obtain ⟨j, hj⟩ := (((ids.2 g' hg').2 t' ht').2 y hy).1
  have q : some (Cell.text (match nodeId h (.entry x) with | .ok i => i | .error _ => "")) =
    some (Cell.text (match nodeId h (.entry y) with | .ok i => i | .error _ => "")) := q
  rw [hi, hj] at q
  cases q
  have := C41_same_partial h (.textgrid a) _ _ (Or.inl rfl) (under g hg t ht x hx) (under g' hg' t' ht' y hy) i hi hj
  cases this
  exact ne rfl

/-! ## Cases that meet the hypotheses -/

/-- two words fused, one relabelled phone -/
def exTableEdits : List Change := [.touch (.fuse (· ++ ·) 0 0 0), .touch (.relabel "t" 0 1 2)]

/-- the words and phones of two speakers after these edits -/
def exTableGrid : Heap := run0 (do let a ← newAtg exPraat (.flat [cWord, cPhone]); Change.runAll a exTableEdits)

/-- the table of these data -/
def exTable : List Row :=
  Book.table ["s0", "s1"]
    [[("Word", [(0, 3, "cat"), (3, 4, "")]), ("Phone", [(0, 1, ""), (1, 2, "K"), (2, 3, "t"), (3, 4, "")])],
     [("Word", [(0, 2, "hm"), (2, 4, "")]), ("Phone", [(0, 1, "HH"), (1, 2, "M"), (2, 4, "")])]]

/-- by running the program: the frame is made -/
theorem exTable_run :
    (match textgridRows exTableGrid (fun g => "s" ++ toString g) false 0 with
      | .ok rows => some (rows.map withoutId)
      | .error _ => none) = some exTable ∧
    (exTable[1]?).map (·.take 3) = some [("tier_index", .int 1), ("label", .text ""), ("start", .num 3)] := by
  decide +kernel

example : ∃ h', (do let a ← newAtg exPraat (.flat [cWord, cPhone])
                    Change.runAll a exTableEdits
                    pure a : M ARef) heap0 = .ok 0 h' ∧
    ∀ rows, textgridRows h' (fun g => "s" ++ toString g) false 0 = .ok rows → rows.length = 11 ∧
      rows.map withoutId = Book.table ((h'.agroups 0).map fun g => "s" ++ toString g)
        [[("Word", [(0, 3, "cat"), (3, 4, "")]), ("Phone", [(0, 1, ""), (1, 2, "K"), (2, 3, "t"), (3, 4, "")])],
         [("Word", [(0, 2, "hm"), (2, 4, "")]), ("Phone", [(0, 1, "HH"), (1, 2, "M"), (2, 4, "")])]] := by
  have acts : (Change.actBothAll exTableEdits (draftFrom [exPraat.take 2, exPraat.drop 2] [["Word", "Phone"], ["Word", "Phone"]],
      draftFrom [exPraat.take 2, exPraat.drop 2] [["Word", "Phone"], ["Word", "Phone"]])).map (fun q => q.1.map (·.1)) = some
        [[("Word", [(0, 3, "cat"), (3, 4, "")]), ("Phone", [(0, 1, ""), (1, 2, "K"), (2, 3, "t"), (3, 4, "")])],
         [("Word", [(0, 2, "hm"), (2, 4, "")]), ("Phone", [(0, 1, "HH"), (1, 2, "M"), (2, 4, "")])]] := by decide +kernel
  obtain ⟨q', e, d⟩ := Option.map_eq_some_iff.mp acts
  obtain ⟨h', e1, z⟩ := C103_import_partial (fun g => "s" ++ toString g) heap0 exPraat (.flat [cWord, cPhone])
    [exPraat.take 2, exPraat.drop 2]
    [[cWord, cPhone], [cWord, cPhone]] .base heap0_tidy heap0_alloc rfl (by simp) (by decide) exPraat_good exTableEdits
    (Suits.of_good wordPhone_good) 0 4 exPraat_covering q' e
  refine ⟨h', e1, fun rows er => ?_⟩
  obtain ⟨t, l⟩ := z rows er
  rw [d] at t
  refine ⟨l.trans ?_, t⟩
  have : (q'.1.map fun p => (p.1.map fun t => t.2.length).sum) = (q'.1.map (·.1)).map fun p => (p.map fun t => t.2.length).sum := by
    rw [List.map_map]; rfl
  rw [this, d]
  decide

-- the frame of the same textgrid is made, and there is none of an empty textgrid
example : (∃ rows, textgridRows exTableGrid (fun g => "s" ++ toString g) false 0 = .ok rows) ∧
    ¬ ∃ rows, textgridRows heap0 (fun g => "s" ++ toString g) false 0 = .ok rows := by
  refine ⟨?_, fun e => ((C103_returned _ _ _).mp e).1 rfl⟩
  have q := exTable_run.1
  cases e : textgridRows exTableGrid (fun g => "s" ++ toString g) false 0 with
  | ok rows => exact ⟨rows, rfl⟩
  | error x => rw [e] at q; cases q

-- after these edits there is a frame exactly when no id raises; none does
example : ∃ h', (do let a ← newAtg exPraat (.flat [cWord, cPhone])
                    Change.runAll a exTableEdits
                    pure a : M ARef) heap0 = .ok 0 h' ∧
    ((∃ rows, textgridRows h' (fun g => "s" ++ toString g) false 0 = .ok rows) ↔
      ∀ g ∈ h'.agroups 0, ∀ t ∈ h'.gtiers g, ∀ x ∈ (h'.tseq t).vals, ∃ i, nodeId h' (.entry x) = .ok i) := by
  have acts : (Change.actBothAll exTableEdits (draftFrom [exPraat.take 2, exPraat.drop 2] [["Word", "Phone"], ["Word", "Phone"]],
      draftFrom [exPraat.take 2, exPraat.drop 2] [["Word", "Phone"], ["Word", "Phone"]])).map (fun q => q.1.map (·.1)) = some
        [[("Word", [(0, 3, "cat"), (3, 4, "")]), ("Phone", [(0, 1, ""), (1, 2, "K"), (2, 3, "t"), (3, 4, "")])],
         [("Word", [(0, 2, "hm"), (2, 4, "")]), ("Phone", [(0, 1, "HH"), (1, 2, "M"), (2, 4, "")])]] := by decide +kernel
  obtain ⟨q', e, d⟩ := Option.map_eq_some_iff.mp acts
  obtain ⟨h', e1, z⟩ := C103_import_returned_partial (fun g => "s" ++ toString g) heap0 exPraat (.flat [cWord, cPhone])
    [exPraat.take 2, exPraat.drop 2]
    [[cWord, cPhone], [cWord, cPhone]] .base heap0_tidy heap0_alloc rfl (by simp) (by decide) exPraat_good exTableEdits
    (Suits.of_good wordPhone_good) 0 4 exPraat_covering q' e
  refine ⟨h', e1, ?_⟩
  rw [d] at z
  constructor
  · rintro ⟨rows, er⟩ g hg t ht x hx
    exact (((((C103_returned _ _ _).mp ⟨rows, er⟩).2 g hg).2 t ht).2 x hx).1
  · intro hid
    obtain ⟨rows, er, -⟩ := z.mpr ⟨by decide, hid⟩
    exact ⟨rows, er⟩

/-- going outwards from `n` leads to `r`, through containers that list what they contain -/
def climbs (h : Heap) (r : Node) : Nat → Node → Bool
  | 0, n => decide (n = r)
  | k + 1, n => decide (n = r) || match h.withinOf n with
    | none => false
    | some m => match h.containsOf m with
      | none => false
      | some l => decide (n ∈ l) && climbs h r k m

theorem climbs_under {h : Heap} {r : Node} : ∀ {k : Nat} {n : Node}, climbs h r k n = true → Under h r n
  | 0, n, e => by
    cases of_decide_eq_true e
    exact ⟨[], .here⟩
  | k + 1, n, e => by
    rw [climbs, Bool.or_eq_true] at e
    rcases e with e | e
    · cases of_decide_eq_true e
      exact ⟨[], .here⟩
    · cases h1 : h.withinOf n with
      | none => rw [h1] at e; cases e
      | some m =>
        cases h2 : h.containsOf m with
        | none => simp [h1, h2] at e
        | some l =>
          simp only [h1, h2, Bool.and_eq_true, decide_eq_true_eq] at e
          obtain ⟨p, hp⟩ := climbs_under e.2
          obtain ⟨i, hi⟩ := List.mem_iff_getElem?.mp e.1
          exact ⟨p ++ [i], hp.down h1 h2 hi⟩

-- words and phones of two speakers, after a fusion: every row has its own id
example : ∃ rows, textgridRows exTableGrid (fun g => "s" ++ toString g) false 0 = .ok rows ∧ rows.length = 11 ∧ (rows.map idCell).Nodup := by
  have q := exTable_run.1
  have on : ∀ g ∈ exTableGrid.agroups 0, ∀ t ∈ exTableGrid.gtiers g, ∀ x ∈ (exTableGrid.tseq t).vals,
      climbs exTableGrid (.textgrid 0) 5 (.entry x) = true := by decide +kernel
  have once : ((exTableGrid.agroups 0).flatMap fun g => (exTableGrid.gtiers g).flatMap fun t => (exTableGrid.tseq t).vals).Nodup := by
    decide +kernel
  have l : exTable.length = 11 := by decide +kernel
  generalize exTableGrid = K at q on once
  cases e : textgridRows K (fun g => "s" ++ toString g) false 0 with
  | ok rows =>
    rw [e] at q
    refine ⟨rows, rfl, ?_, C103_ids _ once (fun g hg t ht x hx => climbs_under (on g hg t ht x hx)) e⟩
    rw [← l, ← Option.some.inj q, List.length_map]
  | error x => rw [e] at q; cases q

-- tiers with a gap
example : ∃ tss'' : List (List PTier), tss''.length = 1 ∧ (∀ ts', tss''[0]? = some ts' → Completed exGapped ts') ∧
    ∀ (es : List Edit) (b' : Book), Edit.actAll es (bookFrom tss'' [["Word", "Phone"]]) = some b' →
      ∃ h', (do let a ← newAtg exGapped (.flat [cWord, cPhone]); Edit.runAll a es; pure a : M ARef) heap0 = .ok 0 h' ∧
        ∀ rows, textgridRows h' (fun _ => "s") false 0 = .ok rows →
          rows.map withoutPlace = (Book.table ((h'.agroups 0).map fun _ => "s") b').map withoutPlace := by
  have gc : GoodClasses heap0.ct [[cWord, cPhone]] :=
    ⟨fun cs hc => by rw [List.mem_singleton.mp hc]; exact wordPhone_hier, by decide +kernel, by decide +kernel⟩
  have good : GoodTiers exGapped := by
    refine ⟨by decide +kernel, by decide +kernel, by decide +kernel, by decide +kernel, ?_⟩
    intro i t u h1 h2
    match i with
    | 0 => cases h1; cases h2; exact ⟨by decide +kernel, by decide +kernel, by decide +kernel, by decide +kernel⟩
  obtain ⟨tss'', l, c, q⟩ := C103_gaps_partial (fun _ => "s") heap0 exGapped (.flat [cWord, cPhone]) [exGapped] [exGapped] [[cWord, cPhone]]
    .base heap0_tidy heap0_alloc rfl (by simp) rfl gc.even rfl (by
      intro i ts ts' h1 h2
      match i with
      | 0 => cases h1; cases h2; exact Or.inl ⟨good, rfl⟩) 1 4 (by
      unfold Reaches
      decide +kernel)
  exact ⟨tss'', l, fun ts' h => c 0 _ ts' rfl h, q⟩

/-! ## Where it fails -/

/-- words and phones with a pause from 2 to 3 -/
def exPause : List PTier := [("w", [(1, 2, "a"), (3, 4, "b")]), ("p", [(1, 2, "b"), (3, 4, "c")])]

/-- **C103 is false for tiers with gaps**: the interval that fills the gap is on the tier, but does not know it, so that its row has neither an
    id nor a place. -/
theorem C103_gap_violated :
    (newAtg exPause (.flat [cWord, cPhone]) heap0).out = .ok 0 ∧
    bookOf (run0 (newAtg exPause (.flat [cWord, cPhone]))) 0 =
      [[("Word", [(1, 2, "a"), (2, 3, ""), (3, 4, "b")]), ("Phone", [(1, 2, "b"), (2, 3, ""), (3, 4, "c")])]] ∧
    (run0 (newAtg exPause (.flat [cWord, cPhone]))).agroups 0 = [0] ∧
    (match textgridRows (run0 (newAtg exPause (.flat [cWord, cPhone]))) (fun _ => "s") false 0 with
      | .ok rows => rows[1]?
      | .error _ => none) =
      some [("id", .text ""), ("tier_index", .null), ("label", .text ""), ("start", .num 2), ("end", .num 3), ("entry_class", .text "Word"),
        ("name", .text "s")] := by
  decide +kernel

/-- the ids are not always different: groups of words alone are not contained in the textgrid, so that the first words of two speakers have the same
    id -/
theorem C103_ids_violated :
    (mkTwoSpeakers heap0).out = .ok 0 ∧
    (match textgridRows exTwoSpeakers (fun g => "s" ++ toString g) false 0 with
      | .ok rows => some (rows.map idCell)
      | .error _ => none) = some [some (.text "0"), some (.text "1"), some (.text "0")] := by
  decide +kernel

theorem C103_statement_violated : ¬ C103_statement := by
  intro st
  obtain ⟨ok, hb, hg, hv⟩ := C103_gap_violated
  have e : newAtg exPause (.flat [cWord, cPhone]) heap0 = .ok 0 (run0 (newAtg exPause (.flat [cWord, cPhone]))) := by
    unfold run0
    generalize newAtg exPause (.flat [cWord, cPhone]) heap0 = r at ok
    cases r with
    | ok a k => cases ok; rfl
    | err x k => cases ok
  have q := st (fun _ => "s") heap0 exPause (.flat [cWord, cPhone]) [] (run0 (newAtg exPause (.flat [cWord, cPhone]))) .base heap0_tidy
    heap0_alloc
  have n : heap0.nA = 0 := rfl
  rw [n] at q
  generalize run0 (newAtg exPause (.flat [cWord, cPhone])) = K at e hb hg hv q
  have run : (do let a ← newAtg exPause (.flat [cWord, cPhone]); Change.runAll a []; pure a : M ARef) heap0 = .ok 0 K := by
    mstep e
    rfl
  obtain ⟨rows, e1, e2⟩ := q run
  rw [e1] at hv
  rw [hb, hg] at e2
  have z := congrArg (fun l => l[1]?) e2
  have hv : rows[1]? = _ := hv
  simp only [List.getElem?_map, hv, Option.map_some] at z
  revert z
  decide +kernel

end ATG
