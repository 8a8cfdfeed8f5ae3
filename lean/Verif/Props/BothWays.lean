import Verif.Lemmas.BothSpans
import Verif.Props.Fuse
import Verif.Props.Refuse
import Verif.Props.Touch
import Verif.Props.Reload
import Verif.Props.Cleanups
/-!
# C99: fusing the intervals of first tiers leftwards

C90 leaves out `fuse_leftwards` on the first tier of a group. It does what it should as long as the intervals of that tier
know the one before them, which they do after import, and which fusing leftwards keeps. Then they may no longer know the next one, so that
they can be fused only leftwards from then on, and only rightwards once two of them have been fused rightwards.
-/
namespace ATG

/-- **C99.** All edits of C90, and `atg[i][0][k].fuse_leftwards(J)`, do to the plain data of a workable textgrid what they should, and leave a workable
    textgrid, if first tiers are fused in one direction only.
    `_partial`, as C90 is, and because fusing in both directions is left out, as it fails (`C90_left_violated`, `C99_right_violated`). -/
theorem C99_step_partial (h : Heap) (a : ARef) (wk : Workable h (h.agroups a)) (q : Draft × Draft) (dr : DraftedBoth h (h.agroups a) q)
    (e : Change) (q' : Draft × Draft) (he : e.actBoth q = some q') :
    ∃ h', e.run a h = .ok () h' ∧ Workable h' (h'.agroups a) ∧ DraftedBoth h' (h'.agroups a) q' :=
  wk.bothStep dr e he

/-- C99, any number of such edits. -/
theorem C99_history_partial (a : ARef) (es : List Change) : ∀ (h : Heap) (q q' : Draft × Draft), Workable h (h.agroups a) →
    DraftedBoth h (h.agroups a) q → Change.actBothAll es q = some q' →
    ∃ h', Change.runAll a es h = .ok () h' ∧ Workable h' (h'.agroups a) ∧ DraftedBoth h' (h'.agroups a) q' ∧
      bookOf h' a = q'.1.map (·.1) ∧ bookOf h' a = q'.2.map (·.1) := by
  induction es with
  | nil =>
    intro h q q' wk dr hd
    cases hd
    exact ⟨h, rfl, wk, dr, dr.1.book, dr.2.book⟩
  | cons e es ih =>
    intro h q q' wk dr hd
    obtain ⟨q1, h1, h2⟩ := Option.bind_eq_some_iff.mp hd
    obtain ⟨k, e1, wk1, dr1⟩ := C99_step_partial h a wk q dr e q1 h1
    obtain ⟨h', e2, z⟩ := ih k q1 q' wk1 dr1 h2
    refine ⟨h', ?_, z⟩
    unfold Change.runAll
    mstep e1
    exact e2

/-- C99, any classes that are linked: the same for fusing, relabelling and shifting. -/
theorem C99_mild_partial {R : ClassTab → List (List CRef) → Prop} [LinkedRows R] (a : ARef) (es : List Change) :
    ∀ (h : Heap) (q q' : Draft × Draft), WorkableFor R h (h.agroups a) →
    DraftedBoth h (h.agroups a) q → Change.actBothAll es q = some q' → (∀ e ∈ es, e.mild = true) →
    ∃ h', Change.runAll a es h = .ok () h' ∧ WorkableFor R h' (h'.agroups a) ∧ DraftedBoth h' (h'.agroups a) q' ∧
      bookOf h' a = q'.1.map (·.1) ∧ bookOf h' a = q'.2.map (·.1) := by
  induction es with
  | nil =>
    intro h q q' wk dr hd _
    cases hd
    exact ⟨h, rfl, wk, dr, dr.1.book, dr.2.book⟩
  | cons e es ih =>
    intro h q q' wk dr hd hm
    obtain ⟨q1, h1, h2⟩ := Option.bind_eq_some_iff.mp hd
    obtain ⟨k, e1, wk1, dr1⟩ := wk.bothStep dr e h1 (hm e (by simp))
    obtain ⟨h', e2, z⟩ := ih k q1 q' wk1 dr1 h2 fun e he => hm e (List.mem_cons_of_mem _ he)
    refine ⟨h', ?_, z⟩
    unfold Change.runAll
    mstep e1
    exact e2

/-- the textgrid made from covering tiers and edited is workable, with both kinds of marks -/
theorem import_workableBoth (h : Heap) (tiers : List PTier) (arg : ClassArg) (tss : List (List PTier)) (css : List (List CRef))
    (hr : ReachC h.ct) (td : Tidy h) (ac : Allocated h) (hn : nestify h.ct tiers arg = .ok (tss, css)) (hne : tss ≠ [])
    (hlen : tss.map List.length = css.map List.length) (good : ∀ ts ∈ tss, GoodTiers ts) (es : List Change)
    (gc : Suits h.ct css es) (lo hi : Time) (cov : ∀ ts ∈ tss, Covering ts lo hi) (q' : Draft × Draft)
    (hd' : Change.actBothAll es (draftFrom tss (css.map (List.map h.ct.name)), draftFrom tss (css.map (List.map h.ct.name))) = some q') :
    ∃ h', (do let a ← newAtg tiers arg; Change.runAll a es; pure a : M ARef) h = .ok h.nA h' ∧
      (bookOf h' h.nA = q'.1.map (·.1) ∧ bookOf h' h.nA = q'.2.map (·.1)) ∧ WorkableFor RowLinks h' (h'.agroups h.nA) ∧
      DraftedBoth h' (h'.agroups h.nA) q' := by
  obtain ⟨h1, e1, hd, gr, -, -, -, hm, tw, oc⟩ := C74_exact_partial h tiers arg tss css hr td ac hn hne hlen good gc.1 lo hi cov
  have book : draftFrom tss (css.map (List.map h.ct.name)) = (h1.agroups h.nA).map fun g => (pageOf h1 g, true) := by
    unfold draftFrom
    rw [← hd.book]
    unfold bookOf
    rw [List.map_map]
    rfl
  have dr : DraftedBoth h1 (h1.agroups h.nA) (draftFrom tss (css.map (List.map h.ct.name)), draftFrom tss (css.map (List.map h.ct.name))) :=
    ⟨⟨fun _ => true, book, fun g hg _ => (hm g hg).1.strung (hm g hg).2⟩, fun _ => true, book, fun g hg _ => (hm g hg).1.back⟩
  have hh : ∀ g ∈ h1.agroups h.nA, Homed h1 (h1.gtiers g) := fun g hg =>
    (hm g hg).1.homed fun t ht => ((tw.part g hg).mem (List.mem_map.mpr ⟨t, ht, rfl⟩)).2.2.1
  obtain ⟨h', e2, z, wk, dr'⟩ : ∃ h', Change.runAll h.nA es h1 = .ok () h' ∧
      (bookOf h' h.nA = q'.1.map (·.1) ∧ bookOf h' h.nA = q'.2.map (·.1)) ∧ WorkableFor RowLinks h' (h'.agroups h.nA) ∧
      DraftedBoth h' (h'.agroups h.nA) q' := by
    rcases gc.2 with gc | mild
    · obtain ⟨h', e2, wk, dr', z⟩ := C99_history_partial h.nA es h1 _ q'
        ⟨gr.editable (oc gc), hh, gr.interval, fun g hg => (gr.groups g hg).gpoint⟩ dr hd'
      exact ⟨h', e2, z, wk.linked, dr'⟩
    · obtain ⟨h', e2, wk, dr', z⟩ := C99_mild_partial (R := RowLinks) h.nA es h1 _ q'
        ⟨gr.editableFor tw.wfc tw.old tw.rows, hh, gr.interval, fun g hg => (gr.groups g hg).gpoint⟩ dr hd' mild
      exact ⟨h', e2, z, wk, dr'⟩
  refine ⟨h', ?_, z, wk, dr'⟩
  mstep e1
  mstep e2
  rfl

/-- **C99, from the Praat textgrid on.** With the hypotheses of `C90_import_partial`, and first tiers with both marks at first:
    `AlignedTextGrid(textgrid, classes)`, followed by any fusing, relabelling, interleaving, popping and shifting, in any order,
    each possible for the plain data, succeeds and has exactly the edited data, and the intervals of each group are then related
    by containment. -/
theorem C99_import_partial (h : Heap) (tiers : List PTier) (arg : ClassArg) (tss : List (List PTier)) (css : List (List CRef))
    (hr : ReachC h.ct) (td : Tidy h) (ac : Allocated h) (hn : nestify h.ct tiers arg = .ok (tss, css)) (hne : tss ≠ [])
    (hlen : tss.map List.length = css.map List.length) (good : ∀ ts ∈ tss, GoodTiers ts) (es : List Change)
    (gc : Suits h.ct css es) (lo hi : Time) (cov : ∀ ts ∈ tss, Covering ts lo hi) (q' : Draft × Draft)
    (hd' : Change.actBothAll es (draftFrom tss (css.map (List.map h.ct.name)), draftFrom tss (css.map (List.map h.ct.name))) = some q') :
    ∃ h', (do let a ← newAtg tiers arg; Change.runAll a es; pure a : M ARef) h = .ok h.nA h' ∧
      bookOf h' h.nA = q'.1.map (·.1) ∧ bookOf h' h.nA = q'.2.map (·.1) ∧
      (∀ g ∈ h'.agroups h.nA, RelatedByContainment h' (h'.gtiers g) ∧ FitGroup h' (h'.gtiers g)) ∧
      Separate h' (h'.agroups h.nA) := by
  obtain ⟨h', e, z, wk, -⟩ := import_workableBoth h tiers arg tss css hr td ac hn hne hlen good es gc lo hi cov q' hd'
  exact ⟨h', e, z.1, z.2, fun g hg => ⟨wk.rel g hg, wk.fit g hg⟩, wk.sep⟩

/-! ## What other properties gain -/

/-- **C94, to the left on first tiers.** If the intervals of a first tier know the one before them, `fuse_leftwards` of the first one raises and changes
    nothing, for any label function. `_partial`: as in C99, the tier must not have been fused rightwards; then it may overlap
    afterwards (`C99_right_violated`). -/
theorem C94_first_partial (h : Heap) (a : ARef) (q : Draft × Draft) (dr : DraftedBoth h (h.agroups a) q) (J : String → String → String) (i : Nat)
    (p : Page) (hb : q.2[i]? = some (p, true)) (n : String) (r : Span3) (rs : List Span3) (hp : p[0]? = some (n, r :: rs)) :
    fuseLeftAt J a i 0 0 h = .err .exc h := by
  obtain ⟨fl, e, hfl⟩ := dr.2
  rw [e, List.getElem?_map, Option.map_eq_some_iff] at hb
  obtain ⟨g, hg, e⟩ := hb
  obtain ⟨rfl, hc⟩ := Prod.mk.inj e
  obtain ⟨t, ht, rfl, e'⟩ := pageOf_get hp
  obtain ⟨x, hx, -⟩ := rowsOf_get (h := h) (t := t) (k := 0) (r := r) (by rw [← e']; rfl)
  have hf : h.prev x = some .bumper := hfl g (List.mem_of_getElem? hg) hc t ht 0 x hx
  unfold fuseLeftAt
  mstep entryAt_ok hg ht hx
  exact C17_left_edge h J x (Or.inl hf)

/-- **C94, which of the two, to the left on first tiers.** Let the rows of a first tier touch, and know the one before them. Fusing one of them leftwards is
    either possible for the plain data, and then the program does just that (`C99_mild_partial`), or it raises, IndexError if there
    is no such interval and a plain exception otherwise, and changes nothing. `_partial` as above, and not for labels that are the
    boundary mark. -/
theorem C94_firstDecided_partial (h : Heap) (a : ARef) (q : Draft × Draft) (dr : DraftedBoth h (h.agroups a) q)
    (J : String → String → String) (hJ : ∀ x y, J x y ≠ "#") (i k : Nat) (p : Page) (hb : q.2[i]? = some (p, true))
    (touching : ∀ n rs, p[0]? = some (n, rs) → ∀ (m : Nat) r r', rs[m]? = some r → rs[m + 1]? = some r' → r.2.1 = r'.1) :
    (∃ q', (Change.touch (.fuseLeft J i 0 k)).actBoth q = some q') ∨
    (Change.touch (.fuseLeft J i 0 k)).actBoth q = none ∧
      (fuseLeftAt J a i 0 k h = .err .exc h ∨ fuseLeftAt J a i 0 k h = .err .indexError h) := by
  have hbook : (bookOf h a)[i]? = some p := by rw [dr.2.book, List.getElem?_map, hb]; rfl
  obtain ⟨c, hd⟩ : ∃ c, q.1[i]? = some (p, c) := by
    rw [dr.1.book, List.getElem?_map, Option.map_eq_some_iff] at hbook
    obtain ⟨⟨p', c⟩, h1, h2⟩ := hbook
    exact ⟨c, by rw [h1, ← h2]⟩
  have none_of : Page.fuseLeft J 0 k p = none → (Change.touch (.fuseLeft J i 0 k)).actBoth q = none := by
    intro e
    show ((q.1.onPage i (fun _ => true) (Page.fuseLeft J 0 k)).bind _) = none
    unfold Draft.onPage
    rw [hd]
    simp only
    rw [e]
    rfl
  have index : (∀ n rs, p[0]? = some (n, rs) → rs[k]? = none) → fuseLeftAt J a i 0 k h = .err .indexError h := by
    intro no
    refine C94_index h a (.fuseLeft J i 0 k) ?_
    intro p' n rs h1 h2
    have h1 : (bookOf h a)[i]? = some p' := h1
    rw [hbook] at h1
    cases h1
    exact no n rs h2
  cases hp : p[0]? with
  | none =>
    right
    refine ⟨none_of ?_, Or.inr (index fun n rs e => by rw [hp] at e; cases e)⟩
    cases k with
    | zero => rfl
    | succ k => show Page.fuse J 0 k p = none; unfold Page.fuse; rw [hp]
  | some u =>
    obtain ⟨n, rs⟩ := u
    cases hk : rs[k]? with
    | none =>
      right
      refine ⟨none_of ?_, Or.inr (index fun n' rs' e => by rw [hp] at e; cases e; exact hk)⟩
      cases k with
      | zero => rfl
      | succ k =>
        show Page.fuse J 0 k p = none
        unfold Page.fuse
        rw [hp]
        simp only
        rw [hk]
        cases rs[k]? <;> rfl
    | some r =>
      cases k with
      | zero =>
        right
        refine ⟨none_of rfl, Or.inl ?_⟩
        cases rs with
        | nil => cases hk
        | cons r' rs => exact C94_first_partial h a q dr J i p hb n r' rs hp
      | succ k =>
        left
        have hkl : k < rs.length := by have := (List.getElem?_eq_some_iff.mp hk).1; omega
        have h4 := List.getElem?_eq_getElem hkl
        have fz : Page.fuseLeft J 0 (k + 1) p =
            some (p.set 0 (n, rs.take k ++ (rs[k].1, r.2.1, J rs[k].2.2 r.2.2) :: rs.drop (k + 2))) := by
          show Page.fuse J 0 k p = _
          unfold Page.fuse
          rw [hp]
          simp only
          rw [hk, h4]
          simp only
          rw [if_pos ⟨touching n rs hp k _ _ h4 hk, hJ _ _, Or.inl trivial⟩]
        have onp : ∀ (d : Draft) (c : Bool) (ok : Bool → Bool), d[i]? = some (p, c) → ok c = true →
            ∃ d', d.onPage i ok (Page.fuseLeft J 0 (k + 1)) = some d' := by
          intro d c ok hd hc
          unfold Draft.onPage
          rw [hd]
          simp only
          rw [if_pos hc, fz]
          exact ⟨_, rfl⟩
        obtain ⟨d', e1⟩ := onp q.1 c (fun _ => true) hd rfl
        obtain ⟨b', e2⟩ := onp q.2 true id hb rfl
        refine ⟨(d'.unmark i, b'), ?_⟩
        show ((q.1.onPage i (fun _ => true) (Page.fuseLeft J 0 (k + 1))).bind fun d' =>
          (q.2.onPage i id (Page.fuseLeft J 0 (k + 1))).map fun b' => (d'.unmark i, b')) = some _
        rw [e1, e2]
        rfl

/-- **C94, from the Praat textgrid on, first tiers.** After an import and edits as in C99, `atg[i][0][0].fuse_leftwards(J)` raises and changes nothing
    where the first tier has not been fused rightwards. -/
theorem C94_leftwards_partial (h : Heap) (tiers : List PTier) (arg : ClassArg) (tss : List (List PTier)) (css : List (List CRef))
    (hr : ReachC h.ct) (td : Tidy h) (ac : Allocated h) (hn : nestify h.ct tiers arg = .ok (tss, css)) (hne : tss ≠ [])
    (hlen : tss.map List.length = css.map List.length) (good : ∀ ts ∈ tss, GoodTiers ts) (es : List Change)
    (gc : Suits h.ct css es) (lo hi : Time) (cov : ∀ ts ∈ tss, Covering ts lo hi) (q' : Draft × Draft)
    (hd' : Change.actBothAll es (draftFrom tss (css.map (List.map h.ct.name)), draftFrom tss (css.map (List.map h.ct.name))) = some q') :
    ∃ h', (do let a ← newAtg tiers arg; Change.runAll a es; pure a : M ARef) h = .ok h.nA h' ∧
      ∀ (J : String → String → String) (i : Nat) p n r rs, q'.2[i]? = some (p, true) → p[0]? = some (n, r :: rs) →
        fuseLeftAt J h.nA i 0 0 h' = .err .exc h' := by
  obtain ⟨h', e, -, -, dr⟩ := import_workableBoth h tiers arg tss css hr td ac hn hne hlen good es gc lo hi cov q' hd'
  exact ⟨h', e, fun J i p n r rs h1 h2 => C94_first_partial h' h.nA q' dr J i p h1 n r rs h2⟩

/-- **C91, with first tiers fused leftwards too.** Import and any edits as in C99. The exported textgrid consists of good tiers again. Read
    in any session with classes of the same names, it has exactly the data of the edited one and both kinds of marks, so that it
    can be edited as in C99, in both directions again.
    `_partial`, as C91 and C99 are. -/
theorem C91_both_partial (h : Heap) (tiers : List PTier) (arg : ClassArg) (tss : List (List PTier)) (css : List (List CRef))
    (hr : ReachC h.ct) (td : Tidy h) (ac : Allocated h) (hn : nestify h.ct tiers arg = .ok (tss, css)) (hne : tss ≠ [])
    (hlen : tss.map List.length = css.map List.length) (good : ∀ ts ∈ tss, GoodTiers ts) (es : List Change)
    (gc : Suits h.ct css es) (lo hi : Time) (cov : ∀ ts ∈ tss, Covering ts lo hi) (q' : Draft × Draft)
    (hd' : Change.actBothAll es (draftFrom tss (css.map (List.map h.ct.name)), draftFrom tss (css.map (List.map h.ct.name))) = some q') :
    ∃ h', (do let a ← newAtg tiers arg; Change.runAll a es; pure a : M ARef) h = .ok h.nA h' ∧ bookOf h' h.nA = q'.1.map (·.1) ∧
      ∀ (k : Heap) (css' : List (List CRef)), ReachC k.ct → Tidy k → Allocated k →
        css'.map (List.map k.ct.name) = (bookOf h' h.nA).map (List.map (·.1)) →
        ∀ (es' : List Change) (q2 : Draft × Draft), Suits k.ct css' es' →
        Change.actBothAll es' (q'.1.map fun q => (q.1, true), q'.1.map fun q => (q.1, true)) = some q2 →
        ∃ k', (do let a ← newAtg (returnTextgrid h' h.nA) (.nested css')
                  Change.runAll a es'
                  pure a : M ARef) k = .ok k.nA k' ∧
          bookOf k' k.nA = q2.1.map (·.1) ∧ bookOf k' k.nA = q2.2.map (·.1) ∧
          (∀ g ∈ k'.agroups k.nA, RelatedByContainment k' (k'.gtiers g) ∧ FitGroup k' (k'.gtiers g)) ∧
          Separate k' (k'.agroups k.nA) := by
  obtain ⟨h', e, z, wk, -⟩ := import_workableBoth h tiers arg tss css hr td ac hn hne hlen good es gc lo hi cov q' hd'
  have hl : tss.length = css.length := by simpa using congrArg List.length hlen
  have hne0 : draftFrom tss (css.map (List.map h.ct.name)) ≠ [] := by
    intro e
    have := congrArg List.length e
    unfold draftFrom bookFrom at this
    simp only [List.length_map, List.length_zip, List.length_nil] at this
    have : tss.length = 0 := by omega
    exact hne (List.length_eq_zero_iff.mp this)
  obtain ⟨⟨lo', hi', s⟩, hneq⟩ := Change.actBothAll_spans es (draftFrom_spans good cov) hne0 hd'
  obtain ⟨tss', e1, hne', e3, good', cov'⟩ := exports_good z.1 wk.fit (fun p hp => by
    obtain ⟨q', hq', rfl⟩ := List.mem_map.mp hp
    exact s q' hq') (by simpa using hneq)
  refine ⟨h', e, z.1, ?_⟩
  intro k css' hr' td' ac' hnm es' q2 gc' hd2
  rw [z.1] at hnm
  rw [e1]
  have hlen' : tss'.map List.length = css'.map List.length := by
    have h1 := congrArg (List.map List.length) e3
    have h2 := congrArg (List.map List.length) hnm
    simp only [List.map_map, Function.comp_def, List.length_map] at h1 h2
    rw [h1, h2]
  have hnc : css' ≠ [] := by
    rintro rfl
    exact hne' (by simpa using hlen')
  refine C99_import_partial k _ _ tss' css' hr' td' ac' (nestify_flatten k.ct tss' css' hlen' hnc) hne' hlen' good' es' gc' lo' hi' cov'
    q2 ?_
  unfold draftFrom
  rw [hnm, bookFrom_rows e3, List.map_map]
  exact hd2

/-- **C96, both directions, edits and cleanups in any order.** With the edits of C99 and any number of cleanups anywhere among them, the textgrid has what
    the edits alone leave of its plain data.
    `_partial`, as `C99_step_partial` is. -/
theorem C96_both_partial (a : ARef) (es : List (Option Change)) : ∀ (h : Heap) (q q' : Draft × Draft) (lo hi : Time),
    Workable h (h.agroups a) → DraftedBoth h (h.agroups a) q → q.1 ≠ [] → q.1.Filled → q.1.Spans lo hi →
    Change.actBothAll (es.filterMap id) q = some q' →
    ∃ h', Change.runMixed a es h = .ok () h' ∧ Workable h' (h'.agroups a) ∧ DraftedBoth h' (h'.agroups a) q' := by
  induction es with
  | nil =>
    intro h q q' lo hi wk dr hne fi s hd
    cases hd
    exact ⟨h, rfl, wk, dr⟩
  | cons o es ih =>
    intro h q q' lo hi wk dr hne fi s hd
    cases o with
    | none =>
      obtain ⟨k, e1, wk1, dr1, -, -, -, bk⟩ := wk.cleaned dr.1 hne fi s
      obtain ⟨h', e, z⟩ := ih k q q' lo hi wk1 ⟨dr1, bk _ dr.2⟩ hne fi s hd
      refine ⟨h', ?_, z⟩
      unfold Change.runMixed
      mstep e1
      exact e
    | some e =>
      obtain ⟨q1, h1, h2⟩ := Option.bind_eq_some_iff.mp
        (show (e.actBoth q).bind (Change.actBothAll (es.filterMap id)) = some q' from hd)
      obtain ⟨k, e1, wk1, dr1⟩ := C99_step_partial h a wk q dr e q1 h1
      obtain ⟨⟨lo1, hi1, s1⟩, hne1⟩ := e.actBoth_spans s hne h1
      obtain ⟨h', e2, z⟩ := ih k q1 q' lo1 hi1 wk1 dr1 hne1 (e.actBoth_filled fi (Drafted.nodup wk dr.1) h1) s1 h2
      refine ⟨h', ?_, z⟩
      unfold Change.runMixed
      mstep e1
      exact e2

/-- **C96, both directions, from the Praat textgrid on.** `AlignedTextGrid(textgrid, classes)`, followed by edits as in C99 and any number of cleanups
    anywhere among them, succeeds and leaves the groups, tiers, times and labels that the edits alone leave.
    `_partial`, as `C99_step_partial` is. -/
theorem C96_bothImport_partial (h : Heap) (tiers : List PTier) (arg : ClassArg) (tss : List (List PTier)) (css : List (List CRef))
    (hr : ReachC h.ct) (td : Tidy h) (ac : Allocated h) (hn : nestify h.ct tiers arg = .ok (tss, css)) (hne : tss ≠ [])
    (hlen : tss.map List.length = css.map List.length) (good : ∀ ts ∈ tss, GoodTiers ts) (es : List (Option Change))
    (gc : TopClasses h.ct css) (al : AlikeClasses css) (lo hi : Time) (cov : ∀ ts ∈ tss, Covering ts lo hi) (q' : Draft × Draft)
    (hd' : Change.actBothAll (es.filterMap id)
      (draftFrom tss (css.map (List.map h.ct.name)), draftFrom tss (css.map (List.map h.ct.name))) = some q') :
    ∃ h', (do let a ← newAtg tiers arg; Change.runMixed a es; pure a : M ARef) h = .ok h.nA h' ∧ bookOf h' h.nA = q'.1.map (·.1) := by
  obtain ⟨h0, e0, -, -, dr⟩ := import_workableBoth h tiers arg tss css hr td ac hn hne hlen good [] ⟨gc, Or.inl al⟩ lo hi cov _ rfl
  obtain ⟨h1, e1, wk, -, hne0⟩ := import_start h tiers arg tss css hr td ac hn hne hlen good gc al lo hi cov
  have e2 : (do let a ← newAtg tiers arg; Change.runAll a []; pure a : M ARef) h = .ok h.nA h1 := by
    mstep e1
    rfl
  rw [e0] at e2
  injection e2 with _ e3
  subst e3
  obtain ⟨h', e4, -, dr'⟩ := C96_both_partial h.nA es h0 _ q' lo hi wk dr hne0 (draftFrom_filled hlen gc) (draftFrom_spans good cov) hd'
  refine ⟨h', ?_, dr'.1.book⟩
  mstep e1
  mstep e4
  rfl

/-! ## A case that meets the hypotheses -/

/-- the last word of the first speaker fused with the one before it, and their phones too; phrases above the words, and the last phrase
    of each speaker fused leftwards, and the last word of the other speaker too; then no more phones -/
def exLeftwards : List Change :=
  [.touch (.fuseLeft (· ++ ·) 0 0 2), .touch (.fuse (· ++ ·) 0 1 2), .edit (.shift 1), .touch (.relabel "all" 0 0 1),
   .edit (.interleave "Phrase" true "Word" true true), .touch (.fuseLeft (· ++ ·) 0 0 1), .touch (.fuseLeft (· ++ ·) 1 0 1),
   .touch (.fuseLeft (· ++ ·) 1 1 1), .edit (.pop "Phone")]

def exLeftwardsDone : List Page :=
  [[("Phrase", [(1, 5, "all")]), ("Word", [(1, 2, ""), (2, 5, "all")])], [("Phrase", [(1, 5, "hm")]), ("Word", [(1, 5, "hm")])]]

example : ∃ h', (do let a ← newAtg exPraat (.flat [cWord, cPhone])
                    Change.runAll a exLeftwards
                    pure a : M ARef) heap0 = .ok 0 h' ∧
    bookOf h' 0 = exLeftwardsDone ∧ ∀ g ∈ h'.agroups 0, RelatedByContainment h' (h'.gtiers g) := by
  obtain ⟨h', e, z, -, r, -⟩ := C99_import_partial heap0 exPraat (.flat [cWord, cPhone]) [exPraat.take 2, exPraat.drop 2]
    [[cWord, cPhone], [cWord, cPhone]] .base heap0_tidy heap0_alloc rfl (by simp) (by decide) exPraat_good
    exLeftwards (Suits.of_good wordPhone_good) 0 4 exPraat_covering
    (exLeftwardsDone.map fun p => (p, false), exLeftwardsDone.map fun p => (p, true)) (by decide +kernel)
  exact ⟨h', e, z.trans (by decide +kernel), fun g hg => (r g hg).1⟩

/-- the same with a cleanup before and after each edit -/
example : ∃ h', (do let a ← newAtg exPraat (.flat [cWord, cPhone])
                    Change.runMixed a (none :: exLeftwards.flatMap fun e => [some e, none])
                    pure a : M ARef) heap0 = .ok 0 h' ∧ bookOf h' 0 = exLeftwardsDone := by
  obtain ⟨h', e, z⟩ := C96_bothImport_partial heap0 exPraat (.flat [cWord, cPhone]) [exPraat.take 2, exPraat.drop 2]
    [[cWord, cPhone], [cWord, cPhone]] .base heap0_tidy heap0_alloc rfl (by simp) (by decide) exPraat_good
    (none :: exLeftwards.flatMap fun e => [some e, none]) wordPhone_good.topClasses wordPhone_good.even.2 0 4 exPraat_covering
    (exLeftwardsDone.map fun p => (p, false), exLeftwardsDone.map fun p => (p, true))
    (show Change.actBothAll exLeftwards _ = _ by decide +kernel)
  exact ⟨h', e, z.trans (by decide +kernel)⟩

/-- in that textgrid, fusing the first phrase of either speaker leftwards is refused -/
example : ∃ h', (do let a ← newAtg exPraat (.flat [cWord, cPhone])
                    Change.runAll a exLeftwards
                    pure a : M ARef) heap0 = .ok 0 h' ∧
    fuseLeftAt joinSpace 0 0 0 0 h' = .err .exc h' ∧ fuseLeftAt joinSpace 0 1 0 0 h' = .err .exc h' := by
  obtain ⟨h', e, z⟩ := C94_leftwards_partial heap0 exPraat (.flat [cWord, cPhone]) [exPraat.take 2, exPraat.drop 2]
    [[cWord, cPhone], [cWord, cPhone]] .base heap0_tidy heap0_alloc rfl (by simp) (by decide) exPraat_good
    exLeftwards (Suits.of_good wordPhone_good) 0 4 exPraat_covering
    (exLeftwardsDone.map fun p => (p, false), exLeftwardsDone.map fun p => (p, true)) (by decide +kernel)
  exact ⟨h', e, z joinSpace 0 _ _ _ _ rfl rfl, z joinSpace 1 _ _ _ _ rfl rfl⟩

/-- and `C94_firstDecided_partial` applies to both first tiers, at any place -/
example (k : Nat) : ∃ h', (do let a ← newAtg exPraat (.flat [cWord, cPhone])
                              Change.runAll a exLeftwards
                              pure a : M ARef) heap0 = .ok 0 h' ∧
    ∀ i < 2, (fuseLeftAt joinSpace 0 i 0 k h').heap = h' ∨ ∃ q q', DraftedBoth h' (h'.agroups 0) q ∧
      (Change.touch (.fuseLeft joinSpace i 0 k)).actBoth q = some q' := by
  obtain ⟨h', e, -, -, dr⟩ := import_workableBoth heap0 exPraat (.flat [cWord, cPhone]) [exPraat.take 2, exPraat.drop 2]
    [[cWord, cPhone], [cWord, cPhone]] .base heap0_tidy heap0_alloc rfl (by simp) (by decide) exPraat_good
    exLeftwards (Suits.of_good wordPhone_good) 0 4 exPraat_covering
    (exLeftwardsDone.map fun p => (p, false), exLeftwardsDone.map fun p => (p, true)) (by decide +kernel)
  refine ⟨h', e, ?_⟩
  have hJ : ∀ x y, joinSpace x y ≠ "#" := joinSpace_ne
  have key : ∀ i p, (exLeftwardsDone.map fun p => (p, true))[i]? = some (p, true) → (∀ n rs, p[0]? = some (n, rs) → rs.length = 1) →
      (fuseLeftAt joinSpace 0 i 0 k h').heap = h' ∨ ∃ q q', DraftedBoth h' (h'.agroups 0) q ∧
        (Change.touch (.fuseLeft joinSpace i 0 k)).actBoth q = some q' := by
    intro i p hi hl
    rcases C94_firstDecided_partial h' 0 _ dr joinSpace hJ i k p hi (by
      intro n rs hn m r r' h1 h2
      have := (List.getElem?_eq_some_iff.mp h2).1
      rw [hl n rs hn] at this
      omega) with ⟨q', hq⟩ | ⟨-, hq | hq⟩
    · exact Or.inr ⟨_, q', dr, hq⟩
    · left; rw [hq]; rfl
    · left; rw [hq]; rfl
  intro i hi
  match i, hi with
  | 0, _ => exact key 0 _ rfl (by intro n rs e; cases e; rfl)
  | 1, _ => exact key 1 _ rfl (by intro n rs e; cases e; rfl)

/-- The textgrid with the last word of the first speaker fused leftwards, whose first word cannot be fused rightwards, is exported and read again: now it
    can. -/
example : ∃ h', (do let a ← newAtg exPraat (.flat [cWord, cPhone])
                    Change.runAll a [.touch (.fuseLeft (· ++ ·) 0 0 2)]
                    pure a : M ARef) heap0 = .ok 0 h' ∧
    ∃ k', (do let a ← newAtg (returnTextgrid h' 0) (.nested [[cWord, cPhone], [cWord, cPhone]])
              Change.runAll a [.touch (.fuse (· ++ ·) 0 0 0)]
              pure a : M ARef) heap0 = .ok 0 k' ∧
      ((bookOf k' 0)[0]?.bind (·[0]?)) = some ("Word", [(0, 4, "cat")]) := by
  obtain ⟨h', e, b, z⟩ := C91_both_partial heap0 exPraat (.flat [cWord, cPhone]) [exPraat.take 2, exPraat.drop 2]
    [[cWord, cPhone], [cWord, cPhone]] .base heap0_tidy heap0_alloc rfl (by simp) (by decide) exPraat_good
    [.touch (.fuseLeft (· ++ ·) 0 0 2)] (Suits.of_good wordPhone_good) 0 4 exPraat_covering
    ([([("Word", [(0, 1, ""), (1, 4, "cat")]), ("Phone", [(0, 1, ""), (1, 2, "K"), (2, 3, "T"), (3, 4, "")])], false),
      ([("Word", [(0, 2, "hm"), (2, 4, "")]), ("Phone", [(0, 1, "HH"), (1, 2, "M"), (2, 4, "")])], true)],
     [([("Word", [(0, 1, ""), (1, 4, "cat")]), ("Phone", [(0, 1, ""), (1, 2, "K"), (2, 3, "T"), (3, 4, "")])], true),
      ([("Word", [(0, 2, "hm"), (2, 4, "")]), ("Phone", [(0, 1, "HH"), (1, 2, "M"), (2, 4, "")])], true)]) (by decide +kernel)
  refine ⟨h', e, ?_⟩
  obtain ⟨k', e', b', -⟩ := z heap0 [[cWord, cPhone], [cWord, cPhone]] .base heap0_tidy heap0_alloc (by rw [b]; decide +kernel)
    [.touch (.fuse (· ++ ·) 0 0 0)]
    ([([("Word", [(0, 4, "cat")]), ("Phone", [(0, 1, ""), (1, 2, "K"), (2, 3, "T"), (3, 4, "")])], true),
        ([("Word", [(0, 2, "hm"), (2, 4, "")]), ("Phone", [(0, 1, "HH"), (1, 2, "M"), (2, 4, "")])], true)],
       [([("Word", [(0, 4, "cat")]), ("Phone", [(0, 1, ""), (1, 2, "K"), (2, 3, "T"), (3, 4, "")])], false),
        ([("Word", [(0, 2, "hm"), (2, 4, "")]), ("Phone", [(0, 1, "HH"), (1, 2, "M"), (2, 4, "")])], true)])
    (Suits.of_good wordPhone_good) (by decide +kernel)
  exact ⟨k', e', by rw [show bookOf k' 0 = _ from b']; decide +kernel⟩

/-- a first tier fused leftwards cannot be fused rightwards afterwards, and the other way round -/
example :
    Change.actBothAll [.touch (.fuseLeft (· ++ ·) 0 0 2), .touch (.fuse (· ++ ·) 0 0 0)]
      (draftFrom [exPraat.take 2, exPraat.drop 2] [["Word", "Phone"], ["Word", "Phone"]],
        draftFrom [exPraat.take 2, exPraat.drop 2] [["Word", "Phone"], ["Word", "Phone"]]) = none ∧
    Change.actBothAll [.touch (.fuse (· ++ ·) 0 0 0), .touch (.fuseLeft (· ++ ·) 0 0 1)]
      (draftFrom [exPraat.take 2, exPraat.drop 2] [["Word", "Phone"], ["Word", "Phone"]],
        draftFrom [exPraat.take 2, exPraat.drop 2] [["Word", "Phone"], ["Word", "Phone"]]) = none := by
  decide +kernel

/-- **C99 in both directions is false.** The first word fused rightwards with "cat" is right by itself. But the last word still has the dropped word as
    its previous one, so that fusing it leftwards afterwards raises, and leaves two words that overlap. The reverse order is
    `C90_left_violated`. -/
theorem C99_right_violated :
    bookOf ((do let a ← newAtg exPraat (.flat [cWord, cPhone])
                fuseAt (· ++ ·) a 0 0 0 : M Unit) heap0).heap 0 =
      [[("Word", [(0, 3, "cat"), (3, 4, "")]), ("Phone", [(0, 1, ""), (1, 2, "K"), (2, 3, "T"), (3, 4, "")])],
       [("Word", [(0, 2, "hm"), (2, 4, "")]), ("Phone", [(0, 1, "HH"), (1, 2, "M"), (2, 4, "")])]] ∧
    ((do let a ← newAtg exPraat (.flat [cWord, cPhone])
         fuseAt (· ++ ·) a 0 0 0
         fuseLeftAt (· ++ ·) a 0 0 1 : M Unit) heap0).out = .error .exc ∧
    bookOf ((do let a ← newAtg exPraat (.flat [cWord, cPhone])
                fuseAt (· ++ ·) a 0 0 0
                fuseLeftAt (· ++ ·) a 0 0 1 : M Unit) heap0).heap 0 =
      [[("Word", [(0, 3, "cat"), (1, 4, "cat")]), ("Phone", [(0, 1, ""), (1, 2, "K"), (2, 3, "T"), (3, 4, "")])],
       [("Word", [(0, 2, "hm"), (2, 4, "")]), ("Phone", [(0, 1, "HH"), (1, 2, "M"), (2, 4, "")])]] := by
  decide +kernel

end ATG
