import Verif.Props.Structure
import Verif.Lemmas.Portrait
import Verif.Props.Points
import Verif.Props.BookGaps
/-!
# C101: what intervals, groups and textgrids show of themselves

`repr(interval)` shows the class and its neighbours, the label, the label of the superset interval and the labels of the subset list. In a textgrid
that was imported and edited it agrees with the plain data: the superset is the interval of the tier above which contains this one, and the subset list
are the intervals of the tier below within it. `repr` of groups and textgrids shows numbers and names of the present tiers.
-/
namespace ATG

/-- **C101, for every tidy heap**: the text of an interval shows the label of its superset, if it has one, and says otherwise that there is none. -/
theorem C101_tidy (rq : String → String) (h : Heap) (td : Tidy h) (x : Ref) (p : CRef) (hp : h.ct.sup (h.cls x) = some p) :
    ∃ rest, intervalRepr rq h x = "Class " ++ h.ct.name (h.cls x) ++ ", label: " ++ h.label x ++ ", .superset_class: " ++ h.ct.name p ++
      (match h.sup x with
        | none => ", .super_instance, None"
        | some u => ", .super_instance: " ++ h.label u) ++ rest := by
  refine ⟨match h.ct.sub (h.cls x) with
    | some q => ", .subset_class: " ++ h.ct.name q ++
      (if (h.subs x).vals = [] then "" else ", .subset_list: " ++ pyList ((subLabels h x).map rq))
    | none => ", .subset_class: None", ?_⟩
  have e : superPart h x = (match h.sup x with
      | none => ", .super_instance, None"
      | some u => ", .super_instance: " ++ h.label u) := by
    unfold superPart
    cases hs : h.sup x with
    | none => rfl
    | some u =>
      have hm := (td.agree u x).mpr hs
      simp only
      rw [if_neg (by intro q; rw [q] at hm; cases hm)]
  unfold intervalRepr
  rw [hp]
  simp only
  rw [e]
  simp only [String.append_assoc]
  rfl

/-- **C101, for any textgrid that can be edited**: each interval shows what the plain data of its group says of it. -/
theorem C101_editable (rq : String → String) {R : ClassTab → List (List CRef) → Prop} [LinkedRows R] {h : Heap} {a : ARef}
    (ed : EditableFor R h (h.agroups a)) (i : Nat) (g : GRef) (pg : Page) (hg : (h.agroups a)[i]? = some g)
    (hpg : (bookOf h a)[i]? = some pg) (ne : pg ≠ []) :
    ∃ p q, Descent h.ct p ((h.gtiers g).map h.tcls) q ∧
      ∀ (j k : Nat) t x, (h.gtiers g)[j]? = some t → (h.tseq t).vals[k]? = some x →
        ∃ r, (pg.rows j)[k]? = some r ∧ intervalRepr rq h x = pg.portrait rq (h.ct.name p) (h.ct.name q) j r := by
  have gm := List.mem_of_getElem? hg
  have page : pageOf h g = pg := by
    unfold bookOf at hpg
    rw [List.getElem?_map, hg] at hpg
    exact Option.some.inj hpg
  have l : ClassLinks h.ct ((h.gtiers g).map h.tcls) := LinkedRows.links ed.rows _ (List.mem_map.mpr ⟨g, gm, rfl⟩)
  obtain ⟨p, q, de⟩ := l.descent (by
    intro e
    refine ne ?_
    rw [← page]
    unfold pageOf
    rw [List.map_eq_nil_iff.mp e]
    rfl)
  refine ⟨p, q, de, ?_⟩
  intro j k t x ht hx
  refine ⟨(h.start x, h.stop x, h.label x), ?_, ?_⟩
  · rw [← page]
    unfold Page.rows pageOf rowsOf
    rw [List.getElem?_map, ht]
    show ((h.tseq t).vals.map _)[k]? = _
    rw [List.getElem?_map, hx]
    rfl
  · rw [← page]
    exact intervalRepr_portrait rq ed gm l.distinct de ht (List.mem_of_getElem? hx)

/-- **C101, for any workable textgrid**, as imports and edits leave them: each interval shows what the plain data of its group says of it, its group
    shows the number and the classes of its tiers, and the textgrid those of all its groups. -/
theorem C101_workable (rq : String → String) (nm : GRef → String) {h : Heap} {a : ARef} (wk : WorkableFor RowLinks h (h.agroups a)) :
    (∀ (i : Nat) g pg, (h.agroups a)[i]? = some g → (bookOf h a)[i]? = some pg →
      groupRepr rq h g = "TierGroup with " ++ toString pg.length ++ " tiers. " ++ pyList (pg.map fun t => rq t.1) ∧
      (pg ≠ [] → ∃ p q, Descent h.ct p ((h.gtiers g).map h.tcls) q ∧
        ∀ (j k : Nat) t x, (h.gtiers g)[j]? = some t → (h.tseq t).vals[k]? = some x →
          ∃ r, (pg.rows j)[k]? = some r ∧ intervalRepr rq h x = pg.portrait rq (h.ct.name p) (h.ct.name q) j r)) ∧
    atgRepr rq nm h a = "AlignedTextGrid with " ++ toString (bookOf h a).length ++ " groups named " ++
      pyList ((h.agroups a).map fun g => rq (nm g)) ++ " each with " ++ pyList ((bookOf h a).map fun pg => toString pg.length) ++ " tiers. " ++
      pyList ((bookOf h a).map fun pg => pyList (pg.map fun t => rq t.1)) := by
  have classes : ∀ g, (pageOf h g).map (fun t => rq t.1) = (h.gtiers g).map fun t => rq (h.ct.name (h.tcls t)) := by
    intro g
    unfold pageOf
    rw [List.map_map]
    rfl
  have len : ∀ g, (pageOf h g).length = (h.gtiers g).length := by
    intro g
    unfold pageOf
    rw [List.length_map]
  refine ⟨?_, ?_⟩
  · intro i g pg hg hpg
    have gm := List.mem_of_getElem? hg
    have page : pageOf h g = pg := by
      unfold bookOf at hpg
      rw [List.getElem?_map, hg] at hpg
      exact Option.some.inj hpg
    refine ⟨?_, ?_⟩
    · unfold groupRepr
      rw [wk.gpoint g gm, ← page, classes, len]
      rfl
    · exact C101_editable rq wk.toEditableFor i g pg hg hpg
  · unfold atgRepr bookOf
    rw [List.length_map, List.map_map, List.map_map]
    simp only [Function.comp_def, classes, len]

/-- what should hold, for imports of any tiers and any edits that succeed; it is false (`C101_statement_violated`) -/
def C101_statement : Prop :=
  ∀ (rq : String → String) (h : Heap) (tiers : List PTier) (arg : ClassArg) (es : List Change) (h' : Heap), ReachC h.ct → Tidy h → Allocated h →
    (do let a ← newAtg tiers arg; Change.runAll a es; pure a : M ARef) h = .ok h.nA h' →
    ∀ g ∈ h'.agroups h.nA, h'.gpoint g = false → h'.gtiers g ≠ [] → ∃ p q, Descent h'.ct p ((h'.gtiers g).map h'.tcls) q ∧
      ∀ (j : Nat) t x, (h'.gtiers g)[j]? = some t → x ∈ (h'.tseq t).vals →
        intervalRepr rq h' x = (pageOf h' g).portrait rq (h'.ct.name p) (h'.ct.name q) j (h'.start x, h'.stop x, h'.label x)

/-- **C101, from the Praat textgrid on.** In a textgrid imported and edited as in C99, each interval shows what the edited data says of it, and
    groups and the textgrid show the numbers and classes of their tiers.
    `_partial`: tiers that are aligned and without gaps, and the edits of C99; for others see `C101_gaps_partial`. -/
theorem C101_import_partial (rq : String → String) (nm : GRef → String) (h : Heap) (tiers : List PTier) (arg : ClassArg)
    (tss : List (List PTier)) (css : List (List CRef))
    (hr : ReachC h.ct) (td : Tidy h) (ac : Allocated h) (hn : nestify h.ct tiers arg = .ok (tss, css)) (hne : tss ≠ [])
    (hlen : tss.map List.length = css.map List.length) (good : ∀ ts ∈ tss, GoodTiers ts) (es : List Change)
    (gc : Suits h.ct css es) (lo hi : Time) (cov : ∀ ts ∈ tss, Covering ts lo hi) (d' : Draft × Draft)
    (hd' : Change.actBothAll es (draftFrom tss (css.map (List.map h.ct.name)), draftFrom tss (css.map (List.map h.ct.name))) = some d') :
    ∃ h', (do let a ← newAtg tiers arg; Change.runAll a es; pure a : M ARef) h = .ok h.nA h' ∧
      (∀ (i : Nat) g pg, (h'.agroups h.nA)[i]? = some g → d'.1[i]? = some pg →
        groupRepr rq h' g = "TierGroup with " ++ toString pg.1.length ++ " tiers. " ++ pyList (pg.1.map fun t => rq t.1) ∧
        (pg.1 ≠ [] → ∃ p q, Descent h'.ct p ((h'.gtiers g).map h'.tcls) q ∧
          ∀ (j k : Nat) t x, (h'.gtiers g)[j]? = some t → (h'.tseq t).vals[k]? = some x →
            ∃ r, (pg.1.rows j)[k]? = some r ∧ intervalRepr rq h' x = pg.1.portrait rq (h'.ct.name p) (h'.ct.name q) j r)) ∧
      atgRepr rq nm h' h.nA = "AlignedTextGrid with " ++ toString d'.1.length ++ " groups named " ++
        pyList ((h'.agroups h.nA).map fun g => rq (nm g)) ++ " each with " ++ pyList (d'.1.map fun pg => toString pg.1.length) ++ " tiers. " ++
        pyList (d'.1.map fun pg => pyList (pg.1.map fun t => rq t.1)) := by
  obtain ⟨h', e, bk, wk, -⟩ := import_workableBoth h tiers arg tss css hr td ac hn hne hlen good es gc lo hi cov d' hd'
  obtain ⟨z1, z2⟩ := C101_workable rq nm wk
  refine ⟨h', e, ?_, ?_⟩
  · intro i g pg hg hpg
    exact z1 i g pg.1 hg (by rw [bk.1, List.getElem?_map, hpg]; rfl)
  · rw [z2, bk.1, List.length_map, List.map_map, List.map_map]
    rfl

/-- **C101, from tiers with gaps or unmatched boundaries.** Import and edits as in `C87_gaps_partial`: each interval, those that fill gaps
    among them, shows what the edited data says of it.
    `_partial`, as C87 is. -/
theorem C101_gaps_partial (rq : String → String) (h : Heap) (tiers : List PTier) (arg : ClassArg) (tss tss' : List (List PTier))
    (css : List (List CRef))
    (hr : ReachC h.ct) (td : Tidy h) (ac : Allocated h) (hn : nestify h.ct tiers arg = .ok (tss, css)) (hne : tss ≠ [])
    (hlen : tss.map List.length = css.map List.length) (ev : EvenClasses h.ct css) (hl : tss'.length = tss.length)
    (rec : ∀ (i : Nat) ts ts', tss[i]? = some ts → tss'[i]? = some ts' → Reconciled ts ts')
    (lo hi : Time) (cov : ∀ ts ∈ tss, Reaches ts lo hi) :
    ∃ tss'', tss''.length = tss'.length ∧
      (∀ (i : Nat) ts ts', tss'[i]? = some ts → tss''[i]? = some ts' → Completed ts ts') ∧
      ∀ (es : List Edit) (b' : Book), Edit.actAll es (bookFrom tss'' (css.map (List.map h.ct.name))) = some b' →
        ∃ h', (do let a ← newAtg tiers arg; Edit.runAll a es; pure a : M ARef) h = .ok h.nA h' ∧ bookOf h' h.nA = b' ∧
          ∀ (i : Nat) g pg, (h'.agroups h.nA)[i]? = some g → b'[i]? = some pg → pg ≠ [] →
            ∃ p q, Descent h'.ct p ((h'.gtiers g).map h'.tcls) q ∧
              ∀ (j k : Nat) t x, (h'.gtiers g)[j]? = some t → (h'.tseq t).vals[k]? = some x →
                ∃ r, (pg.rows j)[k]? = some r ∧ intervalRepr rq h' x = pg.portrait rq (h'.ct.name p) (h'.ct.name q) j r := by
  obtain ⟨h1, tss'', e1, hd, l, c, gr, -, -, -, oc⟩ := C89_result_partial h tiers arg tss tss' css hr td ac hn hne hlen
    ev.1 hl rec lo hi cov
  refine ⟨tss'', l, c, ?_⟩
  intro es b' hb
  rw [← hd.book] at hb
  obtain ⟨h', e2, ed, q⟩ := C87_history_partial h.nA es h1 b' (gr.editable (oc ev.2)) hb
  refine ⟨h', ?_, q, ?_⟩
  · mstep e1
    mstep e2
    rfl
  · intro i g pg hg hpg ne
    exact C101_editable rq ed i g pg hg (by rw [q]; exact hpg) ne

/-- **C101, points.** The point at position `k` of its tier shows its class, its label and `k`. A point without a tier, or whose tier has lost all its
    points, shows no index; one that is missing in its tier among others raises `ValueError`. -/
theorem C101_point (h : Heap) (x : Ref) :
    (∀ t (k : Nat), h.intier x = some t → (h.tseq t).vals.Nodup → (h.tseq t).vals[k]? = some x →
      pointRepr h x = .ok ("Class " ++ h.ct.name (h.cls x) ++ ", label: " ++ h.label x ++ ";" ++ " tier_index: " ++ toString k)) ∧
    ((∀ t, h.intier x = some t → (h.tseq t).vals = []) →
      pointRepr h x = .ok ("Class " ++ h.ct.name (h.cls x) ++ ", label: " ++ h.label x ++ ";")) ∧
    (∀ t, h.intier x = some t → (h.tseq t).vals ≠ [] → x ∉ (h.tseq t).vals → pointRepr h x = .error .valueError) := by
  refine ⟨?_, ?_, ?_⟩
  · intro t k hi nd hk
    have e := (C49_position h t k x nd hi hk).1
    unfold pointRepr
    rw [hi]
    dsimp only
    rw [if_neg (by intro q; rw [q] at hk; cases hk), e]
    rfl
  · intro hn
    unfold pointRepr
    cases hi : h.intier x with
    | none => rfl
    | some t =>
      dsimp only
      rw [if_pos (hn t hi)]
  · intro t hi ne hx
    have e : tierIndex h x = .error .valueError := by
      unfold tierIndex
      rw [hi]
      dsimp only
      rw [show (h.tseq t).vals.findIdx? (· == x) = none from List.findIdx?_eq_none_iff.mpr fun y hy => by
        simp only [beq_eq_false_iff_ne]
        rintro rfl
        exact hx hy]
    unfold pointRepr
    rw [hi]
    dsimp only
    rw [if_neg ne, e]
    rfl

/-! ## Cases that meet the hypotheses -/

/-- two points on a tier, and one that is not -/
def exDots : M Unit := do
  let a ← newEntry cPoint 1 1 "H"
  let b ← newEntry cPoint 2 2 "L"
  let _ ← newEntry cPoint 3 3 "none"
  let _ ← newPointTier [a, b] cPoint "dots"

example :
    (let h := run0 exDots
     pointRepr h 0 = .ok "Class SequencePoint, label: H; tier_index: 0" ∧ pointRepr h 1 = .ok "Class SequencePoint, label: L; tier_index: 1" ∧
     pointRepr h 2 = .ok "Class SequencePoint, label: none;" ∧ pointRepr { h with intier := fun _ => some 0 } 2 = .error .valueError ∧
     pointTierRepr h 0 = "Sequence Point tier of SequencePoint;") := by
  decide +kernel

/-- quotes around a string without quotes or escapes -/
def plainQuotes (s : String) : String := "'" ++ s ++ "'"

example : ∃ h', (do let a ← newAtg exPraat (.flat [cWord, cPhone]); Change.runAll a exLeftwards; pure a : M ARef) heap0 = .ok 0 h' ∧
    atgRepr plainQuotes (fun _ => "someone") h' 0 = "AlignedTextGrid with " ++ "2" ++ " groups named " ++
      pyList ((h'.agroups 0).map fun _ => plainQuotes "someone") ++ " each with " ++ "[2, 2]" ++ " tiers. " ++
      "[['Phrase', 'Word'], ['Phrase', 'Word']]" := by
  obtain ⟨h', e, -, z⟩ := C101_import_partial plainQuotes (fun _ => "someone") heap0 exPraat (.flat [cWord, cPhone])
    [exPraat.take 2, exPraat.drop 2] [[cWord, cPhone], [cWord, cPhone]] .base heap0_tidy heap0_alloc rfl (by simp) (by decide) exPraat_good
    exLeftwards (Suits.of_good wordPhone_good) 0 4 exPraat_covering
    (exLeftwardsDone.map fun p => (p, false), exLeftwardsDone.map fun p => (p, true)) (by decide +kernel)
  have key : ∀ n A X B : String, n = "2" → A = "[2, 2]" → B = "[['Phrase', 'Word'], ['Phrase', 'Word']]" →
      "AlignedTextGrid with " ++ n ++ " groups named " ++ X ++ " each with " ++ A ++ " tiers. " ++ B =
        "AlignedTextGrid with " ++ "2" ++ " groups named " ++ X ++ " each with " ++ "[2, 2]" ++ " tiers. " ++
          "[['Phrase', 'Word'], ['Phrase', 'Word']]" := by
    intro n A X B h1 h2 h3
    rw [h1, h2, h3]
  exact ⟨h', e, z.trans (key _ _ _ _ (by decide +kernel) (by decide +kernel) (by decide +kernel))⟩

/-- two tiers with a gap, filled, with syllables above the phones: each interval agrees with the data -/
example : ∃ tss'' : List (List PTier), (∀ ts', tss''[0]? = some ts' → Completed exGapped ts') ∧
    ∀ b', Edit.actAll [.interleave "Syllable" true "Phone" true true] (bookFrom tss'' [["Word", "Phone"]]) = some b' →
      ∃ h', (do let a ← newAtg exGapped (.flat [cWord, cPhone])
                Edit.runAll a [.interleave "Syllable" true "Phone" true true]
                pure a : M ARef) heap0 = .ok 0 h' ∧ bookOf h' 0 = b' := by
  have hl : IsHierarchy heap0.ct [cWord, cPhone] := isHierarchy_of_check (by decide) (by decide) (by decide +kernel)
    (by decide +kernel) (by decide +kernel) (by decide +kernel)
  have gc : GoodClasses heap0.ct [[cWord, cPhone]] :=
    ⟨fun cs hc => by rw [List.mem_singleton.mp hc]; exact hl, by decide +kernel, by decide +kernel⟩
  have good : GoodTiers exGapped := by
    refine ⟨by decide +kernel, by decide +kernel, by decide +kernel, by decide +kernel, ?_⟩
    intro i t u h1 h2
    match i with
    | 0 => cases h1; cases h2; exact ⟨by decide +kernel, by decide +kernel, by decide +kernel, by decide +kernel⟩
  obtain ⟨tss'', -, c, q⟩ := C101_gaps_partial plainQuotes heap0 exGapped (.flat [cWord, cPhone]) [exGapped] [exGapped] [[cWord, cPhone]]
    .base heap0_tidy heap0_alloc rfl (by simp) rfl gc.even rfl (by
      intro i ts ts' h1 h2
      match i with
      | 0 => cases h1; cases h2; exact Or.inl ⟨good, rfl⟩) 1 4 (by
      unfold Reaches
      decide +kernel)
  refine ⟨tss'', fun ts' h => c 0 _ ts' rfl h, ?_⟩
  intro b' hb
  obtain ⟨h', e, q, -⟩ := q _ b' hb
  exact ⟨h', e, q⟩

example :
    let h := run0 (do
      let a ← newAtg exGapped (.flat [cWord, cPhone])
      Edit.runAll a [.interleave "Syllable" true "Phone" true true])
    (h.agroups 0).map (fun g => (h.gtiers g).map fun t => (h.tseq t).vals.map (intervalRepr plainQuotes h)) =
      [[["Class Word, label: a, .superset_class: Top_1, .super_instance, None, .subset_class: Syllable, .subset_list: ['x']",
         "Class Word, label: , .superset_class: Top_1, .super_instance, None, .subset_class: Syllable, .subset_list: ['']",
         "Class Word, label: b, .superset_class: Top_1, .super_instance, None, .subset_class: Syllable, .subset_list: ['y']"],
        ["Class Syllable, label: x, .superset_class: Word, .super_instance: a, .subset_class: Phone, .subset_list: ['x']",
         "Class Syllable, label: , .superset_class: Word, .super_instance: , .subset_class: Phone, .subset_list: ['']",
         "Class Syllable, label: y, .superset_class: Word, .super_instance: b, .subset_class: Phone, .subset_list: ['y']"],
        ["Class Phone, label: x, .superset_class: Syllable, .super_instance: x, .subset_class: Bottom_1",
         "Class Phone, label: , .superset_class: Syllable, .super_instance: , .subset_class: Bottom_1",
         "Class Phone, label: y, .superset_class: Syllable, .super_instance: y, .subset_class: Bottom_1"]]] := by
  decide +kernel

/-- the intervals of the textgrid that was fused leftwards -/
example :
    let h := run0 (do let a ← newAtg exPraat (.flat [cWord, cPhone]); Change.runAll a exLeftwards)
    (h.agroups 0).map (fun g => (h.gtiers g).map fun t => (h.tseq t).vals.map (intervalRepr plainQuotes h)) =
      [[["Class Phrase, label: all, .superset_class: Top_1, .super_instance, None, .subset_class: Word, .subset_list: ['', 'all']"],
        ["Class Word, label: , .superset_class: Phrase, .super_instance: all, .subset_class: Bottom_1",
         "Class Word, label: all, .superset_class: Phrase, .super_instance: all, .subset_class: Bottom_1"]],
       [["Class Phrase, label: hm, .superset_class: Top_1, .super_instance, None, .subset_class: Word, .subset_list: ['hm']"],
        ["Class Word, label: hm, .superset_class: Phrase, .super_instance: hm, .subset_class: Bottom_1"]]] := by
  decide +kernel

/-- and what their plain data says of two of them -/
example :
    (exLeftwardsDone[0]!).portrait plainQuotes "Top_1" "Bottom_1" 0 (1, 5, "all") =
      "Class Phrase, label: all, .superset_class: Top_1, .super_instance, None, .subset_class: Word, .subset_list: ['', 'all']" ∧
    (exLeftwardsDone[0]!).portrait plainQuotes "Top_1" "Bottom_1" 1 (1, 2, "") =
      "Class Word, label: , .superset_class: Phrase, .super_instance: all, .subset_class: Bottom_1" := by
  decide +kernel

/-! ## Where it fails -/

/-- a word that had a phone and is given an empty subset list -/
def exForsaken : M Unit := do
  let w ← newEntry cWord 0 1 "a"
  let p ← newEntry cPhone 0 1 "b"
  setSubsetList w [p]
  setSubsetList w []

/-- **C101 is false without tidiness**: the phone still has the word as its superset but says that there is none, since a word without phones counts
    as false. -/
theorem C101_violated :
    (exForsaken heap0).out = .ok () ∧ (run0 exForsaken).sup 1 = some 0 ∧
    intervalRepr plainQuotes (run0 exForsaken) 1 =
      "Class Phone, label: b, .superset_class: Word, .super_instance, None, .subset_class: Bottom_wp" := by
  decide +kernel

/-- words that end before the phones do -/
def exBeyond : List PTier := [("w", [(0, 1, "a"), (1, 2, "b")]), ("p", [(0, 1, "p"), (1, 2, "q"), (2, 3, "r"), (3, 4, "s")])]

/-- **C101 is false for phones after the last word**: the phone from 2 to 3 shows the word from 1 to 2 as its superset. -/
theorem C101_beyond_violated :
    (newAtg exBeyond (.flat [cWord, cPhone]) heap0).out = .ok 0 ∧
    (let h := run0 (newAtg exBeyond (.flat [cWord, cPhone]))
     h.agroups 0 = [0] ∧ h.gpoint 0 = false ∧ h.gtiers 0 = [0, 1] ∧ (h.tseq 1).vals[2]? = some 4 ∧
       pageOf h 0 = [("Word", [(0, 1, "a"), (1, 2, "b")]), ("Phone", [(0, 1, "p"), (1, 2, "q"), (2, 3, "r"), (3, 2, "s")])] ∧
       (h.start 4, h.stop 4, h.label 4) = (2, 3, "r") ∧ (h.ct.sub (h.tcls 1)).map h.ct.name = some "Bottom_1" ∧
       intervalRepr id h 4 = "Class Phone, label: r, .superset_class: Word, .super_instance: b, .subset_class: Bottom_1") := by
  decide +kernel

theorem C101_statement_violated : ¬ C101_statement := by
  intro st
  obtain ⟨ok, hv⟩ := C101_beyond_violated
  have e : newAtg exBeyond (.flat [cWord, cPhone]) heap0 = .ok 0 (run0 (newAtg exBeyond (.flat [cWord, cPhone]))) := by
    unfold run0
    generalize newAtg exBeyond (.flat [cWord, cPhone]) heap0 = r at ok
    cases r with
    | ok a k => cases ok; rfl
    | err x k => cases ok
  have q := st id heap0 exBeyond (.flat [cWord, cPhone]) [] (run0 (newAtg exBeyond (.flat [cWord, cPhone]))) .base heap0_tidy heap0_alloc
  have n : heap0.nA = 0 := rfl
  rw [n] at q
  generalize run0 (newAtg exBeyond (.flat [cWord, cPhone])) = K at e hv q
  obtain ⟨h1, h2, h3, h4, h5, h6, h7, h8⟩ := hv
  have run : (do let a ← newAtg exBeyond (.flat [cWord, cPhone]); Change.runAll a []; pure a : M ARef) heap0 = .ok 0 K := by
    mstep e
    rfl
  obtain ⟨a, b, ⟨-, db, -⟩, sh⟩ := q run 0 (by rw [h1]; simp) h2 (by rw [h3]; simp)
  rw [h3] at db sh
  have db : K.ct.sub (K.tcls 1) = some b := db
  rw [db] at h7
  have h7 : K.ct.name b = "Bottom_1" := Option.some.inj h7
  have z := sh 1 1 4 rfl (List.mem_of_getElem? h4)
  rw [h5, h6, h7, h8] at z
  have w : ∀ top : String, ¬ "Class Phone, label: r, .superset_class: Word, .super_instance: b, .subset_class: Bottom_1" =
      Page.portrait id top "Bottom_1" [("Word", [(0, 1, "a"), (1, 2, "b")]),
        ("Phone", [(0, 1, "p"), (1, 2, "q"), (2, 3, "r"), (3, 2, "s")])] 1 (2, 3, "r") := by
    intro top z
    have z : "Class Phone, label: r, .superset_class: Word, .super_instance: b, .subset_class: Bottom_1" =
        Page.portrait id "" "Bottom_1" [("Word", [(0, 1, "a"), (1, 2, "b")]),
          ("Phone", [(0, 1, "p"), (1, 2, "q"), (2, 3, "r"), (3, 2, "s")])] 1 (2, 3, "r") := z
    revert z
    decide +kernel
  exact w _ z

end ATG
