import Verif.Lemmas.TouchBook
import Verif.Props.Book
/-!
# C90: editing the intervals and the tiers of a textgrid, in any order

Like C87, with edits of single intervals among the others: fusing an interval with the next or the previous one and giving it another label do
to the plain data of a textgrid what they should, whatever edits have been made before. The plain data has, for each group, a mark saying
that the intervals of its first tier follow one another, so that they can be fused.
-/
namespace ATG

/-- **C90.** `atg[i][j][k].fuse_rightwards(J)`, `atg[i][j][k].fuse_leftwards(J)`, `atg[i][j][k].label = lab`, `atg.interleave_class(…)`, `atg.pop_class(name)`
    and `atg.shift(d)` do to the plain data of a workable textgrid what they should, and leave a workable textgrid.
    `_partial`: intervals are only fused if they touch and, below the first tier, belong to the same superset instance; on a first
    tier that has become so by popping the one above they are not fused (`C90_pop_violated`); the new label
    is not `"#"`, which would make the interval equal to the mark for the end of a tier. `fuse_leftwards` is not
    treated on the first tier, where it leaves a textgrid that may fail later (`C90_left_violated`); see C99 for that. -/
theorem C90_step_partial (h : Heap) (a : ARef) (wk : Workable h (h.agroups a)) (d : Draft) (dr : Drafted h (h.agroups a) d)
    (e : Change) (d' : Draft) (he : e.act d = some d') :
    ∃ h', e.run a h = .ok () h' ∧ Workable h' (h'.agroups a) ∧ Drafted h' (h'.agroups a) d' :=
  wk.step dr e he

/-- C90, any number of such edits: if they are possible for the plain data one after the other, none of the programs raises, and
    the textgrid ends up with the edited data. -/
theorem C90_history_partial (a : ARef) (es : List Change) : ∀ (h : Heap) (d d' : Draft), Workable h (h.agroups a) →
    Drafted h (h.agroups a) d → Change.actAll es d = some d' →
    ∃ h', Change.runAll a es h = .ok () h' ∧ Workable h' (h'.agroups a) ∧ Drafted h' (h'.agroups a) d' ∧
      bookOf h' a = d'.map (·.1) := by
  induction es with
  | nil =>
    intro h d d' wk dr hd
    cases hd
    exact ⟨h, rfl, wk, dr, dr.book⟩
  | cons e es ih =>
    intro h d d' wk dr hd
    obtain ⟨d1, h1, h2⟩ := Option.bind_eq_some_iff.mp hd
    obtain ⟨k, e1, wk1, dr1⟩ := C90_step_partial h a wk d dr e d1 h1
    obtain ⟨h', e2, wk2, dr2, q⟩ := ih k d1 d' wk1 dr1 h2
    refine ⟨h', ?_, wk2, dr2, q⟩
    unfold Change.runAll
    mstep e1
    exact e2

/-- C90, any classes that are linked, such as those of hierarchies without their lowest classes: the same for the edits that keep the
    tiers of each group, which are fusing, relabelling and shifting. -/
theorem C90_mild_partial {R : ClassTab → List (List CRef) → Prop} [LinkedRows R] (a : ARef) (es : List Change) : ∀ (h : Heap) (d d' : Draft),
    WorkableFor R h (h.agroups a) → Drafted h (h.agroups a) d → Change.actAll es d = some d' → (∀ e ∈ es, e.mild = true) →
    ∃ h', Change.runAll a es h = .ok () h' ∧ WorkableFor R h' (h'.agroups a) ∧ Drafted h' (h'.agroups a) d' ∧
      bookOf h' a = d'.map (·.1) := by
  induction es with
  | nil =>
    intro h d d' wk dr hd _
    cases hd
    exact ⟨h, rfl, wk, dr, dr.book⟩
  | cons e es ih =>
    intro h d d' wk dr hd hm
    obtain ⟨d1, h1, h2⟩ := Option.bind_eq_some_iff.mp hd
    obtain ⟨k, e1, wk1, dr1⟩ := wk.mildStep dr e h1 (hm e (by simp))
    obtain ⟨h', e2, wk2, dr2, q⟩ := ih k d1 d' wk1 dr1 h2 fun e he => hm e (List.mem_cons_of_mem _ he)
    refine ⟨h', ?_, wk2, dr2, q⟩
    unfold Change.runAll
    mstep e1
    exact e2

theorem Suits.of_good {ct : ClassTab} {css : List (List CRef)} {es : List Change} (gc : GoodClasses ct css) : Suits ct css es :=
  ⟨gc.topClasses, Or.inl gc.even.2⟩

/-- the plain data of a Praat textgrid, all first tiers with their mark -/
def draftFrom (tss : List (List PTier)) (names : List (List String)) : Draft := (bookFrom tss names).map fun p => (p, true)

/-- the textgrid made from covering tiers and edited is workable -/
theorem import_workable (h : Heap) (tiers : List PTier) (arg : ClassArg) (tss : List (List PTier)) (css : List (List CRef))
    (hr : ReachC h.ct) (td : Tidy h) (ac : Allocated h) (hn : nestify h.ct tiers arg = .ok (tss, css)) (hne : tss ≠ [])
    (hlen : tss.map List.length = css.map List.length) (good : ∀ ts ∈ tss, GoodTiers ts) (es : List Change)
    (gc : Suits h.ct css es) (lo hi : Time) (cov : ∀ ts ∈ tss, Covering ts lo hi) (d' : Draft)
    (hd' : Change.actAll es (draftFrom tss (css.map (List.map h.ct.name))) = some d') :
    ∃ h', (do let a ← newAtg tiers arg; Change.runAll a es; pure a : M ARef) h = .ok h.nA h' ∧
      bookOf h' h.nA = d'.map (·.1) ∧ WorkableFor RowLinks h' (h'.agroups h.nA) ∧ Drafted h' (h'.agroups h.nA) d' := by
  obtain ⟨h1, e1, hd, gr, -, -, -, hm, tw, oc⟩ := C74_exact_partial h tiers arg tss css hr td ac hn hne hlen good gc.1 lo hi cov
  have dr : Drafted h1 (h1.agroups h.nA) (draftFrom tss (css.map (List.map h.ct.name))) := by
    refine ⟨fun _ => true, ?_, fun g hg _ => (hm g hg).1.strung (hm g hg).2⟩
    unfold draftFrom
    rw [← hd.book]
    unfold bookOf
    rw [List.map_map]
    rfl
  have hh : ∀ g ∈ h1.agroups h.nA, Homed h1 (h1.gtiers g) := fun g hg =>
    (hm g hg).1.homed fun t ht => ((tw.part g hg).mem (List.mem_map.mpr ⟨t, ht, rfl⟩)).2.2.1
  obtain ⟨h', e2, q, wk, dr'⟩ : ∃ h', Change.runAll h.nA es h1 = .ok () h' ∧ bookOf h' h.nA = d'.map (·.1) ∧
      WorkableFor RowLinks h' (h'.agroups h.nA) ∧ Drafted h' (h'.agroups h.nA) d' := by
    rcases gc.2 with gc | mild
    · obtain ⟨h', e2, wk, dr', q⟩ := C90_history_partial h.nA es h1 _ d' ⟨gr.editable (oc gc), hh, gr.interval, fun g hg => (gr.groups g hg).gpoint⟩ dr hd'
      exact ⟨h', e2, q, wk.linked, dr'⟩
    · obtain ⟨h', e2, wk, dr', q⟩ := C90_mild_partial (R := RowLinks) h.nA es h1 _ d' ⟨gr.editableFor tw.wfc tw.old tw.rows, hh, gr.interval, fun g hg => (gr.groups g hg).gpoint⟩ dr hd' mild
      exact ⟨h', e2, q, wk, dr'⟩
  refine ⟨h', ?_, q, wk, dr'⟩
  mstep e1
  mstep e2
  rfl

/-- **C90, from the Praat textgrid on.** Let the tiers cover the same time without gaps, each group's tiers aligned, for
    hierarchies of classes, complete or without their lowest classes. Either groups with a class in common have the same classes, or the
    edits keep the tiers. `AlignedTextGrid(textgrid, classes)`, followed by any fusing, relabelling, interleaving, popping and
    shifting, in any order, each possible for the plain data, succeeds and has exactly the
    edited data; in each group, the intervals are then related by containment: the subset list of each is the list of
    intervals inside it on the tier below.
    `_partial`, as C74, `C87_step_partial` and `C90_step_partial` are. -/
theorem C90_import_partial (h : Heap) (tiers : List PTier) (arg : ClassArg) (tss : List (List PTier)) (css : List (List CRef))
    (hr : ReachC h.ct) (td : Tidy h) (ac : Allocated h) (hn : nestify h.ct tiers arg = .ok (tss, css)) (hne : tss ≠ [])
    (hlen : tss.map List.length = css.map List.length) (good : ∀ ts ∈ tss, GoodTiers ts) (es : List Change)
    (gc : Suits h.ct css es) (lo hi : Time) (cov : ∀ ts ∈ tss, Covering ts lo hi) (d' : Draft)
    (hd' : Change.actAll es (draftFrom tss (css.map (List.map h.ct.name))) = some d') :
    ∃ h', (do let a ← newAtg tiers arg; Change.runAll a es; pure a : M ARef) h = .ok h.nA h' ∧
      bookOf h' h.nA = d'.map (·.1) ∧
      (∀ g ∈ h'.agroups h.nA, RelatedByContainment h' (h'.gtiers g) ∧ FitGroup h' (h'.gtiers g)) ∧
      Separate h' (h'.agroups h.nA) := by
  obtain ⟨h', e, q, wk, -⟩ := import_workable h tiers arg tss css hr td ac hn hne hlen good es gc lo hi cov d' hd'
  exact ⟨h', e, q, fun g hg => ⟨wk.rel g hg, wk.fit g hg⟩, wk.sep⟩

/-! ## A case that meets the hypotheses -/

/-- syllables between words and phones; the syllables of "cat" fused, then its phones; the words dropped and a syllable named anew; phrases
    above the syllables; the first two phrases of the second speaker fused, and then their syllables -/
def exChanges : List Change :=
  [.edit (.interleave "Syllable" true "Phone" true true), .touch (.fuse (· ++ ·) 0 1 1), .touch (.fuseLeft (· ++ ·) 0 2 2),
   .edit (.pop "Word"), .touch (.relabel "AE" 0 0 1), .edit (.interleave "Phrase" true "Syllable" true false),
   .touch (.fuse (· ++ ·) 1 0 0), .edit (.shift 1), .touch (.fuse (· ++ ·) 1 1 0)]

def exChanged : Draft :=
  [([("Phrase", [(1, 2, ""), (2, 4, ""), (4, 5, "")]), ("Syllable", [(1, 2, ""), (2, 4, "AE"), (4, 5, "")]),
     ("Phone", [(1, 2, ""), (2, 4, "KT"), (4, 5, "")])], true),
   ([("Phrase", [(1, 3, ""), (3, 5, "")]), ("Syllable", [(1, 3, "HHM"), (3, 5, "")]),
     ("Phone", [(1, 2, "HH"), (2, 3, "M"), (3, 5, "")])], true)]

example : ∃ h', (do let a ← newAtg exPraat (.flat [cWord, cPhone])
                    Change.runAll a exChanges
                    pure a : M ARef) heap0 = .ok 0 h' ∧
    bookOf h' 0 = exChanged.map (·.1) ∧ ∀ g ∈ h'.agroups 0, RelatedByContainment h' (h'.gtiers g) := by
  have hl : IsHierarchy heap0.ct [cWord, cPhone] := isHierarchy_of_check (by decide) (by decide) (by decide +kernel)
    (by decide +kernel) (by decide +kernel) (by decide +kernel)
  obtain ⟨h', e, q, r, -⟩ := C90_import_partial heap0 exPraat (.flat [cWord, cPhone]) [exPraat.take 2, exPraat.drop 2]
    [[cWord, cPhone], [cWord, cPhone]] .base heap0_tidy heap0_alloc rfl (by simp) (by decide) (by
      intro ts hts
      rcases mem_two hts with rfl | rfl
      · exact goodTiers_pair (by decide) (by decide +kernel) (by decide +kernel) (by decide +kernel)
          ⟨by decide +kernel, by decide +kernel, by decide +kernel, by decide +kernel⟩
      · exact goodTiers_pair (by decide) (by decide +kernel) (by decide +kernel) (by decide +kernel)
          ⟨by decide +kernel, by decide +kernel, by decide +kernel, by decide +kernel⟩)
    exChanges (Suits.of_good ⟨by
        intro cs hcs
        rcases mem_two hcs with rfl | rfl <;> exact hl, by decide +kernel, by decide +kernel⟩) 0 4 (by
      intro ts hts
      rcases mem_two hts with rfl | rfl <;> (unfold Covering; decide +kernel)) exChanged (by decide +kernel)
  exact ⟨h', e, q, fun g hg => (r g hg).1⟩

/-- only the words of both speakers, a hierarchy without its lowest class -/
def exWordTiers : List PTier :=
  [("w1", [(0, 1, ""), (1, 3, "cat"), (3, 4, "")]), ("w2", [(0, 1, "HH"), (1, 2, "M"), (2, 4, "")])]

/-- segments below the words, the first two words of the second speaker fused, their segments too, then no more words -/
def exWordChanges : List Change :=
  [.edit (.interleave "Segment" false "Word" false true), .touch (.fuse (· ++ ·) 1 0 0), .touch (.fuse (· ++ ·) 1 1 0),
   .edit (.pop "Word"), .edit (.interleave "Phrase" true "Segment" true false)]

def exWordChanged : Draft :=
  [([("Phrase", [(0, 1, ""), (1, 3, ""), (3, 4, "")]), ("Segment", [(0, 1, ""), (1, 3, "cat"), (3, 4, "")])], true),
   ([("Phrase", [(0, 2, ""), (2, 4, "")]), ("Segment", [(0, 2, "HHM"), (2, 4, "")])], true)]

theorem wordPhone_hier : IsHierarchy heap0.ct [cWord, cPhone] := isHierarchy_of_check (by decide) (by decide) (by decide +kernel)
  (by decide +kernel) (by decide +kernel) (by decide +kernel)

theorem two_topClasses {cs ds : List CRef} (h1 : cs ≠ [] ∧ cs <+: [cWord, cPhone]) (h2 : ds ≠ [] ∧ ds <+: [cWord, cPhone]) :
    TopClasses heap0.ct [cs, ds] := by
  refine ⟨[[cWord, cPhone], [cWord, cPhone]], ⟨by
    intro cs hcs
    rcases mem_two hcs with rfl | rfl <;> exact wordPhone_hier, by decide +kernel, by decide +kernel⟩, rfl, ?_⟩
  intro i a L q1 q2
  match i with
  | 0 => cases q1; cases q2; exact h1
  | 1 => cases q1; cases q2; exact h2

example : ∃ h', (do let a ← newAtg exWordTiers (.flat [cWord])
                    Change.runAll a exWordChanges
                    pure a : M ARef) heap0 = .ok 0 h' ∧
    bookOf h' 0 = exWordChanged.map (·.1) ∧ ∀ g ∈ h'.agroups 0, RelatedByContainment h' (h'.gtiers g) := by
  obtain ⟨h', e, q, r, -⟩ := C90_import_partial heap0 exWordTiers (.flat [cWord]) [exWordTiers.take 1, exWordTiers.drop 1]
    [[cWord], [cWord]] .base heap0_tidy heap0_alloc rfl (by simp) (by decide) (by
      intro ts hts
      rcases mem_two hts with rfl | rfl <;>
        exact ⟨by decide +kernel, by decide +kernel, by decide +kernel, by decide +kernel, fun i t u _ h2 => by cases h2⟩)
    exWordChanges ⟨two_topClasses (by decide) (by decide), Or.inl (by unfold AlikeClasses; decide)⟩ 0 4 (by
      intro ts hts
      rcases mem_two hts with rfl | rfl <;> (unfold Covering; decide +kernel)) exWordChanged (by decide +kernel)
  exact ⟨h', e, q, fun g hg => (r g hg).1⟩

/-- the words of one speaker, words and phones of the other: two words fused, and a phone relabelled -/
example : ∃ h', (do let a ← newAtg (exWordTiers.take 1 ++ exPraat.take 2) (.nested [[cWord], [cWord, cPhone]])
                    Change.runAll a [.touch (.fuse (· ++ ·) 0 0 0), .edit (.shift 1), .touch (.relabel "AE" 1 1 1)]
                    pure a : M ARef) heap0 = .ok 0 h' ∧
    bookOf h' 0 = [[("Word", [(1, 4, "cat"), (4, 5, "")])],
      [("Word", [(1, 2, ""), (2, 4, "cat"), (4, 5, "")]), ("Phone", [(1, 2, ""), (2, 3, "AE"), (3, 4, "T"), (4, 5, "")])]] ∧
    ∀ g ∈ h'.agroups 0, RelatedByContainment h' (h'.gtiers g) := by
  obtain ⟨h', e, q, r, -⟩ := C90_import_partial heap0 (exWordTiers.take 1 ++ exPraat.take 2) (.nested [[cWord], [cWord, cPhone]])
    [exWordTiers.take 1, exPraat.take 2] [[cWord], [cWord, cPhone]] .base heap0_tidy heap0_alloc rfl (by simp) (by decide) (by
      intro ts hts
      rcases mem_two hts with rfl | rfl
      · exact ⟨by decide +kernel, by decide +kernel, by decide +kernel, by decide +kernel, fun i t u _ h2 => by cases h2⟩
      · exact goodTiers_pair (by decide) (by decide +kernel) (by decide +kernel) (by decide +kernel)
          ⟨by decide +kernel, by decide +kernel, by decide +kernel, by decide +kernel⟩)
    [.touch (.fuse (· ++ ·) 0 0 0), .edit (.shift 1), .touch (.relabel "AE" 1 1 1)]
    ⟨two_topClasses (by decide) (by decide), Or.inr (by simp [Change.mild])⟩ 0 4 (by
      intro ts hts
      rcases mem_two hts with rfl | rfl <;> (unfold Covering; decide +kernel))
    [([("Word", [(1, 4, "cat"), (4, 5, "")])], true),
     ([("Word", [(1, 2, ""), (2, 4, "cat"), (4, 5, "")]), ("Phone", [(1, 2, ""), (2, 3, "AE"), (3, 4, "T"), (4, 5, "")])], true)]
    (by decide +kernel)
  exact ⟨h', e, q, fun g hg => (r g hg).1⟩

/-- two phones of different words cannot be fused -/
example : Change.actAll [.touch (.fuse (· ++ ·) 1 1 1)]
    (draftFrom [exPraat.take 2, exPraat.drop 2] [["Word", "Phone"], ["Word", "Phone"]]) = none := by
  decide +kernel

/-- **C90 without the mark is false.** Two phones of different words cannot be fused after the words have been popped either: the phones
    are the first tier now, and touch, but `fuse_rightwards` raises, since the last phone of a word is still followed by the
    mark for the end of a list. Two phones of the same word can be fused. -/
theorem C90_pop_violated :
    ((do let a ← newAtg exPraat (.flat [cWord, cPhone])
         popClass a "Word"
         fuseAt (· ++ ·) a 0 0 0 : M Unit) heap0).out = .error .exc ∧
    ((do let a ← newAtg exPraat (.flat [cWord, cPhone])
         popClass a "Word"
         fuseAt (· ++ ·) a 0 0 1 : M Unit) heap0).out = .ok () := by
  decide +kernel

/-- **C90 for `fuse_leftwards` on the first tier is false.** The last word fused leftwards with "cat" is right by itself. But the first word
    is still followed by the dropped word, so that fusing it rightwards afterwards raises, and leaves two words that overlap. -/
theorem C90_left_violated :
    bookOf ((do let a ← newAtg exPraat (.flat [cWord, cPhone])
                fuseLeftAt (· ++ ·) a 0 0 2 : M Unit) heap0).heap 0 =
      [[("Word", [(0, 1, ""), (1, 4, "cat")]), ("Phone", [(0, 1, ""), (1, 2, "K"), (2, 3, "T"), (3, 4, "")])],
       [("Word", [(0, 2, "hm"), (2, 4, "")]), ("Phone", [(0, 1, "HH"), (1, 2, "M"), (2, 4, "")])]] ∧
    ((do let a ← newAtg exPraat (.flat [cWord, cPhone])
         fuseLeftAt (· ++ ·) a 0 0 2
         fuseAt (· ++ ·) a 0 0 0 : M Unit) heap0).out = .error .exc ∧
    bookOf ((do let a ← newAtg exPraat (.flat [cWord, cPhone])
                fuseLeftAt (· ++ ·) a 0 0 2
                fuseAt (· ++ ·) a 0 0 0 : M Unit) heap0).heap 0 =
      [[("Word", [(0, 3, "cat"), (1, 4, "cat")]), ("Phone", [(0, 1, ""), (1, 2, "K"), (2, 3, "T"), (3, 4, "")])],
       [("Word", [(0, 2, "hm"), (2, 4, "")]), ("Phone", [(0, 1, "HH"), (1, 2, "M"), (2, 4, "")])]] := by
  decide +kernel

end ATG
