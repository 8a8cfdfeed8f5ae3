import Verif.Lemmas.BookImport
/-!
# C87: editing textgrids, one edit after the other

A textgrid that can be edited is, for all edits, as good as its plain data: the names of the classes and the rows of the
tiers of each group. `Edit.act` says what interleaving, popping and shifting should do to such data; the programs do
just that, and leave a textgrid that can be edited again, with all intervals related by containment.
-/
namespace ATG

/-- **C87.** `interleave_class`, `pop_class` and `shift` of a textgrid that can be edited do to its plain data what
    they should, and leave a textgrid that can be edited.
    `_partial`: where the plain edit is not possible (the name is there already, or the tier to copy is missing or empty),
    nothing is said; see `C69_empty_violated`, `C36_edge_violated` and `C71_fresh_violated`. -/
theorem C87_step_partial (h : Heap) (a : ARef) (ed : Editable h (h.agroups a)) (e : Edit) (b' : Book)
    (hb : e.act (bookOf h a) = some b') :
    ∃ h', e.run a h = .ok () h' ∧ Editable h' (h'.agroups a) ∧ bookOf h' a = b' := by
  cases e with
  | interleave name above cname fromBelow labels =>
    obtain ⟨h', e1, e2, e3, -⟩ := ed.interleave name above cname fromBelow labels hb
    exact ⟨h', e1, e2, e3⟩
  | pop name =>
    obtain ⟨h', e1, e2, e3, -⟩ := ed.pop name
    exact ⟨h', e1, e2, e3.trans (Option.some.inj hb)⟩
  | shift d =>
    obtain ⟨h', e1, -, e2, e3⟩ := ed.shift d
    exact ⟨h', e1, e2, e3.trans (Option.some.inj hb)⟩

/-- C87, any number of edits: if they are possible for the plain data one after the other, none of the programs raises, and the
    textgrid ends up with the edited data. -/
theorem C87_history_partial (a : ARef) (es : List Edit) : ∀ (h : Heap) (b' : Book), Editable h (h.agroups a) →
    Edit.actAll es (bookOf h a) = some b' →
    ∃ h', Edit.runAll a es h = .ok () h' ∧ Editable h' (h'.agroups a) ∧ bookOf h' a = b' := by
  induction es with
  | nil =>
    intro h b' ed hb
    exact ⟨h, rfl, ed, Option.some.inj hb⟩
  | cons e es ih =>
    intro h b' ed hb
    obtain ⟨b1, h1, h2⟩ := Option.bind_eq_some_iff.mp hb
    obtain ⟨k, e1, ed1, q⟩ := C87_step_partial h a ed e b1 h1
    rw [← q] at h2
    obtain ⟨h', e2, ed2, q2⟩ := ih k b' ed1 h2
    refine ⟨h', ?_, ed2, q2⟩
    unfold Edit.runAll
    mstep e1
    exact e2

/-- the plain data of a Praat textgrid whose tiers are given, with the names of their classes -/
def bookFrom (tss : List (List PTier)) (names : List (List String)) : Book :=
  (tss.zip names).map fun q => q.2.zip (q.1.map (·.2))

theorem Holds.book {h : Heap} {a : ARef} {tss : List (List PTier)} {names : List (List String)} (hd : Holds h a tss names) :
    bookOf h a = bookFrom tss names := by
  unfold bookFrom bookOf
  rw [← hd.tiers, ← hd.classes, List.zip_map', List.map_map]
  apply List.map_congr_left
  intro g _
  show pageOf h g = _
  simp only [Function.comp, List.map_map]
  rw [List.zip_map']
  rfl

/-- **C87, from the Praat textgrid on.** Let the tiers cover the same time without gaps, each group's tiers aligned, for
    hierarchies of classes, complete or without their lowest classes, where groups with a class in common have the same classes.
    `AlignedTextGrid(textgrid, classes)` followed by any edits possible for the plain data
    succeeds and has exactly the edited data; in each group, the intervals are then related by containment: the
    subset list of each is the list of intervals inside it on the tier below.
    `_partial`, as C74 and `C87_step_partial` are. -/
theorem C87_import_partial (h : Heap) (tiers : List PTier) (arg : ClassArg) (tss : List (List PTier)) (css : List (List CRef))
    (hr : ReachC h.ct) (td : Tidy h) (ac : Allocated h) (hn : nestify h.ct tiers arg = .ok (tss, css)) (hne : tss ≠ [])
    (hlen : tss.map List.length = css.map List.length) (good : ∀ ts ∈ tss, GoodTiers ts) (ev : EvenClasses h.ct css)
    (lo hi : Time) (cov : ∀ ts ∈ tss, Covering ts lo hi) (es : List Edit) (b' : Book)
    (hb : Edit.actAll es (bookFrom tss (css.map (List.map h.ct.name))) = some b') :
    ∃ h', (do let a ← newAtg tiers arg; Edit.runAll a es; pure a : M ARef) h = .ok h.nA h' ∧ bookOf h' h.nA = b' ∧
      (∀ g ∈ h'.agroups h.nA, RelatedByContainment h' (h'.gtiers g) ∧ FitGroup h' (h'.gtiers g)) ∧
      Separate h' (h'.agroups h.nA) := by
  obtain ⟨h1, e1, hd, gr, -, -, -, -, -, oc⟩ := C74_exact_partial h tiers arg tss css hr td ac hn hne hlen good ev.1 lo hi cov
  rw [← hd.book] at hb
  obtain ⟨h', e2, ed, q⟩ := C87_history_partial h.nA es h1 b' (gr.editable (oc ev.2)) hb
  refine ⟨h', ?_, q, fun g hg => ⟨ed.rel g hg, ed.fit g hg⟩, ed.sep⟩
  mstep e1
  mstep e2
  rfl

/-! ## What this says about edits one after the other -/

/-- C87: two histories of edits that make the same of the plain data make the same textgrid, as far as the data go. -/
theorem C87_same_partial (h : Heap) (a : ARef) (ed : Editable h (h.agroups a)) (es fs : List Edit) (b' : Book)
    (h1 : Edit.actAll es (bookOf h a) = some b') (h2 : Edit.actAll fs (bookOf h a) = some b') :
    ∃ k k', Edit.runAll a es h = .ok () k ∧ Edit.runAll a fs h = .ok () k' ∧ bookOf k a = bookOf k' a := by
  obtain ⟨k, e1, -, q1⟩ := C87_history_partial a es h b' ed h1
  obtain ⟨k', e2, -, q2⟩ := C87_history_partial a fs h b' ed h2
  exact ⟨k, k', e1, e2, q1.trans q2.symm⟩

/-! ## A case that meets the hypotheses -/

instance : DecidableEq Page := inferInstance
instance : DecidableEq Book := inferInstanceAs (DecidableEq (List Page))

theorem mem_two {α} {x a b : α} (h : x ∈ [a, b]) : x = a ∨ x = b := by simpa using h

/-- a tier of syllables between words and phones, everything later by 2, feet over the syllables, then no more words and
    no more syllables -/
def exEdits : List Edit :=
  [.interleave "Syllable" true "Phone" true true, .shift 2, .interleave "Foot" true "Syllable" false false,
   .pop "Word", .pop "Syllable", .pop "Tone"]

/-- what is left -/
def exEdited : Book :=
  [[("Foot", [(2, 3, ""), (3, 5, ""), (5, 6, "")]), ("Phone", [(2, 3, ""), (3, 4, "K"), (4, 5, "T"), (5, 6, "")])],
   [("Foot", [(2, 4, ""), (4, 6, "")]), ("Phone", [(2, 3, "HH"), (3, 4, "M"), (4, 6, "")])]]

example : ∃ h', (do let a ← newAtg exPraat (.flat [cWord, cPhone]); Edit.runAll a exEdits; pure a : M ARef) heap0 = .ok 0 h' ∧
    bookOf h' 0 = exEdited ∧
    ∀ g ∈ h'.agroups 0, RelatedByContainment h' (h'.gtiers g) := by
  have hl : IsHierarchy heap0.ct [cWord, cPhone] := isHierarchy_of_check (by decide) (by decide) (by decide +kernel)
    (by decide +kernel) (by decide +kernel) (by decide +kernel)
  obtain ⟨h', e, q, r, -⟩ := C87_import_partial heap0 exPraat (.flat [cWord, cPhone]) [exPraat.take 2, exPraat.drop 2]
    [[cWord, cPhone], [cWord, cPhone]] .base heap0_tidy heap0_alloc rfl (by simp) (by decide) (by
      intro ts hts
      rcases mem_two hts with rfl | rfl
      · exact goodTiers_pair (by decide) (by decide +kernel) (by decide +kernel) (by decide +kernel)
          ⟨by decide +kernel, by decide +kernel, by decide +kernel, by decide +kernel⟩
      · exact goodTiers_pair (by decide) (by decide +kernel) (by decide +kernel) (by decide +kernel)
          ⟨by decide +kernel, by decide +kernel, by decide +kernel, by decide +kernel⟩)
    (GoodClasses.even ⟨by
        intro cs hcs
        rcases mem_two hcs with rfl | rfl <;> exact hl, by decide +kernel, by decide +kernel⟩) 0 4 (by
      intro ts hts
      rcases mem_two hts with rfl | rfl <;> (unfold Covering; decide +kernel)) exEdits exEdited (by decide +kernel)
  exact ⟨h', e, q, fun g hg => (r g hg).1⟩

end ATG
