import Verif.Props.Book
import Verif.Props.Unaligned
/-!
# C87: editing textgrids made from tiers with gaps or with boundaries that do not match
-/
namespace ATG

/-- **C87, from tiers with gaps or unmatched boundaries.** Let the tiers of a Praat textgrid be split into the groups `tss`, all of which
    start at the same time and end at the same time. A group is aligned, perhaps with gaps, or consists of two tiers
    whose boundaries need not match; `tss'` has what its tiers have in common (see C89). Making the textgrid and editing it
    succeeds if the edits are possible for the plain data with the gaps filled, and gives what these edits make of
    them; in each group, the intervals are then related by containment.
    `_partial`, as C74, C89 and `C87_step_partial` are. -/
theorem C87_gaps_partial (h : Heap) (tiers : List PTier) (arg : ClassArg) (tss tss' : List (List PTier)) (css : List (List CRef))
    (hr : ReachC h.ct) (td : Tidy h) (ac : Allocated h) (hn : nestify h.ct tiers arg = .ok (tss, css)) (hne : tss ≠ [])
    (hlen : tss.map List.length = css.map List.length) (ev : EvenClasses h.ct css) (hl : tss'.length = tss.length)
    (rec : ∀ (i : Nat) ts ts', tss[i]? = some ts → tss'[i]? = some ts' → Reconciled ts ts')
    (lo hi : Time) (cov : ∀ ts ∈ tss, Reaches ts lo hi) :
    ∃ tss'', tss''.length = tss'.length ∧
      (∀ (i : Nat) ts ts', tss'[i]? = some ts → tss''[i]? = some ts' → Completed ts ts') ∧
      ∀ (es : List Edit) (b' : Book), Edit.actAll es (bookFrom tss'' (css.map (List.map h.ct.name))) = some b' →
        ∃ h', (do let a ← newAtg tiers arg; Edit.runAll a es; pure a : M ARef) h = .ok h.nA h' ∧ bookOf h' h.nA = b' ∧
          (∀ g ∈ h'.agroups h.nA, RelatedByContainment h' (h'.gtiers g) ∧ FitGroup h' (h'.gtiers g)) ∧
          Separate h' (h'.agroups h.nA) := by
  obtain ⟨h1, tss'', e1, hd, l, c, gr, -, -, -, oc⟩ := C89_result_partial h tiers arg tss tss' css hr td ac hn hne hlen
    ev.1 hl rec lo hi cov
  refine ⟨tss'', l, c, ?_⟩
  intro es b' hb
  rw [← hd.book] at hb
  obtain ⟨h', e2, ed, q⟩ := C87_history_partial h.nA es h1 b' (gr.editable (oc ev.2)) hb
  refine ⟨h', ?_, q, fun g hg => ⟨ed.rel g hg, ed.fit g hg⟩, ed.sep⟩
  mstep e1
  mstep e2
  rfl

/-- a gap between the words and between the phones -/
def exGapped : List PTier :=
  [("w", [(1, 2, "a"), (3, 4, "b")]), ("p", [(1, 2, "x"), (3, 4, "y")])]

example : ∃ tss'' : List (List PTier), tss''.length = 1 ∧ (∀ ts', tss''[0]? = some ts' → Completed exGapped ts') ∧
    ∀ (es : List Edit) (b' : Book), Edit.actAll es (bookFrom tss'' [["Word", "Phone"]]) = some b' →
      ∃ h', (do let a ← newAtg exGapped (.flat [cWord, cPhone]); Edit.runAll a es; pure a : M ARef) heap0 = .ok 0 h' ∧
        bookOf h' 0 = b' := by
  have hl : IsHierarchy heap0.ct [cWord, cPhone] := isHierarchy_of_check (by decide) (by decide) (by decide +kernel)
    (by decide +kernel) (by decide +kernel) (by decide +kernel)
  have gc : GoodClasses heap0.ct [[cWord, cPhone]] :=
    ⟨fun cs hc => by rw [List.mem_singleton.mp hc]; exact hl, by decide +kernel, by decide +kernel⟩
  have good : GoodTiers exGapped := by
    refine ⟨by decide +kernel, by decide +kernel, by decide +kernel, by decide +kernel, ?_⟩
    intro i t u h1 h2
    match i with
    | 0 => cases h1; cases h2; exact ⟨by decide +kernel, by decide +kernel, by decide +kernel, by decide +kernel⟩
  obtain ⟨tss'', l, c, q⟩ := C87_gaps_partial heap0 exGapped (.flat [cWord, cPhone]) [exGapped] [exGapped] [[cWord, cPhone]]
    .base heap0_tidy heap0_alloc rfl (by simp) rfl gc.even rfl (by
      intro i ts ts' h1 h2
      match i with
      | 0 => cases h1; cases h2; exact Or.inl ⟨good, rfl⟩) 1 4 (by
      unfold Reaches
      decide +kernel)
  refine ⟨tss'', l, fun ts' h => c 0 _ ts' rfl h, ?_⟩
  intro es b' hb
  obtain ⟨h', e, q, -⟩ := q es b' hb
  exact ⟨h', e, q⟩

-- filled and edited: a tier of syllables over the phones, and no more words
example : (match (do let a ← newAtg exGapped (.flat [cWord, cPhone]); Edit.runAll a [.interleave "Syllable" true "Phone" true true, .pop "Word"]; pure a : M ARef) heap0 with
      | .ok a h' => bookOf h' a
      | .err _ _ => []) =
    [[("Syllable", [(1, 2, "x"), (2, 3, ""), (3, 4, "y")]), ("Phone", [(1, 2, "x"), (2, 3, ""), (3, 4, "y")])]] := by
  decide +kernel

end ATG
