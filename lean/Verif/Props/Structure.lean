import Verif.Props.Neighbours
import Verif.Props.BothWays
import Verif.Lemmas.Stair
import Verif.Props.GroupCleanup
/-!
# C100: groups show their structure

`group.show_structure()` prints the names of the classes of a group, from the superset class of the first tier to the subset class of
the last, as written down by the tiers.
-/
namespace ATG

/-- **C100, for any group of intervals** with tiers: the structure shown is the stair of the names of the superset class that the
    first tier has written down, the classes of the tiers, and the subset class that the last tier has written down. -/
theorem C100_shows (h : Heap) (g : GRef) (p q : CRef) (gp : h.gpoint g = false)
    (hp : (h.gtiers g).head?.bind h.tsup = some p) (hq : (h.gtiers g).getLast?.bind h.tsub = some q) :
    showStructure h g = .ok (stair (h.ct.name p :: (h.gtiers g).map (fun t => h.ct.name (h.tcls t)) ++ [h.ct.name q])) :=
  showStructure_ok h g p q gp hp hq

/-- **C100, for every new group**, whatever its tiers: if the tiers know the neighbours of their classes, the group can show its structure,
    from the superset class of its first tier to the subset class of its last. -/
theorem C100_new (l : List TRef) (h h' : Heap) (g : GRef) (fr : TiersFresh h l) (e : newGroup l h = .ok g h') :
    ∃ p q, ((h'.gtiers g).map h'.tcls).head?.bind h'.ct.sup = some p ∧ ((h'.gtiers g).map h'.tcls).getLast?.bind h'.ct.sub = some q ∧
      showStructure h' g = .ok (stair (h'.ct.name p :: (h'.gtiers g).map (fun t => h'.ct.name (h'.tcls t)) ++ [h'.ct.name q])) := by
  unfold newGroup at e
  rw [M.bind_ok (show newGroupObj false h = .ok h.nG _ from rfl)] at e
  revert e
  generalize ek : ({ h with
      nG := h.nG + 1
      gtiers := upd h.gtiers h.nG []
      gcont := upd h.gcont h.nG none
      gpoint := upd h.gpoint h.nG false
      gwithin := upd h.gwithin h.nG none } : Heap) = k
  intro e
  have fk : TiersFresh k l := by rw [← ek]; exact fr
  have pk : k.gpoint h.nG = false := by rw [← ek]; exact upd_same _ _ _
  rw [M.bind_apply] at e
  cases e2 : groupInit h.nG l false k with
  | err x z => rw [e2] at e; cases e
  | ok u z =>
    rw [e2] at e
    cases e
    exact shows_init fk pk e2

/-- the same for a group that has been related again, as `group.append` and `tier.append` do -/
theorem C100_again (h h' : Heap) (g : GRef) (u : Unit) (gp : h.gpoint g = false) (fr : TiersFresh h (h.gtiers g))
    (e : reRelate g h = .ok u h') :
    ∃ p q, ((h'.gtiers g).map h'.tcls).head?.bind h'.ct.sup = some p ∧ ((h'.gtiers g).map h'.tcls).getLast?.bind h'.ct.sub = some q ∧
      showStructure h' g = .ok (stair (h'.ct.name p :: (h'.gtiers g).map (fun t => h'.ct.name (h'.tcls t)) ++ [h'.ct.name q])) := by
  unfold reRelate at e
  rw [show (M.get >>= _ : M Unit) h = _ from M.bind_ok (M.get_apply h), gp, if_neg (by simp)] at e
  exact shows_init fr gp e

/-- a case that meets the hypotheses: words and phones given from bottom to top -/
example : ∃ g h', newGroup [1, 0] exGapTiers = .ok g h' ∧ TiersFresh exGapTiers [1, 0] ∧
    showStructure h' g = .ok ["Top_wp(\n", "  Word(\n", "    Phone(\n", "      Bottom_wp(\n"] := by
  have e : (newGroup [1, 0] exGapTiers).out = .ok 0 := by decide +kernel
  have s : showStructure (newGroup [1, 0] exGapTiers).heap 0 =
    .ok ["Top_wp(\n", "  Word(\n", "    Phone(\n", "      Bottom_wp(\n"] := by decide +kernel
  refine ⟨0, (newGroup [1, 0] exGapTiers).heap, ?_, by unfold TiersFresh; decide +kernel, s⟩
  generalize newGroup [1, 0] exGapTiers = r at e
  cases r with
  | ok a k => cases e; rfl
  | err x k => cases e

/-- what should hold: after an import and any edits, each group with tiers shows the present neighbours of its classes -/
def C100_statement : Prop :=
  ∀ (h : Heap) (tiers : List PTier) (arg : ClassArg) (es : List Change) (h' : Heap), ReachC h.ct → Tidy h → Allocated h →
    (do let a ← newAtg tiers arg; Change.runAll a es; pure a : M ARef) h = .ok h.nA h' →
    ∀ g ∈ h'.agroups h.nA, h'.gpoint g = false → h'.gtiers g ≠ [] →
      ∃ p q, Descent h'.ct p ((h'.gtiers g).map h'.tcls) q ∧
        showStructure h' g = .ok (stair (h'.ct.name p :: (h'.gtiers g).map (fun t => h'.ct.name (h'.tcls t)) ++ [h'.ct.name q]))

/-- **C100, for any workable textgrid**, as imports and edits leave them: each group with tiers shows its classes in order, below the superset class
    of the first and above the subset class of the last. Each tier shows its class and its neighbours. -/
theorem C100_workable {h' : Heap} {a : ARef} (wk : WorkableFor RowLinks h' (h'.agroups a)) :
      ∀ (i : Nat) g pg, (h'.agroups a)[i]? = some g → (bookOf h' a)[i]? = some pg → pg ≠ [] →
        (∃ p q, Descent h'.ct p ((h'.gtiers g).map h'.tcls) q ∧
          showStructure h' g = .ok (stair (h'.ct.name p :: pg.map (·.1) ++ [h'.ct.name q]))) ∧
        ∀ t ∈ h'.gtiers g, ∃ p q, h'.ct.sup (h'.tcls t) = some p ∧ h'.ct.sub (h'.tcls t) = some q ∧
          tierRepr h' t = .ok ("Sequence tier of " ++ h'.ct.name (h'.tcls t) ++ "; .superset_class: " ++ h'.ct.name p ++
            "; .subset_class: " ++ h'.ct.name q) := by
  intro i g pg hg hpg ne
  have gm := List.mem_of_getElem? hg
  have page : pageOf h' g = pg := by
    unfold bookOf at hpg
    rw [List.getElem?_map, hg] at hpg
    exact Option.some.inj hpg
  have names : pg.map (·.1) = (h'.gtiers g).map (fun t => h'.ct.name (h'.tcls t)) := by
    rw [← page]
    unfold pageOf
    rw [List.map_map]
    rfl
  have tne : h'.gtiers g ≠ [] := by
    intro q
    refine ne ?_
    rw [← page]
    unfold pageOf
    rw [q]
    rfl
  have fr := (wk.homed g gm).fresh
  have l : ClassLinks h'.ct ((h'.gtiers g).map h'.tcls) := wk.rows _ (List.mem_map.mpr ⟨g, gm, rfl⟩)
  have both : ∀ t ∈ h'.gtiers g, (∃ p, h'.ct.sup (h'.tcls t) = some p) ∧ ∃ q, h'.ct.sub (h'.tcls t) = some q := by
    intro t ht
    obtain ⟨i, hi⟩ := List.mem_iff_getElem?.mp ht
    have hc : ((h'.gtiers g).map h'.tcls)[i]? = some (h'.tcls t) := by rw [List.getElem?_map, hi]; rfl
    have hl := getElem?_lt hc
    constructor
    · cases i with
      | zero =>
        obtain ⟨p, hp, -⟩ := l.top (h'.tcls t) hc
        exact ⟨p, hp⟩
      | succ i => exact ⟨_, (l.down i _ _ (List.getElem?_eq_getElem (by omega)) hc).2⟩
    · by_cases q : i + 1 < ((h'.gtiers g).map h'.tcls).length
      · exact ⟨_, (l.down i _ _ hc (List.getElem?_eq_getElem q)).1⟩
      · obtain ⟨p, hp, -⟩ := l.bottom (h'.tcls t) (by
          rw [show ((h'.gtiers g).map h'.tcls).length - 1 = i by omega]; exact hc)
        exact ⟨p, hp⟩
  constructor
  · obtain ⟨t1, h1⟩ : ∃ t, (h'.gtiers g).head? = some t := by
      cases q : h'.gtiers g with
      | nil => exact absurd q tne
      | cons t ts => exact ⟨t, rfl⟩
    obtain ⟨t2, h2⟩ : ∃ t, (h'.gtiers g).getLast? = some t := ⟨_, List.getLast?_eq_some_getLast tne⟩
    have m1 := List.mem_of_mem_head? (Option.mem_def.mpr h1)
    have m2 := List.mem_of_mem_getLast? (Option.mem_def.mpr h2)
    obtain ⟨p, hp⟩ := (both t1 m1).1
    obtain ⟨q, hq⟩ := (both t2 m2).2
    refine ⟨p, q, ⟨?_, ?_, l.down⟩, ?_⟩
    · rw [List.head?_map, h1]; exact hp
    · rw [List.getLast?_map, h2]; exact hq
    · rw [names]
      exact C100_shows h' g p q (wk.gpoint g gm) (by rw [h1]; exact (fr t1 m1).1.trans hp) (by rw [h2]; exact (fr t2 m2).2.trans hq)
  · intro t ht
    obtain ⟨⟨p, hp⟩, q, hq⟩ := both t ht
    refine ⟨p, q, hp, hq, ?_⟩
    unfold tierRepr
    rw [nameOfClass_ok ((fr t ht).1.trans hp), nameOfClass_ok ((fr t ht).2.trans hq)]
    rfl

/-- **C100, from the Praat textgrid on.** In a textgrid imported and edited as in C90, each group with tiers shows the classes of the edited
    data, in order, below the superset class of the first and above the subset class of the last, each the superset class of
    the next. Each tier shows its class and its neighbours.
    `_partial`: aligned covering tiers, and groups with a class in common have the same classes unless the edits keep the tiers; without
    the latter it is false (`C100_violated`). -/
theorem C100_import_partial (h : Heap) (tiers : List PTier) (arg : ClassArg) (tss : List (List PTier)) (css : List (List CRef))
    (hr : ReachC h.ct) (td : Tidy h) (ac : Allocated h) (hn : nestify h.ct tiers arg = .ok (tss, css)) (hne : tss ≠ [])
    (hlen : tss.map List.length = css.map List.length) (good : ∀ ts ∈ tss, GoodTiers ts) (es : List Change)
    (gc : Suits h.ct css es) (lo hi : Time) (cov : ∀ ts ∈ tss, Covering ts lo hi) (d' : Draft)
    (hd' : Change.actAll es (draftFrom tss (css.map (List.map h.ct.name))) = some d') :
    ∃ h', (do let a ← newAtg tiers arg; Change.runAll a es; pure a : M ARef) h = .ok h.nA h' ∧
      (h'.agroups h.nA).length = d'.length ∧
      ∀ (i : Nat) g pg, (h'.agroups h.nA)[i]? = some g → d'[i]? = some pg → pg.1 ≠ [] →
        (∃ p q, Descent h'.ct p ((h'.gtiers g).map h'.tcls) q ∧
          showStructure h' g = .ok (stair (h'.ct.name p :: pg.1.map (·.1) ++ [h'.ct.name q]))) ∧
        ∀ t ∈ h'.gtiers g, ∃ p q, h'.ct.sup (h'.tcls t) = some p ∧ h'.ct.sub (h'.tcls t) = some q ∧
          tierRepr h' t = .ok ("Sequence tier of " ++ h'.ct.name (h'.tcls t) ++ "; .superset_class: " ++ h'.ct.name p ++
            "; .subset_class: " ++ h'.ct.name q) := by
  obtain ⟨h', e, bk, wk, -⟩ := import_workable h tiers arg tss css hr td ac hn hne hlen good es gc lo hi cov d' hd'
  refine ⟨h', e, ?_, ?_⟩
  · simpa [bookOf] using congrArg List.length bk
  · intro i g pg hg hpg ne
    exact C100_workable wk i g pg.1 hg (by rw [bk, List.getElem?_map, hpg]; rfl) ne

/-- the same with first tiers fused leftwards too, as in C99 -/
theorem C100_both_partial (h : Heap) (tiers : List PTier) (arg : ClassArg) (tss : List (List PTier)) (css : List (List CRef))
    (hr : ReachC h.ct) (td : Tidy h) (ac : Allocated h) (hn : nestify h.ct tiers arg = .ok (tss, css)) (hne : tss ≠ [])
    (hlen : tss.map List.length = css.map List.length) (good : ∀ ts ∈ tss, GoodTiers ts) (es : List Change)
    (gc : Suits h.ct css es) (lo hi : Time) (cov : ∀ ts ∈ tss, Covering ts lo hi) (d' : Draft × Draft)
    (hd' : Change.actBothAll es (draftFrom tss (css.map (List.map h.ct.name)), draftFrom tss (css.map (List.map h.ct.name))) = some d') :
    ∃ h', (do let a ← newAtg tiers arg; Change.runAll a es; pure a : M ARef) h = .ok h.nA h' ∧
      (h'.agroups h.nA).length = d'.1.length ∧
      ∀ (i : Nat) g pg, (h'.agroups h.nA)[i]? = some g → d'.1[i]? = some pg → pg.1 ≠ [] →
        (∃ p q, Descent h'.ct p ((h'.gtiers g).map h'.tcls) q ∧
          showStructure h' g = .ok (stair (h'.ct.name p :: pg.1.map (·.1) ++ [h'.ct.name q]))) ∧
        ∀ t ∈ h'.gtiers g, ∃ p q, h'.ct.sup (h'.tcls t) = some p ∧ h'.ct.sub (h'.tcls t) = some q ∧
          tierRepr h' t = .ok ("Sequence tier of " ++ h'.ct.name (h'.tcls t) ++ "; .superset_class: " ++ h'.ct.name p ++
            "; .subset_class: " ++ h'.ct.name q) := by
  obtain ⟨h', e, bk, wk, -⟩ := import_workableBoth h tiers arg tss css hr td ac hn hne hlen good es gc lo hi cov d' hd'
  refine ⟨h', e, ?_, ?_⟩
  · simpa [bookOf] using congrArg List.length bk.1
  · intro i g pg hg hpg ne
    exact C100_workable wk i g pg.1 hg (by rw [bk.1, List.getElem?_map, hpg]; rfl) ne

/-- a case that meets the hypotheses: syllables interleaved, words popped, phrases interleaved, with fusing in between -/
example : ∃ h', (do let a ← newAtg exPraat (.flat [cWord, cPhone]); Change.runAll a exChanges; pure a : M ARef) heap0 = .ok 0 h' ∧
    (h'.agroups 0).length = exChanged.length := by
  obtain ⟨h', e, q, -⟩ := C100_import_partial heap0 exPraat (.flat [cWord, cPhone]) [exPraat.take 2, exPraat.drop 2]
    [[cWord, cPhone], [cWord, cPhone]] .base heap0_tidy heap0_alloc rfl (by simp) rfl exPraat_good exChanges
    (.of_good wordPhone_good) 0 4 exPraat_covering exChanged (by decide +kernel)
  exact ⟨h', e, q⟩

/-- another: phrases above the words, first tiers fused leftwards, no more phones -/
example : ∃ h', (do let a ← newAtg exPraat (.flat [cWord, cPhone]); Change.runAll a exLeftwards; pure a : M ARef) heap0 = .ok 0 h' ∧
    ∀ g, (h'.agroups 0)[0]? = some g → ∃ p q, Descent h'.ct p ((h'.gtiers g).map h'.tcls) q ∧
      showStructure h' g = .ok (stair [h'.ct.name p, "Phrase", "Word", h'.ct.name q]) := by
  obtain ⟨h', e, -, z⟩ := C100_both_partial heap0 exPraat (.flat [cWord, cPhone]) [exPraat.take 2, exPraat.drop 2]
    [[cWord, cPhone], [cWord, cPhone]] .base heap0_tidy heap0_alloc rfl (by simp) (by decide) exPraat_good
    exLeftwards (Suits.of_good wordPhone_good) 0 4 exPraat_covering
    (exLeftwardsDone.map fun p => (p, false), exLeftwardsDone.map fun p => (p, true)) (by decide +kernel)
  exact ⟨h', e, fun g hg => (z 0 g _ hg rfl (by simp)).1⟩

/-- what the first group of that textgrid shows -/
example :
    let h := run0 (do let a ← newAtg exPraat (.flat [cWord, cPhone]); Change.runAll a exChanges)
    (h.agroups 0).map (showStructure h) = [.ok ["Top_1(\n", "  Phrase(\n", "    Syllable(\n", "      Phone(\n", "        Bottom_1(\n"],
      .ok ["Top_1(\n", "  Phrase(\n", "    Syllable(\n", "      Phone(\n", "        Bottom_1(\n"]] := by
  decide +kernel

/-- Errors: a group whose first tier has no superset class, or whose last tier has no subset class, written down raises
    `AttributeError`, and so does a group of points; a group of intervals without tiers shows nothing. -/
theorem C100_errors (h : Heap) (g : GRef) :
    (h.gpoint g = true → showStructure h g = .error .attributeError) ∧
    (h.gpoint g = false → h.gtiers g = [] → showStructure h g = .ok []) ∧
    (h.gpoint g = false → h.gtiers g ≠ [] → (h.gtiers g).head?.bind h.tsup = none ∨ (h.gtiers g).getLast?.bind h.tsub = none →
      showStructure h g = .error .attributeError) := by
  refine ⟨fun q => ?_, fun q e => ?_, fun q ne o => ?_⟩
  · unfold showStructure; rw [q]; rfl
  · unfold showStructure; rw [q, e]; rfl
  · unfold showStructure
    rw [q, if_neg (by simp)]
    generalize h.gtiers g = ts at ne o
    by_cases f : ts.head?.bind h.tsup = none
    · cases ts with
      | nil => exact absurd rfl ne
      | cons t ts =>
        have f : h.tsup t = none := f
        unfold structureFrom
        rw [show lineAbove h 0 t = _ from if_pos rfl, f]
        rfl
    · have o := o.resolve_left f
      have key := structureFrom_error h ts 0 ne o
      rw [Nat.zero_add] at key
      exact key

/-- a case for each: a group of points, a group that has lost its tiers, a tier that has nothing written down, and a tier with only a superset
    class -/
example :
    showStructure (run0 (newPointsGroup [])) 0 = .error .attributeError ∧ showStructure heap0 0 = .ok [] ∧
    showStructure { heap0 with gtiers := fun _ => [0] } 0 = .error .attributeError ∧
    showStructure { heap0 with gtiers := fun _ => [0], tsup := fun _ => some cTop } 0 = .error .attributeError := by
  decide +kernel

/-! ## Where it fails -/

/-- **C100 is false**: words of one speaker, words and phones of the other, then syllables between words and phones. The first group
    shows phones below the words, the second group shows syllables below the same class of words. -/
theorem C100_violated :
    (exLopsided heap0).out = .ok 0 ∧
    (let h := run0 exLopsided
     h.agroups 0 = [0, 2] ∧ h.gpoint 0 = false ∧ h.gtiers 0 = [0] ∧ h.tcls 0 = h.tcls 1 ∧ h.gtiers 2 = [1, 3, 2] ∧
       showStructure h 0 = .ok ["Top_1(\n", "  Word(\n", "    Phone(\n"] ∧
       showStructure h 2 = .ok ["Top_1(\n", "  Word(\n", "    Syllable(\n", "      Phone(\n", "        Bottom_1(\n"] ∧
       (h.ct.sup (h.tcls 0)).map h.ct.name = some "Top_1" ∧ (h.ct.sub (h.tcls 0)).map h.ct.name = some "Syllable" ∧
       h.ct.name (h.tcls 0) = "Word") := by
  decide +kernel

theorem C100_statement_violated : ¬ C100_statement := by
  intro st
  have hv := C100_violated
  have e : exLopsided heap0 = .ok 0 (run0 exLopsided) := by
    have := hv.1
    unfold run0
    generalize exLopsided heap0 = r at this
    cases r with
    | ok a k => cases this; rfl
    | err x k => cases this
  obtain ⟨h1, hp, ht, -, -, hs, -, n1, n2, n3⟩ := hv.2
  have q := st heap0 (exWordTiers.take 1 ++ exPraat.take 2) (.nested [[cWord], [cWord, cPhone]])
    [.edit (.interleave "Syllable" true "Phone" true true)] (run0 exLopsided) .base heap0_tidy heap0_alloc
  have n : heap0.nA = 0 := rfl
  rw [n] at q
  generalize run0 exLopsided = K at e h1 hp ht hs n1 n2 n3 q
  unfold exLopsided at e
  obtain ⟨a, b, ⟨da, db, -⟩, sh⟩ := q e 0 (by rw [h1]; simp) hp (by rw [ht]; simp)
  rw [ht] at da db sh
  have da : K.ct.sup (K.tcls 0) = some a := da
  have db : K.ct.sub (K.tcls 0) = some b := db
  rw [da] at n1
  rw [db] at n2
  have n1 : K.ct.name a = "Top_1" := Option.some.inj n1
  have n2 : K.ct.name b = "Syllable" := Option.some.inj n2
  rw [hs] at sh
  simp only [List.map_cons, List.map_nil, n1, n2, n3] at sh
  revert sh
  decide +kernel

end ATG
