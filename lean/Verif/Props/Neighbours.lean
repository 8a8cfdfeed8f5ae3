import Verif.Props.Reload
import Verif.Model.Compose
/-!
# C98: tiers know the neighbours of their class

A tier writes down the superset and the subset class of its class when it is made. The tiers of a group are arranged by what
is written down, and it decides which tiers can be appended to the group.
-/
namespace ATG

/-- what should hold: after an import and any edits, what each tier has written down are the neighbours of its class -/
def C98_statement : Prop :=
  ∀ (h : Heap) (tiers : List PTier) (arg : ClassArg) (es : List Change) (h' : Heap), ReachC h.ct → Tidy h → Allocated h →
    (do let a ← newAtg tiers arg; Change.runAll a es; pure a : M ARef) h = .ok h.nA h' →
    ∀ g ∈ h'.agroups h.nA, TiersFresh h' (h'.gtiers g)

/-- **C98.** In a textgrid imported and edited as in C90, the superset and subset class that each tier has written down are those
    of its class at the end.
    `_partial`: aligned covering tiers, and groups with a class in common have the same classes unless the edits keep the tiers; without
    the latter it is false (`C98_violated`). -/
theorem C98_import_partial (h : Heap) (tiers : List PTier) (arg : ClassArg) (tss : List (List PTier)) (css : List (List CRef))
    (hr : ReachC h.ct) (td : Tidy h) (ac : Allocated h) (hn : nestify h.ct tiers arg = .ok (tss, css)) (hne : tss ≠ [])
    (hlen : tss.map List.length = css.map List.length) (good : ∀ ts ∈ tss, GoodTiers ts) (es : List Change)
    (gc : Suits h.ct css es) (lo hi : Time) (cov : ∀ ts ∈ tss, Covering ts lo hi) (d' : Draft)
    (hd' : Change.actAll es (draftFrom tss (css.map (List.map h.ct.name))) = some d') :
    ∃ h', (do let a ← newAtg tiers arg; Change.runAll a es; pure a : M ARef) h = .ok h.nA h' ∧
      ∀ g ∈ h'.agroups h.nA, TiersFresh h' (h'.gtiers g) ∧
        ∀ (i : Nat) t t', (h'.gtiers g)[i]? = some t → (h'.gtiers g)[i + 1]? = some t' →
          h'.tsub t = some (h'.tcls t') ∧ h'.tsup t' = some (h'.tcls t) := by
  obtain ⟨h', e, -, wk, -⟩ := import_workable h tiers arg tss css hr td ac hn hne hlen good es gc lo hi cov d' hd'
  refine ⟨h', e, fun g hg => ⟨(wk.homed g hg).fresh, ?_⟩⟩
  intro i t t' q1 q2
  have l := (wk.rows _ (List.mem_map.mpr ⟨g, hg, rfl⟩)).down i (h'.tcls t) (h'.tcls t') (by rw [List.getElem?_map, q1]; rfl)
    (by rw [List.getElem?_map, q2]; rfl)
  have fr := (wk.homed g hg).fresh
  exact ⟨(fr t (List.mem_of_getElem? q1)).2.trans l.1, (fr t' (List.mem_of_getElem? q2)).1.trans l.2⟩

/-- a case that meets the hypotheses: syllables interleaved, words popped, phrases interleaved, with fusing in between -/
example : ∃ h', (do let a ← newAtg exPraat (.flat [cWord, cPhone]); Change.runAll a exChanges; pure a : M ARef) heap0 = .ok 0 h' ∧
    ∀ g ∈ h'.agroups 0, TiersFresh h' (h'.gtiers g) := by
  obtain ⟨h', e, q⟩ := C98_import_partial heap0 exPraat (.flat [cWord, cPhone]) [exPraat.take 2, exPraat.drop 2]
    [[cWord, cPhone], [cWord, cPhone]] .base heap0_tidy heap0_alloc rfl (by simp) rfl exPraat_good exChanges
    (.of_good wordPhone_good) 0 4 exPraat_covering exChanged (by decide +kernel)
  exact ⟨h', e, fun g hg => (q g hg).1⟩

/-- the class `c` belongs next to a class of the group, and the group has no such class yet -/
def Missing (h : Heap) (g : GRef) (c : CRef) : Prop :=
  (∀ t ∈ h.gtiers g, h.ct.isSub (h.tcls t) c = false ∧ h.ct.isSub c (h.tcls t) = false) ∧
  ∃ t ∈ h.gtiers g, ∃ d, (h.ct.sub (h.tcls t) = some d ∨ h.ct.sup (h.tcls t) = some d) ∧
    (h.ct.isSub d c = true ∨ h.ct.isSub c d = true)

/-- **C98, what it is good for**: in a group of linked classes whose tiers know the neighbours of their classes, the tests of
    `group.append(tier)` let in exactly the tiers whose class is missing next to a class of the group. -/
theorem C98_fits (h : Heap) (g : GRef) (c : CRef) (ne : h.gtiers g ≠ []) (hp : h.gpoint g = false)
    (fr : TiersFresh h (h.gtiers g)) (l : ClassLinks h.ct ((h.gtiers g).map h.tcls)) :
    groupFits h g c = .ok () ↔ Missing h g c := by
  have some2 : ∀ t ∈ h.gtiers g, (∃ d, h.tsub t = some d) ∧ ∃ d, h.tsup t = some d := by
    intro t ht
    obtain ⟨i, hi⟩ := List.mem_iff_getElem?.mp ht
    have hc : ((h.gtiers g).map h.tcls)[i]? = some (h.tcls t) := by rw [List.getElem?_map, hi]; rfl
    have hl := getElem?_lt hc
    rw [(fr t ht).1, (fr t ht).2]
    constructor
    · by_cases q : i + 1 < ((h.gtiers g).map h.tcls).length
      · exact ⟨_, (l.down i _ _ hc (List.getElem?_eq_getElem q)).1⟩
      · obtain ⟨p, hp, -⟩ := l.bottom (h.tcls t) (by
          rw [show ((h.gtiers g).map h.tcls).length - 1 = i by omega]; exact hc)
        exact ⟨p, hp⟩
    · cases i with
      | zero =>
        obtain ⟨p, hp, -⟩ := l.top (h.tcls t) hc
        exact ⟨p, hp⟩
      | succ i => exact ⟨_, (l.down i _ _ (List.getElem?_eq_getElem (by omega)) hc).2⟩
  have hno : ((h.gtiers g).flatMap fun t => [h.tsub t, h.tsup t]).any Option.isNone = false := by
    rw [List.any_eq_false]
    intro o ho
    obtain ⟨t, ht, q⟩ := List.mem_flatMap.mp ho
    obtain ⟨⟨d, hd⟩, d', hd'⟩ := some2 t ht
    rcases mem_two q with rfl | rfl
    · rw [hd]; simp
    · rw [hd']; simp
  have hne : (h.gtiers g).isEmpty = false := by simpa using ne
  unfold groupFits Missing
  simp only [hp, hne, hno, Bool.or_self, Bool.false_eq_true, if_false]
  by_cases hex : ((h.gtiers g).map h.tcls).any (fun d => related2 h.ct d c) = true
  · rw [if_pos hex]
    refine ⟨fun q => (by cases q), fun q => ?_⟩
    obtain ⟨d, hd, hr⟩ := List.any_eq_true.mp hex
    obtain ⟨t, ht, rfl⟩ := List.mem_map.mp hd
    have := q.1 t ht
    unfold related2 at hr
    rw [this.1, this.2] at hr
    cases hr
  · rw [if_neg hex]
    have h1 : ∀ t ∈ h.gtiers g, h.ct.isSub (h.tcls t) c = false ∧ h.ct.isSub c (h.tcls t) = false := by
      intro t ht
      have := List.any_eq_false.mp (Bool.eq_false_iff.mpr hex) (h.tcls t) (List.mem_map.mpr ⟨t, ht, rfl⟩)
      unfold related2 at this
      simpa using this
    split
    · rename_i hany
      refine ⟨fun _ => ⟨h1, ?_⟩, fun _ => rfl⟩
      obtain ⟨o, ho, hr⟩ := List.any_eq_true.mp hany
      obtain ⟨t, ht, q⟩ := List.mem_flatMap.mp ho
      cases o with
      | none => cases hr
      | some d =>
        refine ⟨t, ht, d, ?_, ?_⟩
        · rcases mem_two q with e | e
          · exact Or.inl ((fr t ht).2.symm.trans e.symm)
          · exact Or.inr ((fr t ht).1.symm.trans e.symm)
        · have hr' : related2 h.ct d c = true := hr
          unfold related2 at hr'
          simpa using hr'
    · rename_i hany
      refine ⟨fun q => (by cases q), fun q => ?_⟩
      obtain ⟨-, t, ht, d, hd, hr⟩ := q
      refine absurd (List.any_eq_true.mpr ⟨some d, List.mem_flatMap.mpr ⟨t, ht, ?_⟩, ?_⟩) hany
      · rcases hd with e | e
        · rw [(fr t ht).2, e]; simp
        · rw [(fr t ht).1, e]; simp
      · show related2 h.ct d c = true
        unfold related2
        simpa using hr

/-- C98, in a textgrid imported and edited as in C90: `group.append(tier)` lets in exactly the tiers whose class is missing. `_partial` as
    `C98_import_partial` is; for other lists of classes it is false (`C98_append_violated`). -/
theorem C98_append_partial (h : Heap) (tiers : List PTier) (arg : ClassArg) (tss : List (List PTier)) (css : List (List CRef))
    (hr : ReachC h.ct) (td : Tidy h) (ac : Allocated h) (hn : nestify h.ct tiers arg = .ok (tss, css)) (hne : tss ≠ [])
    (hlen : tss.map List.length = css.map List.length) (good : ∀ ts ∈ tss, GoodTiers ts) (es : List Change)
    (gc : Suits h.ct css es) (lo hi : Time) (cov : ∀ ts ∈ tss, Covering ts lo hi) (d' : Draft)
    (hd' : Change.actAll es (draftFrom tss (css.map (List.map h.ct.name))) = some d') :
    ∃ h', (do let a ← newAtg tiers arg; Change.runAll a es; pure a : M ARef) h = .ok h.nA h' ∧
      ∀ g ∈ h'.agroups h.nA, h'.gtiers g ≠ [] → ∀ c, groupFits h' g c = .ok () ↔ Missing h' g c := by
  obtain ⟨h', e, -, wk, -⟩ := import_workable h tiers arg tss css hr td ac hn hne hlen good es gc lo hi cov d' hd'
  exact ⟨h', e, fun g hg q c => C98_fits h' g c q (wk.gpoint g hg) (wk.homed g hg).fresh
    (wk.rows _ (List.mem_map.mpr ⟨g, hg, rfl⟩))⟩

/-- a case that meets the hypotheses: words of two speakers, segments put below them, words fused, words popped and phrases put above the
    segments -/
example : ∃ h', (do let a ← newAtg exWordTiers (.flat [cWord]); Change.runAll a exWordChanges; pure a : M ARef) heap0 = .ok 0 h' ∧
    ∀ g ∈ h'.agroups 0, h'.gtiers g ≠ [] → ∀ c, groupFits h' g c = .ok () ↔ Missing h' g c :=
  C98_append_partial heap0 exWordTiers (.flat [cWord]) [exWordTiers.take 1, exWordTiers.drop 1]
    [[cWord], [cWord]] .base heap0_tidy heap0_alloc rfl (by simp) (by decide) (by
      intro ts hts
      rcases mem_two hts with rfl | rfl <;>
        exact ⟨by decide +kernel, by decide +kernel, by decide +kernel, by decide +kernel, fun i t u _ h2 => by cases h2⟩)
    exWordChanges ⟨two_topClasses (by decide) (by decide), Or.inl (by unfold AlikeClasses; decide)⟩ 0 4 (by
      intro ts hts
      rcases mem_two hts with rfl | rfl <;> (unfold Covering; decide +kernel)) exWordChanged (by decide +kernel)

/-- in that textgrid the phones `11` fit into both groups, and the words `9` do not -/
example :
    let h := run0 (do let a ← newAtg exWordTiers (.flat [cWord]); Change.runAll a exWordChanges)
    h.agroups 0 ≠ [] ∧ (∀ g ∈ h.agroups 0, (groupFits h g 11).toBool = true ∧ (groupFits h g 9).toBool = false) ∧
      h.ct.name 11 = "Phone" ∧ h.ct.name 9 = "Word" := by
  decide +kernel

/-! ## Where it fails -/

/-- words of one speaker, words and phones of the other; then syllables between words and phones -/
def exLopsided : M ARef := do
  let a ← newAtg (exWordTiers.take 1 ++ exPraat.take 2) (.nested [[cWord], [cWord, cPhone]])
  Change.runAll a [.edit (.interleave "Syllable" true "Phone" true true)]
  pure a

/-- **C98 is false**: the group without phones is left alone, and its words still have the phones written down as their subset
    class, which is the class of syllables by now. -/
theorem C98_violated :
    (exLopsided heap0).out = .ok 0 ∧
    (let h := run0 exLopsided
     h.agroups 0 = [0, 2] ∧ h.gtiers 0 = [0] ∧ h.gtiers 2 = [1, 3, 2] ∧ h.tcls 0 = h.tcls 1 ∧
       h.tsub 0 = some (h.tcls 2) ∧ h.ct.sub (h.tcls 0) = some (h.tcls 3) ∧ ¬ TiersFresh h (h.gtiers 0)) := by
  refine ⟨by decide +kernel, ?_⟩
  unfold TiersFresh
  decide +kernel

theorem C98_statement_violated : ¬ C98_statement := by
  intro st
  have hv := C98_violated
  have e : exLopsided heap0 = .ok 0 (run0 exLopsided) := by
    have := hv.1
    unfold run0
    generalize exLopsided heap0 = r at this
    cases r with
    | ok a k => cases this; rfl
    | err x k => cases this
  obtain ⟨h1, -, -, -, -, -, h2⟩ := hv.2
  have q := st heap0 (exWordTiers.take 1 ++ exPraat.take 2) (.nested [[cWord], [cWord, cPhone]])
    [.edit (.interleave "Syllable" true "Phone" true true)] (run0 exLopsided) .base heap0_tidy heap0_alloc
  have n : heap0.nA = 0 := rfl
  rw [n] at q
  generalize run0 exLopsided = K at e h1 h2 q
  unfold exLopsided at e
  exact h2 (q e 0 (by rw [h1]; simp))

/-- a new tier of the class of tier `n` of the second group, appended to the first group -/
def exLater (n : TRef) : M Unit := do
  let _ ← exLopsided
  let h ← M.get
  let t ← newTierFrom [(0, 1, "s"), (1, 3, "r"), (3, 4, "t")] (h.tcls n) "new"
  groupAppend 0 t []

/-- What this leads to: the group of words cannot get a tier of syllables, which belong right below the words (`ValueError`). A tier of phones
    is let in, and then relating it to the words raises an exception; the group has both tiers, and no phone has a superset. -/
theorem C98_append_violated :
    (exLater 3 heap0).out = .error .valueError ∧
    (exLater 2 heap0).out = .error .exc ∧
    (let h := run0 (exLater 2)
     h.gtiers 0 = [0, 4] ∧ (h.tseq 4).vals = [14, 15, 16] ∧ (h.tseq 4).vals.map h.sup = [none, none, none]) := by
  decide +kernel

end ATG
