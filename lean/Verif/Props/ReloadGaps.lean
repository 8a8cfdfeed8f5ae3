import Verif.Props.Reload
import Verif.Props.BookGaps
/-!
# C91: exporting textgrids made from tiers with gaps, and reading them again

The blank intervals that fill the gaps at the end of an import have no precedence and no tier, so fusing goes wrong beside them
(`C90_gaps_violated`). After exporting and reading again nothing is left of this.
-/
namespace ATG

/-- words and phones with one gap between them -/
def exHole : List PTier :=
  [("w", [(1, 3, "ab"), (4, 5, "c")]), ("p", [(1, 2, "a"), (2, 3, "b"), (4, 5, "c")])]

/-- the data of the textgrid made from it -/
def exHoleData : Book :=
  [[("Word", [(1, 3, "ab"), (3, 4, ""), (4, 5, "c")]), ("Phone", [(1, 2, "a"), (2, 3, "b"), (3, 4, ""), (4, 5, "c")])]]

/-- C90 does not hold for tiers with gaps. Making the textgrid fills the gap with blank intervals. Then fusing the first word with the following
    one passes over the blank word, which stays where it was, inside the fused word. A blank word cannot be fused at all. -/
theorem C90_gaps_violated :
    let a := (newAtg exHole (.flat [cWord, cPhone]) heap0).out
    let h := (newAtg exHole (.flat [cWord, cPhone]) heap0).heap
    a = .ok 0 ∧ bookOf h 0 = exHoleData ∧
      (Change.act (.touch (.fuse (· ++ ·) 0 0 0)) (exHoleData.map fun p => (p, true))).isSome ∧
      (fuseAt (· ++ ·) 0 0 0 0 h).out = .ok () ∧
      bookOf (fuseAt (· ++ ·) 0 0 0 0 h).heap 0 =
        [[("Word", [(1, 5, "abc"), (3, 4, "")]), ("Phone", [(1, 2, "a"), (2, 3, "b"), (3, 4, ""), (4, 5, "c")])]] ∧
      (Change.act (.touch (.fuse (· ++ ·) 0 0 1)) (exHoleData.map fun p => (p, true))).isSome ∧
      (fuseAt (· ++ ·) 0 0 0 1 h).out ≠ .ok () := by
  decide +kernel

theorem gapsOf_bounds {S : List (Time × Time)} (l : Laid S) {g : Time × Time} (hg : g ∈ gapsOf S) :
    (∃ p ∈ S, p.1 < g.1) ∧ g.1 < g.2 ∧ ∃ p ∈ S, g.2 < p.2 := by
  match S with
  | [] => cases hg
  | [_] => cases hg
  | p :: q :: r =>
    have l' : Laid (q :: r) := ⟨fun p hp => l.1 p (List.mem_cons_of_mem _ hp), (List.pairwise_cons.mp l.2).2⟩
    have ih : g ∈ gapsOf (q :: r) → _ := gapsOf_bounds l'
    have up : ((∃ p ∈ q :: r, p.1 < g.1) ∧ g.1 < g.2 ∧ ∃ p ∈ q :: r, g.2 < p.2) →
        (∃ x ∈ p :: q :: r, x.1 < g.1) ∧ g.1 < g.2 ∧ ∃ x ∈ p :: q :: r, g.2 < x.2 :=
      fun ⟨⟨x, hx, e⟩, m, y, hy, e'⟩ => ⟨⟨x, List.mem_cons_of_mem _ hx, e⟩, m, y, List.mem_cons_of_mem _ hy, e'⟩
    unfold gapsOf at hg
    split at hg
    · exact up (ih hg)
    · rename_i hne
      rcases List.mem_cons.mp hg with rfl | hg
      · have h1 := l.1 p List.mem_cons_self
        have h2 := l.1 q (List.mem_cons_of_mem _ List.mem_cons_self)
        have h3 := (List.pairwise_cons.mp l.2).1 q List.mem_cons_self
        exact ⟨⟨p, List.mem_cons_self, h1⟩, (by dsimp only at *; grind), q, List.mem_cons_of_mem _ List.mem_cons_self, h2⟩
      · exact up (ih hg)
termination_by S.length

/-- filled rows go from the first to the last boundary without gaps -/
theorem FilledRows.seamless {raw raw' : List Span3} {lo hi : Time} (f : FilledRows raw raw') (l : Laid (rawSpans raw))
    (h1 : (∃ p ∈ raw, p.1 = lo) ∧ ∀ p ∈ raw, lo ≤ p.1) (h2 : (∃ p ∈ raw, p.2.1 = hi) ∧ ∀ p ∈ raw, p.2.1 ≤ hi) :
    raw' ≠ [] ∧ Seamless lo raw' hi := by
  have key : ∀ p ∈ raw', lo ≤ p.1 ∧ p.2.1 ≤ hi := by
    intro p hp
    rcases List.mem_append.mp (f.perm.mem_iff.mp hp) with hp | hp
    · exact ⟨h1.2 p hp, h2.2 p hp⟩
    · obtain ⟨g, hg, rfl⟩ := List.mem_map.mp hp
      obtain ⟨⟨x, hx, e1⟩, -, y, hy, e2⟩ := gapsOf_bounds l hg
      obtain ⟨x', hx', rfl⟩ := List.mem_map.mp hx
      obtain ⟨y', hy', rfl⟩ := List.mem_map.mp hy
      have a1 := h1.2 x' hx'
      have a2 := h2.2 y' hy'
      dsimp only at *
      constructor <;> grind
  obtain ⟨⟨p, hp, e1⟩, -⟩ := h1
  obtain ⟨⟨q, hq, e2⟩, -⟩ := h2
  have hp' := f.kept.subset hp
  exact ⟨List.ne_nil_of_mem hp', seamless_of f.touching f.laid ⟨⟨p, hp', e1⟩, fun p hp => (key p hp).1⟩
    ⟨⟨q, f.kept.subset hq, e2⟩, fun p hp => (key p hp).2⟩⟩

/-- if numpy notices all gaps, the completed tiers go from the first to the last boundary without gaps -/
theorem Completed.seamless {ts ts' : List PTier} {lo hi : Time} (c : Completed ts ts') (good : GoodTiers ts) (re : Reaches ts lo hi)
    (real : ∀ t ∈ ts, ∀ p ∈ gapsOf (rawSpans t.2), RealGap p) : ∀ t ∈ ts', t.2 ≠ [] ∧ Seamless lo t.2 hi := by
  intro t' ht'
  by_cases hg : ∃ t ∈ ts, ∃ p ∈ gapsOf (rawSpans t.2), RealGap p
  · obtain ⟨i, hi'⟩ := List.mem_iff_getElem?.mp ht'
    have hl : ts'.length = ts.length := by simpa using congrArg List.length c.names
    have hi := List.getElem?_eq_getElem (l := ts) (i := i) (by have := getElem?_lt hi'; omega)
    have hm := List.mem_of_getElem? hi
    exact (c.filled hg i _ t' hi hi').seamless (good.laid _ hm) (re _ hm).1 (re _ hm).2
  · have e : ts' = ts := c.same fun t ht p hp hr => hg ⟨t, ht, p, hp, hr⟩
    subst e
    have g0 : gapsOf (rawSpans t'.2) = [] := by
      cases hq : gapsOf (rawSpans t'.2) with
      | nil => rfl
      | cons p l => exact absurd ⟨t', ht', p, by rw [hq]; simp, real t' ht' p (by rw [hq]; simp)⟩ hg
    exact ⟨good.ne t' ht', seamless_of g0 (good.laid t' ht') (re t' ht').1 (re t' ht').2⟩

/-- an edit of the plain data is an edit of the data with any marks -/
theorem Edit.act_draft {e : Edit} {d : Draft} {b' : Book} (h : e.act (d.map (·.1)) = some b') :
    ∃ d', Change.act (.edit e) d = some d' ∧ d'.map (·.1) = b' := by
  cases e with
  | interleave name above cname fromBelow labels =>
    change Book.interleave _ _ _ _ _ _ = _ at h
    show ∃ d', d.interleave name above cname fromBelow labels = some d' ∧ _
    unfold Book.interleave at h
    split at h
    case isFalse => cases h
    rename_i c
    unfold Draft.interleave
    rw [if_pos (by
      obtain ⟨c1, c2, c3, ⟨p, hp, c4⟩, c5⟩ := c
      obtain ⟨q, hq, rfl⟩ := List.mem_map.mp hp
      exact ⟨c1, c2, c3, ⟨q, hq, c4⟩, fun q hq => c5 q.1 (List.mem_map_of_mem hq)⟩)]
    clear c
    induction d generalizing b' with
    | nil => exact ⟨[], rfl, by simpa using h.symm⟩
    | cons q d ih =>
      rw [List.map_cons, List.mapM_cons] at h
      obtain ⟨p, hp, h⟩ := Option.bind_eq_some_iff.mp h
      obtain ⟨b2, hb, h⟩ := Option.bind_eq_some_iff.mp h
      cases h
      obtain ⟨d2, e1, e2⟩ := ih hb
      refine ⟨(p, q.2 || above && decide ((q.1.map (·.1)).head? = some cname)) :: d2, ?_, ?_⟩
      · rw [List.mapM_cons, e1, hp]
        rfl
      · rw [List.map_cons, e2]
  | pop name =>
    refine ⟨_, rfl, ?_⟩
    cases h
    unfold Draft.pop Book.pop
    simp only [List.forall_mem_map]
    split
    · rfl
    · rw [List.map_map, List.filter_map, List.map_map]
      rfl
  | shift t =>
    refine ⟨_, rfl, ?_⟩
    cases h
    unfold Draft.shift Book.shift
    rw [List.map_map, List.map_map]
    rfl

theorem Edit.actAll_draft : ∀ {es : List Edit} {d : Draft} {b' : Book}, Edit.actAll es (d.map (·.1)) = some b' →
    ∃ d', Change.actAll (es.map .edit) d = some d' ∧ d'.map (·.1) = b'
  | [], d, b', h => ⟨d, rfl, by cases h; rfl⟩
  | e :: es, d, b', h => by
    obtain ⟨b1, h1, h2⟩ := Option.bind_eq_some_iff.mp h
    obtain ⟨d1, e1, rfl⟩ := Edit.act_draft h1
    obtain ⟨d2, e2, e3⟩ := Edit.actAll_draft h2
    exact ⟨d2, Option.bind_eq_some_iff.mpr ⟨d1, e1, e2⟩, e3⟩

/-- **C91, from tiers with gaps or unmatched boundaries.** Import and edits of the tiers as in `C87_gaps_partial`, where numpy notices all gaps.
    The textgrid is then exported, and read again with classes that have the names of its classes. The new textgrid has
    exactly the data of the edited one, and can be edited like any imported textgrid: its intervals can be fused too, which before was not so
    (`C90_gaps_violated`).
    `_partial`, as C87 and C90 are. -/
theorem C91_gaps_partial (h : Heap) (tiers : List PTier) (arg : ClassArg) (tss tss' : List (List PTier)) (css : List (List CRef))
    (hr : ReachC h.ct) (td : Tidy h) (ac : Allocated h) (hn : nestify h.ct tiers arg = .ok (tss, css)) (hne : tss ≠ [])
    (hlen : tss.map List.length = css.map List.length) (ev : EvenClasses h.ct css) (hl : tss'.length = tss.length)
    (rec : ∀ (i : Nat) ts ts', tss[i]? = some ts → tss'[i]? = some ts' → Reconciled ts ts')
    (lo hi : Time) (cov : ∀ ts ∈ tss, Reaches ts lo hi)
    (real : ∀ ts ∈ tss', ∀ t ∈ ts, ∀ p ∈ gapsOf (rawSpans t.2), RealGap p) :
    ∃ tss'', tss''.length = tss'.length ∧
      (∀ (i : Nat) ts ts', tss'[i]? = some ts → tss''[i]? = some ts' → Completed ts ts') ∧
      ∀ (es : List Edit) (b' : Book), Edit.actAll es (bookFrom tss'' (css.map (List.map h.ct.name))) = some b' →
        ∃ h', (do let a ← newAtg tiers arg; Edit.runAll a es; pure a : M ARef) h = .ok h.nA h' ∧ bookOf h' h.nA = b' ∧
          ∀ (k : Heap) (css' : List (List CRef)), ReachC k.ct → Tidy k → Allocated k →
            css'.map (List.map k.ct.name) = b'.map (List.map (·.1)) →
            ∀ (es' : List Change) (d2 : Draft), Suits k.ct css' es' → Change.actAll es' (b'.map fun p => (p, true)) = some d2 →
            ∃ k', (do let a ← newAtg (returnTextgrid h' h.nA) (.nested css')
                      Change.runAll a es'
                      pure a : M ARef) k = .ok k.nA k' ∧
              bookOf k' k.nA = d2.map (·.1) ∧
              (∀ g ∈ k'.agroups k.nA, RelatedByContainment k' (k'.gtiers g) ∧ FitGroup k' (k'.gtiers g)) ∧
              Separate k' (k'.agroups k.nA) := by
  obtain ⟨tss'', l, c, all⟩ := C87_gaps_partial h tiers arg tss tss' css hr td ac hn hne hlen ev hl rec lo hi cov
  obtain ⟨-, -, -, good⟩ := C89_import_partial h tiers arg tss tss' css hr td ac hn hne hlen ev.1 hl rec
  refine ⟨tss'', l, c, ?_⟩
  intro es b' hb
  obtain ⟨h', e, q, r, -⟩ := all es b' hb
  refine ⟨h', e, q, ?_⟩
  have hs : ∀ ts ∈ tss'', ∀ t ∈ ts, t.2 ≠ [] ∧ Seamless lo t.2 hi := by
    intro ts'' hts
    obtain ⟨i, hi2⟩ := List.mem_iff_getElem?.mp hts
    have hi1 := List.getElem?_eq_getElem (l := tss') (i := i) (by have := getElem?_lt hi2; omega)
    have hi0 := List.getElem?_eq_getElem (l := tss) (i := i) (by have := getElem?_lt hi2; omega)
    have hm := List.mem_of_getElem? hi1
    exact (c i _ _ hi1 hi2).seamless (good _ hm) ((rec i _ _ hi0 hi1).reaches (cov _ (List.mem_of_getElem? hi0))) (real _ hm)
  let d0 : Draft := (bookFrom tss'' (css.map (List.map h.ct.name))).map fun p => (p, false)
  have hd0 : d0.map (·.1) = bookFrom tss'' (css.map (List.map h.ct.name)) := by
    simp only [d0, List.map_map]
    exact List.map_id _
  have s0 : d0.Spans lo hi := by
    intro q hq u hu
    obtain ⟨p, hp, rfl⟩ := List.mem_map.mp hq
    obtain ⟨⟨ts, ns⟩, hz, rfl⟩ := List.mem_map.mp hp
    have hu' := (List.of_mem_zip (a := u.1) (b := u.2) hu).2
    obtain ⟨t, ht, e⟩ := List.mem_map.mp hu'
    rw [← e]
    exact hs ts (List.of_mem_zip hz).1 t ht
  have hl2 : tss.length = css.length := by simpa using congrArg List.length hlen
  have hne0 : d0 ≠ [] := by
    intro e
    have := congrArg List.length e
    simp only [d0, bookFrom, List.length_map, List.length_zip, List.length_nil] at this
    have : tss.length = 0 := by omega
    exact hne (List.length_eq_zero_iff.mp this)
  rw [← hd0] at hb
  obtain ⟨d', ed, rfl⟩ := Edit.actAll_draft hb
  obtain ⟨⟨lo', hi', s⟩, hne'⟩ := Change.actAll_spans _ s0 hne0 ed
  obtain ⟨tss3, e1, hts, e2, g1, g2⟩ := exports_good q (fun g hg => (r g hg).2) (fun p hp => by
    obtain ⟨q', hq', rfl⟩ := List.mem_map.mp hp
    exact s q' hq') (by simpa using hne')
  intro k css' hr' td' ac' hnm es' d2 gc' hd2
  rw [e1]
  exact reload_edit hts e2 g1 g2 k css' hr' td' ac' es' gc' hnm d2 hd2

example : ∃ tss'' : List (List PTier), tss''.length = 1 ∧ (∀ ts', tss''[0]? = some ts' → Completed exHole ts') ∧
    ∀ (es : List Edit) (b' : Book), Edit.actAll es (bookFrom tss'' [["Word", "Phone"]]) = some b' →
      ∃ h', (do let a ← newAtg exHole (.flat [cWord, cPhone]); Edit.runAll a es; pure a : M ARef) heap0 = .ok 0 h' ∧
        bookOf h' 0 = b' := by
  have hl : IsHierarchy heap0.ct [cWord, cPhone] := isHierarchy_of_check (by decide) (by decide) (by decide +kernel)
    (by decide +kernel) (by decide +kernel) (by decide +kernel)
  have gc : GoodClasses heap0.ct [[cWord, cPhone]] :=
    ⟨fun cs hc => by rw [List.mem_singleton.mp hc]; exact hl, by decide +kernel, by decide +kernel⟩
  have good : GoodTiers exHole := by
    refine ⟨by decide +kernel, by decide +kernel, by decide +kernel, by decide +kernel, ?_⟩
    intro i t u h1 h2
    match i with
    | 0 => cases h1; cases h2; exact ⟨by decide +kernel, by decide +kernel, by decide +kernel, by decide +kernel⟩
  obtain ⟨tss'', l, c, q⟩ := C91_gaps_partial heap0 exHole (.flat [cWord, cPhone]) [exHole] [exHole] [[cWord, cPhone]]
    .base heap0_tidy heap0_alloc rfl (by simp) rfl gc.even rfl (by
      intro i ts ts' h1 h2
      match i with
      | 0 => cases h1; cases h2; exact Or.inl ⟨good, rfl⟩) 1 5 (by
      unfold Reaches
      decide +kernel) (by
      unfold RealGap
      decide +kernel)
  refine ⟨tss'', l, fun ts' h => c 0 _ ts' rfl h, ?_⟩
  intro es b' hb
  obtain ⟨h', e, q, -⟩ := q es b' hb
  exact ⟨h', e, q⟩

-- filled, exported and read again, the words can be fused with the blank between them
example :
    let h := (newAtg exHole (.flat [cWord, cPhone]) heap0).heap
    let k := (do let a ← newAtg (returnTextgrid h 0) (.nested [[cWord, cPhone]])
                 Change.runAll a [.touch (.fuse (· ++ ·) 0 0 0), .touch (.fuse (· ++ ·) 0 0 0), .touch (.fuseLeft (· ++ ·) 0 1 2)]
                 pure a : M ARef) heap0
    bookOf h 0 = exHoleData ∧ k.out = .ok 0 ∧
      bookOf k.heap 0 = [[("Word", [(1, 5, "abc")]), ("Phone", [(1, 2, "a"), (2, 4, "b"), (4, 5, "c")])]] := by
  decide +kernel

end ATG
