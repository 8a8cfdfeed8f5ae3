import Verif.Lemmas.Reload
import Verif.Props.Touch
import Verif.Props.Names
import Verif.Lemmas.CustomReach
import Verif.Lemmas.StemAppend
/-!
# C91: exporting an edited textgrid and reading it again

`return_textgrid` of an edited textgrid gives a Praat textgrid that can be imported again, in another session or with other classes, and
the new textgrid has the data of the edited one.
-/
namespace ATG

theorem Holds.names {h : Heap} {a : ARef} {tss : List (List PTier)} {names : List (List String)} (hd : Holds h a tss names) :
    returnTextgrid h a = (exportNames (tss.flatten.map (·.1))).zip (tss.flatten.map (·.2)) := by
  have e : ((h.agroups a).map h.gtiers).flatten.map h.ptier = tss.flatten := by
    rw [← hd.tiers, List.map_flatten, List.map_map]
    rfl
  unfold returnTextgrid
  simp only []
  rw [← e, List.map_map, List.map_map]
  rfl

/-- **C91, without edits.** A Praat textgrid whose tiers have distinct names, cover the same time without gaps and are aligned in each group, is
    exported as it was imported.
    `_partial`, as C74 is. -/
theorem C91_same_partial (h : Heap) (tiers : List PTier) (arg : ClassArg) (tss : List (List PTier)) (css : List (List CRef))
    (hr : ReachC h.ct) (td : Tidy h) (ac : Allocated h) (hn : nestify h.ct tiers arg = .ok (tss, css)) (hne : tss ≠ [])
    (hlen : tss.map List.length = css.map List.length) (good : ∀ ts ∈ tss, GoodTiers ts) (tc : TopClasses h.ct css)
    (lo hi : Time) (cov : ∀ ts ∈ tss, Covering ts lo hi) (hd : (tss.flatten.map (·.1)).Nodup) :
    ∃ h', newAtg tiers arg h = .ok h.nA h' ∧ returnTextgrid h' h.nA = tss.flatten := by
  obtain ⟨h', e, hh, -⟩ := C74_exact_partial h tiers arg tss css hr td ac hn hne hlen good tc lo hi cov
  refine ⟨h', e, ?_⟩
  rw [hh.names, C37_kept _ hd]
  exact (List.zip_of_prod rfl rfl).symm

theorem draftFrom_spans {tss : List (List PTier)} {names : List (List String)} {lo hi : Time} (good : ∀ ts ∈ tss, GoodTiers ts)
    (cov : ∀ ts ∈ tss, Covering ts lo hi) : (draftFrom tss names).Spans lo hi := by
  intro q hq u hu
  obtain ⟨p, hp, rfl⟩ := List.mem_map.mp hq
  obtain ⟨⟨ts, ns⟩, hz, rfl⟩ := List.mem_map.mp hp
  have hts := (List.of_mem_zip hz).1
  have hu' := (List.of_mem_zip (a := u.1) (b := u.2) hu).2
  obtain ⟨t, ht, e⟩ := List.mem_map.mp hu'
  rw [← e]
  have c := cov ts hts t ht
  exact ⟨(good ts hts).ne t ht, seamless_of c.1 ((good ts hts).laid t ht) c.2.1 c.2.2⟩

/-- fitting groups whose tiers go without gaps from one time to another are exported as good tiers -/
theorem exports_good {h : Heap} {a : ARef} {b : Book} {lo hi : Time} (q : bookOf h a = b) (fit : ∀ g ∈ h.agroups a, FitGroup h (h.gtiers g))
    (s : ∀ p ∈ b, ∀ u ∈ p, u.2 ≠ [] ∧ Seamless lo u.2 hi) (hne : b ≠ []) :
    ∃ tss' : List (List PTier), returnTextgrid h a = tss'.flatten ∧ tss' ≠ [] ∧ tss'.map (List.map (·.2)) = b.map (List.map (·.2)) ∧
      (∀ ts ∈ tss', GoodTiers ts) ∧ ∀ ts ∈ tss', Covering ts lo hi := by
  obtain ⟨tss', e1, e2⟩ := split_snd (returnTextgrid_rows h a)
  have hb : (h.agroups a).map (fun g => (h.gtiers g).map (rowsOf h)) = b.map (List.map (·.2)) := by
    rw [← q]
    unfold bookOf
    rw [List.map_map]
    apply List.map_congr_left
    intro g _
    simp only [Function.comp, pageOf, List.map_map]
    rfl
  have hs : ∀ g ∈ h.agroups a, ∀ t ∈ h.gtiers g, rowsOf h t ≠ [] ∧ Seamless lo (rowsOf h t) hi := by
    intro g hg t ht
    exact s (pageOf h g) (q ▸ List.mem_map_of_mem hg) (h.ct.name (h.tcls t), rowsOf h t)
      (List.mem_map_of_mem (f := fun t => (h.ct.name (h.tcls t), rowsOf h t)) ht)
  have hg : ∀ ts ∈ tss', GoodTiers ts ∧ Covering ts lo hi := by
    intro ts hts
    have : ts.map (·.2) ∈ (h.agroups a).map (fun g => (h.gtiers g).map (rowsOf h)) := e2 ▸ List.mem_map_of_mem hts
    obtain ⟨g, hg, e⟩ := List.mem_map.mp this
    exact (fit g hg).goodTiers e.symm (hs g hg)
  refine ⟨tss', e1.symm, ?_, e2.trans hb, fun ts h => (hg ts h).1, fun ts h => (hg ts h).2⟩
  intro e
  rw [e, hb] at e2
  exact hne (by simpa using e2.symm)

/-- **C91, one session.** Import and any edits as in C90. The exported textgrid consists of good tiers again: none is empty, they cover the
    same time without gaps, and each group's are aligned. Its intervals are those of the edited data. So it can be read, edited
    and exported once more.
    `_partial`, as C90 is. -/
theorem C91_session_partial (h : Heap) (tiers : List PTier) (arg : ClassArg) (tss : List (List PTier)) (css : List (List CRef))
    (hr : ReachC h.ct) (td : Tidy h) (ac : Allocated h) (hn : nestify h.ct tiers arg = .ok (tss, css)) (hne : tss ≠ [])
    (hlen : tss.map List.length = css.map List.length) (good : ∀ ts ∈ tss, GoodTiers ts) (es : List Change)
    (gc : Suits h.ct css es) (lo hi : Time) (cov : ∀ ts ∈ tss, Covering ts lo hi) (d' : Draft)
    (hd' : Change.actAll es (draftFrom tss (css.map (List.map h.ct.name))) = some d') :
    ∃ h', (do let a ← newAtg tiers arg; Change.runAll a es; pure a : M ARef) h = .ok h.nA h' ∧
      bookOf h' h.nA = d'.map (·.1) ∧
      ∃ (tss' : List (List PTier)) (lo' hi' : Time), returnTextgrid h' h.nA = tss'.flatten ∧ tss' ≠ [] ∧
        tss'.map (List.map (·.2)) = d'.map (fun q => q.1.map (·.2)) ∧ (∀ ts ∈ tss', GoodTiers ts) ∧
        ∀ ts ∈ tss', Covering ts lo' hi' := by
  obtain ⟨h', e, q, r, -⟩ := C90_import_partial h tiers arg tss css hr td ac hn hne hlen good es gc lo hi cov d' hd'
  have hl : tss.length = css.length := by simpa using congrArg List.length hlen
  have hne0 : draftFrom tss (css.map (List.map h.ct.name)) ≠ [] := by
    intro e
    have := congrArg List.length e
    unfold draftFrom bookFrom at this
    simp only [List.length_map, List.length_zip, List.length_nil] at this
    have : tss.length = 0 := by omega
    exact hne (List.length_eq_zero_iff.mp this)
  obtain ⟨⟨lo', hi', s⟩, hne'⟩ := Change.actAll_spans es (draftFrom_spans good cov) hne0 hd'
  obtain ⟨tss', e1, hts, e2, g1, g2⟩ := exports_good q (fun g hg => (r g hg).2) (fun p hp => by
    obtain ⟨q', hq', rfl⟩ := List.mem_map.mp hp
    exact s q' hq') (by simpa using hne')
  exact ⟨h', e, q, tss', lo', hi', e1, hts, by rw [e2, List.map_map]; rfl, g1, g2⟩

theorem bookFrom_rows {tss : List (List PTier)} {b : Book} (e : tss.map (List.map (·.2)) = b.map (List.map (·.2))) :
    bookFrom tss (b.map (List.map (·.1))) = b := by
  have hl : tss.length = b.length := by simpa using congrArg List.length e
  unfold bookFrom
  apply List.ext_getElem?
  intro i
  rw [List.getElem?_map]
  cases hb : b[i]? with
  | none =>
    have : b.length ≤ i := List.getElem?_eq_none_iff.mp hb
    rw [List.getElem?_eq_none_iff.mpr (by simp; omega)]
    rfl
  | some p =>
    have hi : i < tss.length := by have := getElem?_lt hb; omega
    obtain ⟨ts, ht⟩ : ∃ ts, tss[i]? = some ts := ⟨_, List.getElem?_eq_getElem hi⟩
    have h1 : (tss.zip (b.map (List.map (·.1))))[i]? = some (ts, p.map (·.1)) := by
      rw [List.getElem?_zip_eq_some]
      exact ⟨ht, by rw [List.getElem?_map, hb]; rfl⟩
    rw [h1]
    have h2 := congrArg (·[i]?) e
    simp only [List.getElem?_map, ht, hb, Option.map_some, Option.some.injEq] at h2
    simp only [Option.map_some, h2]
    exact congrArg some (List.zip_of_prod rfl rfl).symm

/-- good tiers with the rows of `b`, read with classes that have the names in `b`, give a textgrid with the data `b` that can be edited -/
theorem reload_edit {b : Book} {tss' : List (List PTier)} {lo hi : Time} (hne' : tss' ≠ [])
    (e3 : tss'.map (List.map (·.2)) = b.map (List.map (·.2))) (good' : ∀ ts ∈ tss', GoodTiers ts) (cov' : ∀ ts ∈ tss', Covering ts lo hi)
    (k : Heap) (css' : List (List CRef)) (hr' : ReachC k.ct) (td' : Tidy k) (ac' : Allocated k) (es' : List Change)
    (gc' : Suits k.ct css' es') (hnm : css'.map (List.map k.ct.name) = b.map (List.map (·.1))) (d2 : Draft)
    (hd2 : Change.actAll es' (b.map fun p => (p, true)) = some d2) :
    ∃ k', (do let a ← newAtg tss'.flatten (.nested css')
              Change.runAll a es'
              pure a : M ARef) k = .ok k.nA k' ∧
      bookOf k' k.nA = d2.map (·.1) ∧
      (∀ g ∈ k'.agroups k.nA, RelatedByContainment k' (k'.gtiers g) ∧ FitGroup k' (k'.gtiers g)) ∧
      Separate k' (k'.agroups k.nA) := by
  have hlen' : tss'.map List.length = css'.map List.length := by
    have h1 := congrArg (List.map List.length) e3
    have h2 := congrArg (List.map List.length) hnm
    simp only [List.map_map, Function.comp_def, List.length_map] at h1 h2
    rw [h1, h2]
  have hnc : css' ≠ [] := by
    rintro rfl
    exact hne' (by simpa using hlen')
  refine C90_import_partial k _ _ tss' css' hr' td' ac' (nestify_flatten k.ct tss' css' hlen' hnc) hne' hlen' good' es' gc' lo hi cov'
    d2 ?_
  unfold draftFrom
  rw [hnm, bookFrom_rows e3]
  exact hd2

/-- **C91.** Import and any edits as in C90; then, in any session, the exported textgrid is read with classes that have the names of those of
    the edited textgrid. This succeeds, and the new textgrid has exactly the data of the edited one. It can be edited like any imported
    textgrid: after a `pop_class` of the first tiers too, which before were not chained (`C90_pop_violated`).
    `_partial`, as C90 is; the labels are those of the edited textgrid, from which praatio takes blanks at the ends. -/
theorem C91_reload_partial (h : Heap) (tiers : List PTier) (arg : ClassArg) (tss : List (List PTier)) (css : List (List CRef))
    (hr : ReachC h.ct) (td : Tidy h) (ac : Allocated h) (hn : nestify h.ct tiers arg = .ok (tss, css)) (hne : tss ≠ [])
    (hlen : tss.map List.length = css.map List.length) (good : ∀ ts ∈ tss, GoodTiers ts) (es : List Change)
    (gc : Suits h.ct css es) (lo hi : Time) (cov : ∀ ts ∈ tss, Covering ts lo hi) (d' : Draft)
    (hd' : Change.actAll es (draftFrom tss (css.map (List.map h.ct.name))) = some d') :
    ∃ h', (do let a ← newAtg tiers arg; Change.runAll a es; pure a : M ARef) h = .ok h.nA h' ∧ bookOf h' h.nA = d'.map (·.1) ∧
      ∀ (k : Heap) (css' : List (List CRef)), ReachC k.ct → Tidy k → Allocated k →
        css'.map (List.map k.ct.name) = (bookOf h' h.nA).map (List.map (·.1)) →
        ∀ (es' : List Change) (d2 : Draft), Suits k.ct css' es' → Change.actAll es' (d'.map fun q => (q.1, true)) = some d2 →
        ∃ k', (do let a ← newAtg (returnTextgrid h' h.nA) (.nested css')
                  Change.runAll a es'
                  pure a : M ARef) k = .ok k.nA k' ∧
          bookOf k' k.nA = d2.map (·.1) ∧
          (∀ g ∈ k'.agroups k.nA, RelatedByContainment k' (k'.gtiers g) ∧ FitGroup k' (k'.gtiers g)) ∧
          Separate k' (k'.agroups k.nA) := by
  obtain ⟨h', e, q, tss', lo', hi', e1, hne', e2, good', cov'⟩ :=
    C91_session_partial h tiers arg tss css hr td ac hn hne hlen good es gc lo hi cov d' hd'
  refine ⟨h', e, q, ?_⟩
  intro k css' hr' td' ac' hnm es' d2 gc' hd2
  rw [q] at hnm
  rw [e1]
  exact reload_edit hne' (by rw [e2, List.map_map]; rfl) good' cov' k css' hr' td' ac' es' gc' hnm d2 (by rw [List.map_map]; exact hd2)

theorem customClasses_good {ct : ClassTab} (hr : ReachC ct) (names : List String) (hne : names ≠ []) (hnd : names.Nodup)
    (hp : ∀ n ∈ names, PlainName n) : ∃ ct' cs, customClasses ct names [] = (ct', .ok cs) ∧ ReachC ct' ∧ cs.map ct'.name = names ∧
      IsHierarchy ct' cs ∧ ∀ m, GoodClasses ct' (List.replicate m cs) := by
  obtain ⟨ct', cs, e, hn, hd, -, hi, hh, -⟩ := C31_custom_classes_partial hr names [] hne hnd
    (fun j nm hj _ => hp nm (List.mem_of_getElem? hj))
  have hf : cs.filter (fun c => ct'.isSub c cInterval) = cs := by
    rw [List.filter_eq_self]
    intro c hc
    obtain ⟨j, hj⟩ := List.mem_iff_getElem?.mp hc
    simpa using (hi j c hj).1
  have hcs : cs ≠ [] := by
    rintro rfl
    exact hne hn.symm
  have hl := (hh cs hf.symm hcs).1
  have hr' := customClasses_reach ct names [] hr
  rw [e] at hr'
  have hin : ∀ m, ∀ c ∈ (List.replicate m cs).flatten, c ∈ cs := by
    intro m c hc
    obtain ⟨l, hl, hc⟩ := List.mem_flatten.mp hc
    rw [(List.mem_replicate.mp hl).2] at hc
    exact hc
  refine ⟨ct', cs, e, hr', hn, hl, fun m => ⟨?_, ?_, ?_⟩⟩
  · intro l hm
    rw [(List.mem_replicate.mp hm).2]
    exact hl
  · intro c hc
    exact hp _ (hn ▸ List.mem_map_of_mem (f := ct'.name) (hin m c hc))
  · intro c hc d hd' e
    have hnd' : (cs.map ct'.name).Nodup := hn ▸ hnd
    exact nodup_map_inj hnd' (hin m c hc) (hin m d hd') e

/-- **C91, the whole script.** Import and any edits as in C90, all groups having tiers of the same classes in the end. Then, in a new
    session, `AlignedTextGrid(textgrid, custom_classes(names))` for the exported textgrid, the names being those of the classes, has
    exactly the data of the edited textgrid, and can be edited like any imported textgrid.
    `_partial`, as `C91_reload_partial` is. -/
theorem C91_custom_partial (h : Heap) (tiers : List PTier) (arg : ClassArg) (tss : List (List PTier)) (css : List (List CRef))
    (hr : ReachC h.ct) (td : Tidy h) (ac : Allocated h) (hn : nestify h.ct tiers arg = .ok (tss, css)) (hne : tss ≠ [])
    (hlen : tss.map List.length = css.map List.length) (good : ∀ ts ∈ tss, GoodTiers ts) (es : List Change)
    (gc : Suits h.ct css es) (lo hi : Time) (cov : ∀ ts ∈ tss, Covering ts lo hi) (d' : Draft)
    (hd' : Change.actAll es (draftFrom tss (css.map (List.map h.ct.name))) = some d')
    (names : List String) (hnm : ∀ q ∈ d', q.1.map (·.1) = names) (hne' : names ≠ []) (hnd : names.Nodup) (hp : ∀ n ∈ names, PlainName n) :
    ∃ h', (do let a ← newAtg tiers arg; Change.runAll a es; pure a : M ARef) h = .ok h.nA h' ∧ bookOf h' h.nA = d'.map (·.1) ∧
      ∀ (k : Heap), ReachC k.ct → Tidy k → Allocated k →
        ∀ (es' : List Change) (d2 : Draft), Change.actAll es' (d'.map fun q => (q.1, true)) = some d2 →
        ∃ k', (do let cs ← liftC (customClasses · names [])
                  let a ← newAtg (returnTextgrid h' h.nA) (.flat cs)
                  Change.runAll a es'
                  pure a : M ARef) k = .ok k.nA k' ∧
          bookOf k' k.nA = d2.map (·.1) ∧
          (∀ g ∈ k'.agroups k.nA, RelatedByContainment k' (k'.gtiers g) ∧ FitGroup k' (k'.gtiers g)) ∧
          Separate k' (k'.agroups k.nA) := by
  obtain ⟨h', e, q, tss', lo', hi', e1, hts, e2, good', cov'⟩ :=
    C91_session_partial h tiers arg tss css hr td ac hn hne hlen good es gc lo hi cov d' hd'
  refine ⟨h', e, q, ?_⟩
  intro k hrk tdk ack es' d2 hd2
  obtain ⟨ct', cs, ec, hrc, hcn, hl, hgc⟩ := customClasses_good hrk names hne' hnd hp
  have e3 : tss'.map (List.map (·.2)) = (d'.map (·.1)).map (List.map (·.2)) := by rw [e2, List.map_map]; rfl
  have hll : tss'.length = d'.length := by simpa using congrArg List.length e2
  have hcl : cs.length = names.length := by rw [← hcn, List.length_map]
  have hlen' : tss'.map List.length = List.replicate tss'.length cs.length := by
    have h1 := congrArg (List.map List.length) e3
    simp only [List.map_map, Function.comp_def, List.length_map] at h1
    rw [h1, hll, hcl]
    refine List.eq_replicate_iff.mpr ⟨by simp, ?_⟩
    intro n hn
    obtain ⟨q, hq, rfl⟩ := List.mem_map.mp hn
    rw [← hnm q hq, List.length_map]
  have hpos : 0 < cs.length := List.length_pos_iff.mpr hl.ne
  have htl : tss'.flatten.length = tss'.length * cs.length := by
    rw [List.length_flatten, hlen', List.sum_replicate_nat]
  have hlt : 0 < tss'.length := List.length_pos_iff.mpr hts
  let k1 : Heap := { k with ct := ct' }
  have tdk1 : Tidy k1 := ⟨tdk.agree, tdk.nodup, fun v x hx y hy sv => tdk.distinct v x hx y hy ⟨by unfold Heap.isPoint; rw [tdk.cls v x hx y hy], sv.2⟩, tdk.cls, tdk.label⟩
  have hdiv : tss'.flatten.length / cs.length = tss'.length := by rw [htl]; exact Nat.mul_div_cancel _ hpos
  obtain ⟨gs, en, hgl, hg, hfl⟩ := C35_split k1.ct tss'.flatten cs (TopPart.one ⟨hl.ne, [], by rw [List.append_nil]; exact hl⟩ hrc.wfc)
    (by rw [htl]; exact Nat.le_mul_of_pos_left _ hlt)
  rw [hdiv] at en hgl hfl
  have hgs : gs = tss' := by
    refine List.eq_iff_flatten_eq.mpr ⟨?_, ?_⟩
    · rw [hfl, ← htl, List.take_length]
    · rw [hlen']
      refine List.eq_replicate_iff.mpr ⟨by simpa using hgl, ?_⟩
      intro n hn
      obtain ⟨g, hg', rfl⟩ := List.mem_map.mp hn
      obtain ⟨i, hi⟩ := List.mem_iff_getElem?.mp hg'
      exact (hg i g hi).1
  rw [hgs] at en
  have hnr : (List.replicate tss'.length cs).map (List.map k1.ct.name) = (d'.map (·.1)).map (List.map (·.1)) := by
    rw [List.map_replicate, List.map_map]
    refine (List.eq_replicate_iff.mpr ⟨by simp [hll], ?_⟩).symm
    intro n hn
    obtain ⟨q, hq, rfl⟩ := List.mem_map.mp hn
    exact (hnm q hq).trans hcn.symm
  obtain ⟨k', e4, r⟩ := C90_import_partial k1 tss'.flatten (.flat cs) tss' (List.replicate tss'.length cs) hrc tdk1 ack en hts
    (by rw [hlen', List.map_replicate]) good' es' (.of_good (hgc _)) lo' hi' cov' d2 (by
      unfold draftFrom
      rw [hnr, bookFrom_rows e3, List.map_map]
      exact hd2)
  refine ⟨k', ?_, r⟩
  have el : liftC (customClasses · names []) k = .ok cs k1 := by
    have : (fun ct => customClasses ct names []) k.ct = (ct', .ok cs) := ec
    unfold liftC
    rw [this]
  mstep el
  rw [e1]
  exact e4

/-! ## A case that meets the hypotheses -/

theorem exPraat_good : ∀ ts ∈ [exPraat.take 2, exPraat.drop 2], GoodTiers ts := by
  intro ts hts
  rcases mem_two hts with rfl | rfl
  · exact goodTiers_pair (by decide) (by decide +kernel) (by decide +kernel) (by decide +kernel)
      ⟨by decide +kernel, by decide +kernel, by decide +kernel, by decide +kernel⟩
  · exact goodTiers_pair (by decide) (by decide +kernel) (by decide +kernel) (by decide +kernel)
      ⟨by decide +kernel, by decide +kernel, by decide +kernel, by decide +kernel⟩

theorem exPraat_covering : ∀ ts ∈ [exPraat.take 2, exPraat.drop 2], Covering ts 0 4 := by
  intro ts hts
  rcases mem_two hts with rfl | rfl <;> (unfold Covering; decide +kernel)

theorem wordPhone_good : GoodClasses heap0.ct [[cWord, cPhone], [cWord, cPhone]] := by
  have hl : IsHierarchy heap0.ct [cWord, cPhone] := isHierarchy_of_check (by decide) (by decide) (by decide +kernel)
    (by decide +kernel) (by decide +kernel) (by decide +kernel)
  refine ⟨?_, by decide +kernel, by decide +kernel⟩
  intro cs hcs
  rcases mem_two hcs with rfl | rfl <;> exact hl

/-- read and exported, the textgrid is as before -/
example : ∃ h', newAtg exPraat (.flat [cWord, cPhone]) heap0 = .ok 0 h' ∧ returnTextgrid h' 0 = exPraat :=
  C91_same_partial heap0 exPraat (.flat [cWord, cPhone]) [exPraat.take 2, exPraat.drop 2]
    [[cWord, cPhone], [cWord, cPhone]] .base heap0_tidy heap0_alloc rfl (by simp) (by decide) exPraat_good wordPhone_good.topClasses
    0 4 exPraat_covering (by decide +kernel)

/-- The textgrid of `C90_pop_violated`: the words are dropped and the textgrid is exported, read again with the class `Phone` alone, and the
    first two phones of the first speaker, which belonged to different words, are fused. -/
example : ∃ h', (do let a ← newAtg exPraat (.flat [cWord, cPhone])
                    Change.runAll a [.edit (.pop "Word")]
                    pure a : M ARef) heap0 = .ok 0 h' ∧
    ∃ k', (do let cs ← liftC (customClasses · ["Phone"] [])
              let a ← newAtg (returnTextgrid h' 0) (.flat cs)
              Change.runAll a [.touch (.fuse (· ++ ·) 0 0 0)]
              pure a : M ARef) heap0 = .ok 0 k' ∧
      bookOf k' 0 = [[("Phone", [(0, 2, "K"), (2, 3, "T"), (3, 4, "")])], [("Phone", [(0, 1, "HH"), (1, 2, "M"), (2, 4, "")])]] := by
  obtain ⟨h', e, -, r⟩ := C91_custom_partial heap0 exPraat (.flat [cWord, cPhone]) [exPraat.take 2, exPraat.drop 2]
    [[cWord, cPhone], [cWord, cPhone]] .base heap0_tidy heap0_alloc rfl (by simp) (by decide) exPraat_good
    [.edit (.pop "Word")] (.of_good wordPhone_good) 0 4 exPraat_covering
    (Draft.pop "Word" (draftFrom [exPraat.take 2, exPraat.drop 2] [["Word", "Phone"], ["Word", "Phone"]])) (by decide +kernel)
    ["Phone"] (by decide +kernel) (by simp) (by simp) (by decide +kernel)
  obtain ⟨k', e2, q, -⟩ := r heap0 .base heap0_tidy heap0_alloc [.touch (.fuse (· ++ ·) 0 0 0)]
    [([("Phone", [(0, 2, "K"), (2, 3, "T"), (3, 4, "")])], true), ([("Phone", [(0, 1, "HH"), (1, 2, "M"), (2, 4, "")])], true)]
    (by decide +kernel)
  exact ⟨h', e, k', e2, q⟩

end ATG
