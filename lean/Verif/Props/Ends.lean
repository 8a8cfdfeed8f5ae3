import Verif.Model.Ends
import Verif.Props.Touch
import Verif.Lemmas.Snap
/-!
# C92: the first and the last interval inside an interval

`x.first` and `x.last` in a group whose tiers fit together and are related by containment, which C74, C87 and C90 show for imported and
edited textgrids.
-/
namespace ATG

/-- **C92.** Let `u` be an interval of a tier that is not the lowest. From `u.first` on, the intervals following one another by
    `fol` are those of the tier below inside `u`; they cover `u` without gaps, and the last one is `u.last`. Before
    `u.first` and after `u.last` there is the mark `"#"`. -/
theorem C92_walk {h : Heap} {ts : List TRef} (r : RelatedByContainment h ts) (f : FitGroup h ts)
    (hi : ∀ t ∈ ts, h.ct.isSub (h.tcls t) cPoint = false) {i : Nat} {t t' : TRef} (ht : ts[i]? = some t) (ht' : ts[i + 1]? = some t')
    {u : Ref} (hu : u ∈ (h.tseq t).vals) :
    ∃ (l : List Ref) (x y : Ref), ivalFirst h u = .ok x ∧ ivalLast h u = .ok y ∧ l.head? = some x ∧ l.getLast? = some y ∧
      (∀ z, z ∈ l ↔ z ∈ (h.tseq t').vals ∧ Inside h u z) ∧ Tiles h l (h.start u) (h.stop u) ∧
      (∀ (k : Nat) v w, l[k]? = some v → l[k + 1]? = some w → h.fol v = some (.obj w) ∧ h.prev w = some (.obj v)) ∧
      h.prev x = some .bumper ∧ h.fol y = some .bumper := by
  have hp : h.isPoint u = false := by
    unfold Heap.isPoint
    rw [f.cls t (List.mem_of_getElem? ht) u hu]
    exact hi t (List.mem_of_getElem? ht)
  obtain ⟨e, hne⟩ := r.subs i t t' ht ht' u hu
  have dl := r.linked i t t' ht ht' u hu
  have tl := (f.aligned i t t' ht ht').tiled u hu
  rw [← e] at tl
  have h1 : (h.subs u).vals[0]? = some ((h.subs u).vals.head hne) := by
    rw [← List.head?_eq_getElem?, List.head?_eq_some_head hne]
  refine ⟨(h.subs u).vals, (h.subs u).vals.head hne, (h.subs u).vals.getLast hne, ?_, ?_, List.head?_eq_some_head hne,
    List.getLast?_eq_some_getLast hne, ?_, tl, dl.next, dl.first _ (List.head?_eq_some_head hne),
    dl.last _ (List.getLast?_eq_some_getLast hne)⟩
  · unfold ivalFirst
    rw [hp, h1]
    rfl
  · unfold ivalLast
    rw [hp, List.getLast?_eq_some_getLast hne]
    rfl
  · intro z
    rw [e, List.mem_filter]
    simp

/-- C92: `u.first.first…` is an interval that starts with `u`, on the tier as many places below that of `u`. -/
theorem C92_first {h : Heap} {ts : List TRef} (r : RelatedByContainment h ts) (f : FitGroup h ts)
    (hi : ∀ t ∈ ts, h.ct.isSub (h.tcls t) cPoint = false) : ∀ (n i : Nat) (t t' : TRef) (u : Ref), ts[i]? = some t → ts[i + n]? = some t' →
    u ∈ (h.tseq t).vals → ∃ x, descend (ivalFirst h) n u = .ok x ∧ x ∈ (h.tseq t').vals ∧ h.start x = h.start u ∧ h.stop x ≤ h.stop u
  | 0, i, t, t', u, ht, ht', hu => by
    rw [Nat.add_zero, ht] at ht'
    cases ht'
    exact ⟨u, rfl, hu, rfl, by grind⟩
  | n + 1, i, t, t', u, ht, ht', hu => by
    have hl : i + 1 < ts.length := by have := getElem?_lt ht'; omega
    obtain ⟨l, x, y, e1, -, hh, -, hm, tl, -⟩ := C92_walk r f hi ht (List.getElem?_eq_getElem hl) hu
    have hx : x ∈ l := List.mem_of_head? hh
    obtain ⟨z, e2, hz, s1, s2⟩ := C92_first r f hi n (i + 1) _ t' x (List.getElem?_eq_getElem hl) (by rw [← ht']; congr 1; omega)
      ((hm x).mp hx).1
    have s3 : h.start x = h.start u := by
      cases l with
      | nil => cases hx
      | cons a l => cases hh; exact tl.head
    have s4 := (tl.mem x hx).2.2.1
    refine ⟨z, ?_, hz, s1.trans s3, by grind⟩
    unfold descend
    rw [e1]
    exact e2

/-- C92: `u.last.last…` is an interval that ends with `u`, on the tier as many places below that of `u`. -/
theorem C92_last {h : Heap} {ts : List TRef} (r : RelatedByContainment h ts) (f : FitGroup h ts)
    (hi : ∀ t ∈ ts, h.ct.isSub (h.tcls t) cPoint = false) : ∀ (n i : Nat) (t t' : TRef) (u : Ref), ts[i]? = some t → ts[i + n]? = some t' →
    u ∈ (h.tseq t).vals → ∃ x, descend (ivalLast h) n u = .ok x ∧ x ∈ (h.tseq t').vals ∧ h.stop x = h.stop u ∧ h.start u ≤ h.start x
  | 0, i, t, t', u, ht, ht', hu => by
    rw [Nat.add_zero, ht] at ht'
    cases ht'
    exact ⟨u, rfl, hu, rfl, by grind⟩
  | n + 1, i, t, t', u, ht, ht', hu => by
    have hl : i + 1 < ts.length := by have := getElem?_lt ht'; omega
    obtain ⟨l, x, y, -, e1, -, hh, hm, tl, -⟩ := C92_walk r f hi ht (List.getElem?_eq_getElem hl) hu
    have hx : y ∈ l := List.mem_of_getLast? hh
    obtain ⟨z, e2, hz, s1, s2⟩ := C92_last r f hi n (i + 1) _ t' y (List.getElem?_eq_getElem hl) (by rw [← ht']; congr 1; omega)
      ((hm y).mp hx).1
    have s3 : h.stop y = h.stop u := by
      have hne := List.ne_nil_of_mem hx
      rw [List.getLast?_eq_some_getLast hne] at hh
      cases hh
      exact tl.last hne
    have s4 := (tl.mem y hx).1
    refine ⟨z, ?_, hz, s1.trans s3, by grind⟩
    unfold descend
    rw [e1]
    exact e2

/-- C92: on the lowest tier, both raise IndexError. -/
theorem C92_lowest {h : Heap} {ts : List TRef} (r : RelatedByContainment h ts) (f : FitGroup h ts) {L : Ref → Prop} (td : TidyOn L h)
    (hi : ∀ t ∈ ts, h.ct.isSub (h.tcls t) cPoint = false) {i : Nat} {t : TRef} (ht : ts[i]? = some t) (hl : i + 1 = ts.length)
    {u : Ref} (hu : u ∈ (h.tseq t).vals) : ivalFirst h u = .error .indexError ∧ ivalLast h u = .error .indexError := by
  have hp : h.isPoint u = false := by
    unfold Heap.isPoint
    rw [f.cls t (List.mem_of_getElem? ht) u hu]
    exact hi t (List.mem_of_getElem? ht)
  have e : (h.subs u).vals = [] := by
    cases hs : (h.subs u).vals with
    | nil => rfl
    | cons z l =>
      obtain ⟨t', hk, -⟩ := f.below r td ht hu (z := z) (by rw [hs]; simp)
      have := getElem?_lt hk
      omega
  unfold ivalFirst ivalLast
  rw [hp, e]
  exact ⟨rfl, rfl⟩

/-- C92: `tier.first` is the entry that starts before all others, and `tier.last` the one that ends after all others; both raise IndexError
    if the tier is empty. -/
theorem C92_tier {h : Heap} {t : TRef} (dis : (h.tseq t).vals.Pairwise fun x y => h.stop x ≤ h.start y) :
    ((h.tseq t).vals = [] → tierFirst h t = .error .indexError ∧ tierLast h t = .error .indexError) ∧
    ((h.tseq t).vals ≠ [] → ∃ x y, tierFirst h t = .ok x ∧ tierLast h t = .ok y ∧ x ∈ (h.tseq t).vals ∧ y ∈ (h.tseq t).vals ∧
      ∀ z ∈ (h.tseq t).vals, (z = x ∨ h.stop x ≤ h.start z) ∧ (z = y ∨ h.stop z ≤ h.start y)) := by
  unfold tierFirst tierLast
  generalize (h.tseq t).vals = l at dis
  refine ⟨fun e => by subst e; exact ⟨rfl, rfl⟩, fun hne => ?_⟩
  obtain ⟨x, l', rfl⟩ := List.exists_cons_of_ne_nil hne
  have hd := List.dropLast_concat_getLast hne
  refine ⟨x, (x :: l').getLast hne, rfl, ?_, List.mem_cons_self, List.getLast_mem hne, ?_⟩
  · rw [List.getLast?_eq_some_getLast hne]
  · intro z hz
    constructor
    · rcases List.mem_cons.mp hz with rfl | hz
      · exact Or.inl rfl
      · exact Or.inr ((List.pairwise_cons.mp dis).1 z hz)
    · rw [← hd] at dis hz
      rcases List.mem_append.mp hz with hz | hz
      · exact Or.inr ((List.pairwise_append.mp dis).2.2 z hz _ (by simp))
      · exact Or.inl (by simpa using hz)

/-- C92: a point has neither. -/
theorem C92_point (h : Heap) (x : Ref) (hp : h.isPoint x = true) :
    ivalFirst h x = .error .attributeError ∧ ivalLast h x = .error .attributeError := by
  unfold ivalFirst ivalLast
  rw [hp]
  exact ⟨rfl, rfl⟩

/-- **C92, in imported and edited textgrids.** After an import and any edits as in C90, let `x` be the interval `atg[i][j][k]`.
    `x.first.first…` and `x.last.last…` with `n` accesses are intervals of the tier `atg[i][j + n]` that start or end with `x`, and raise
    IndexError if there is no such tier.
    `_partial`, as C90 is. -/
theorem C92_import_partial (h : Heap) (tiers : List PTier) (arg : ClassArg) (tss : List (List PTier)) (css : List (List CRef))
    (hr : ReachC h.ct) (td : Tidy h) (ac : Allocated h) (hn : nestify h.ct tiers arg = .ok (tss, css)) (hne : tss ≠ [])
    (hlen : tss.map List.length = css.map List.length) (good : ∀ ts ∈ tss, GoodTiers ts) (es : List Change)
    (gc : Suits h.ct css es) (lo hi : Time) (cov : ∀ ts ∈ tss, Covering ts lo hi) (d' : Draft)
    (hd' : Change.actAll es (draftFrom tss (css.map (List.map h.ct.name))) = some d') :
    ∃ h', (do let a ← newAtg tiers arg; Change.runAll a es; pure a : M ARef) h = .ok h.nA h' ∧ bookOf h' h.nA = d'.map (·.1) ∧
      ∀ (i j k n : Nat) (x : Ref), entryAt h.nA i j k h' = .ok x h' → ∀ g, (h'.agroups h.nA)[i]? = some g →
        (∀ t', (h'.gtiers g)[j + n]? = some t' →
          (∃ y ∈ (h'.tseq t').vals, descend (ivalFirst h') n x = .ok y ∧ h'.start y = h'.start x ∧ h'.stop y ≤ h'.stop x) ∧
          (∃ y ∈ (h'.tseq t').vals, descend (ivalLast h') n x = .ok y ∧ h'.stop y = h'.stop x ∧ h'.start x ≤ h'.start y)) ∧
        (j + n ≥ (h'.gtiers g).length →
          descend (ivalFirst h') n x = .error .indexError ∧ descend (ivalLast h') n x = .error .indexError) := by
  obtain ⟨h', e, q, wk, -⟩ := import_workable h tiers arg tss css hr td ac hn hne hlen good es gc lo hi cov d' hd'
  refine ⟨h', e, q, ?_⟩
  intro i j k n x hx g hg
  have hgm := List.mem_of_getElem? hg
  have r := wk.rel g hgm
  have f := wk.fit g hgm
  have iv := wk.interval g hgm
  obtain ⟨t, ht, hxt⟩ : ∃ t, (h'.gtiers g)[j]? = some t ∧ x ∈ (h'.tseq t).vals := by
    unfold entryAt at hx
    simp only [M.bind_apply, M.get_apply, hg] at hx
    cases ht : (h'.gtiers g)[j]? with
    | none => rw [ht] at hx; cases hx
    | some t =>
      rw [ht] at hx
      simp only at hx
      cases hk : (h'.tseq t).vals[k]? with
      | none => rw [hk] at hx; cases hx
      | some z => rw [hk] at hx; cases hx; exact ⟨t, rfl, List.mem_of_getElem? hk⟩
  constructor
  · intro t' ht'
    obtain ⟨y, e1, hy, s1, s2⟩ := C92_first r f iv n j t t' x ht ht' hxt
    obtain ⟨z, e2, hz, s3, s4⟩ := C92_last r f iv n j t t' x ht ht' hxt
    exact ⟨⟨y, hy, e1, s1, s2⟩, z, hz, e2, s3, s4⟩
  · intro hn
    have hj := getElem?_lt ht
    have key : ∀ (step : Ref → Except Err Ref), (∀ (m : Nat) (t' : TRef), (h'.gtiers g)[j + m]? = some t' →
        ∃ y, descend step m x = .ok y ∧ y ∈ (h'.tseq t').vals) →
        (∀ y t', (h'.gtiers g)[(h'.gtiers g).length - 1]? = some t' → y ∈ (h'.tseq t').vals → step y = .error .indexError) →
        descend step n x = .error .indexError := by
      intro step h1 h2
      have split : ∀ (m k : Nat) (x y : Ref), descend step m x = .ok y → descend step (m + (k + 1)) x = descend step (k + 1) y := by
        intro m
        induction m with
        | zero => intro k x y e; cases e; rw [Nat.zero_add]
        | succ m ih =>
          intro k x y e
          rw [Nat.add_right_comm]
          unfold descend at e ⊢
          cases hs : step x with
          | error er => rw [hs] at e; cases e
          | ok z =>
            rw [hs] at e
            exact ih k z y e
      let m := (h'.gtiers g).length - 1 - j
      have hm : j + m = (h'.gtiers g).length - 1 := by omega
      have hlt := List.getElem?_eq_getElem (l := h'.gtiers g) (i := (h'.gtiers g).length - 1) (by omega)
      obtain ⟨y, e1, hy⟩ := h1 m _ (by rw [hm]; exact hlt)
      have : n = m + ((n - m - 1) + 1) := by omega
      rw [this, split m _ x y e1]
      unfold descend
      rw [h2 y _ hlt hy]
    constructor
    · refine key _ (fun m t' ht' => ?_) fun y t' ht' hy => (C92_lowest r f wk.tidy iv ht' (by omega) hy).1
      obtain ⟨y, e1, hy, -⟩ := C92_first r f iv m j t t' x ht ht' hxt
      exact ⟨y, e1, hy⟩
    · refine key _ (fun m t' ht' => ?_) fun y t' ht' hy => (C92_lowest r f wk.tidy iv ht' (by omega) hy).2
      obtain ⟨y, e1, hy, -⟩ := C92_last r f iv m j t t' x ht ht' hxt
      exact ⟨y, e1, hy⟩

/-! ## A case that meets the hypotheses -/

-- words, syllables and phones: the word "cat" starts with the phone "K" and ends with the phone "T"; from a phone there is nothing below
example :
    let k := (do let a ← newAtg exPraat (.flat [cWord, cPhone])
                 Change.runAll a [.edit (.interleave "Syllable" true "Phone" true true)]
                 pure a : M ARef) heap0
    let x := (entryAt 0 0 0 1 k.heap).out
    k.out = .ok 0 ∧ x.map k.heap.label = .ok "cat" ∧ (x.bind (descend (ivalFirst k.heap) 2)).map k.heap.label = .ok "K" ∧
      (x.bind (descend (ivalLast k.heap) 2)).map k.heap.label = .ok "T" ∧
      x.bind (descend (ivalLast k.heap) 3) = .error .indexError := by
  decide +kernel

end ATG
