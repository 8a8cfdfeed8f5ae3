import Verif.Spec.Signed
import Verif.Props.BothWays
import Verif.Lemmas.Headless
/-!
# C102 Negative numbers count from the end

`atg[-1][-1][-1]` is the last interval of the last tier of the last group of the data as they are at that time, and an edit of it is the same as the
edit with the place counted from the front. Numbers that lead to no interval, in either direction, raise IndexError and change nothing.
-/
namespace ATG

theorem pyGet_counted {α} (l : List α) (i : Int) : pyGet l i = (counted l.length i).bind fun n => l[n]? := by
  unfold pyGet
  cases i with
  | ofNat i =>
    rw [if_pos (show (0 : Int) ≤ Int.ofNat i from Int.natCast_nonneg i)]
    show l[i]? = (if i < l.length then some i else none).bind fun n => l[n]?
    by_cases h : i < l.length
    · rw [if_pos h]; rfl
    · rw [if_neg h]
      exact List.getElem?_eq_none (by omega)
  | negSucc m =>
    rw [if_neg (by omega)]
    show _ = (if m < l.length then some (l.length - 1 - m) else none).bind fun n => l[n]?
    by_cases h : m < l.length
    · rw [if_pos h, if_pos (by omega)]
      have : (Int.negSucc m + (l.length : Int)).toNat = l.length - 1 - m := by omega
      rw [this]
      rfl
    · rw [if_neg h, if_neg (by omega)]
      rfl

/-- numbers from the back find what the list backwards has there -/
theorem counted_reverse {α} (l : List α) (m : Nat) : (counted l.length (.negSucc m)).bind (fun n => l[n]?) = l.reverse[m]? := by
  show (if m < l.length then some (l.length - 1 - m) else none).bind (fun n => l[n]?) = _
  by_cases h : m < l.length
  · rw [if_pos h, List.getElem?_reverse h]
    rfl
  · rw [if_neg h, List.getElem?_eq_none (by simpa using h)]
    rfl

theorem counted_lt {n m : Nat} {i : Int} (h : counted n i = some m) : m < n := by
  cases i with
  | ofNat i =>
    have h : (if i < n then some i else none) = some m := h
    split at h
    · cases h; assumption
    · cases h
  | negSucc i =>
    have h : (if i < n then some (n - 1 - i) else none) = some m := h
    split at h
    · cases h; omega
    · cases h

theorem entryAtInt_spot (h : Heap) (a : ARef) (i j k : Int) :
    (∃ s, (bookOf h a).spot i j k = some s ∧ entryAtInt a i j k h = entryAt a s.1 s.2.1 s.2.2 h ∧ ∃ x, entryAtInt a i j k h = .ok x h) ∨
    (bookOf h a).spot i j k = none ∧ entryAtInt a i j k h = .err .indexError h := by
  have ent : entryAtInt a i j k h = (match pyGet (h.agroups a) i with
    | none => M.throw .indexError
    | some g =>
      match pyGet (h.gtiers g) j with
      | none => M.throw .indexError
      | some t =>
        match pyGet (h.tseq t).vals k with
        | none => M.throw .indexError
        | some x => pure x : M Ref) h := rfl
  rw [ent]
  unfold Book.spot
  have l1 : (bookOf h a).length = (h.agroups a).length := by unfold bookOf; rw [List.length_map]
  rw [l1, pyGet_counted]
  cases hi : counted (h.agroups a).length i with
  | none => exact Or.inr ⟨rfl, rfl⟩
  | some i' =>
    have hg := List.getElem?_eq_getElem (counted_lt hi)
    generalize (h.agroups a)[i']'(counted_lt hi) = g at hg
    have hp : (bookOf h a)[i']? = some (pageOf h g) := by unfold bookOf; rw [List.getElem?_map, hg]; rfl
    have l2 : (pageOf h g).length = (h.gtiers g).length := by unfold pageOf; rw [List.length_map]
    simp only [Option.bind_eq_bind, Option.bind_some, hp, hg, l2, pyGet_counted (h.gtiers g) j]
    cases hj : counted (h.gtiers g).length j with
    | none => exact Or.inr ⟨rfl, rfl⟩
    | some j' =>
      have ht := List.getElem?_eq_getElem (counted_lt hj)
      generalize (h.gtiers g)[j']'(counted_lt hj) = t at ht
      have hq : (pageOf h g)[j']? = some (h.ct.name (h.tcls t), rowsOf h t) := by unfold pageOf; rw [List.getElem?_map, ht]; rfl
      have l3 : (rowsOf h t).length = (h.tseq t).vals.length := by unfold rowsOf; rw [List.length_map]
      simp only [Option.bind_some, hq, ht, l3, pyGet_counted (h.tseq t).vals k]
      cases hk : counted (h.tseq t).vals.length k with
      | none => exact Or.inr ⟨rfl, rfl⟩
      | some k' =>
        have hx := List.getElem?_eq_getElem (counted_lt hk)
        generalize (h.tseq t).vals[k']'(counted_lt hk) = x at hx
        simp only [Option.bind_some, hx]
        exact Or.inl ⟨(i', j', k'), rfl, (entryAt_ok hg ht hx).symm, x, rfl⟩

/-- **C102.** In every textgrid whatever, an edit of a single interval by numbers of either sign is the edit at the place that the numbers mean in the
    data of the textgrid, and where they mean none it raises IndexError and changes nothing. -/
theorem C102_meant (h : Heap) (a : ARef) (e : STouch) :
    (∃ t, e.meant (bookOf h a) = some t ∧ e.run a h = t.run a h) ∨
    e.meant (bookOf h a) = none ∧ e.run a h = .err .indexError h := by
  have key : ∀ (i j k : Int) (f : Ref → M Unit),
      (∃ s, (bookOf h a).spot i j k = some s ∧
        (do let x ← entryAtInt a i j k; f x : M Unit) h = (do let x ← entryAt a s.1 s.2.1 s.2.2; f x : M Unit) h) ∨
      (bookOf h a).spot i j k = none ∧ (do let x ← entryAtInt a i j k; f x : M Unit) h = .err .indexError h := by
    intro i j k f
    rcases entryAtInt_spot h a i j k with ⟨s, h1, h2, x, h3⟩ | ⟨h1, h2⟩
    · refine Or.inl ⟨s, h1, ?_⟩
      rw [h3] at h2
      exact (M.bind_ok h3).trans (M.bind_ok h2.symm).symm
    · exact Or.inr ⟨h1, M.bind_err h2⟩
  cases e with
  | fuse J i j k =>
    rcases key i j k (fuseRight J) with ⟨s, h1, h2⟩ | ⟨h1, h2⟩
    · exact Or.inl ⟨_, congrArg (Option.map fun s : Nat × Nat × Nat => Touch.fuse J s.1 s.2.1 s.2.2) h1, h2⟩
    · exact Or.inr ⟨congrArg (Option.map fun s : Nat × Nat × Nat => Touch.fuse J s.1 s.2.1 s.2.2) h1, h2⟩
  | fuseLeft J i j k =>
    rcases key i j k (fuseLeft J) with ⟨s, h1, h2⟩ | ⟨h1, h2⟩
    · exact Or.inl ⟨_, congrArg (Option.map fun s : Nat × Nat × Nat => Touch.fuseLeft J s.1 s.2.1 s.2.2) h1, h2⟩
    · exact Or.inr ⟨congrArg (Option.map fun s : Nat × Nat × Nat => Touch.fuseLeft J s.1 s.2.1 s.2.2) h1, h2⟩
  | relabel lab i j k =>
    rcases key i j k (fun x => M.modify fun h => { h with label := upd h.label x lab }) with ⟨s, h1, h2⟩ | ⟨h1, h2⟩
    · exact Or.inl ⟨_, congrArg (Option.map fun s : Nat × Nat × Nat => Touch.relabel lab s.1 s.2.1 s.2.2) h1, h2⟩
    · exact Or.inr ⟨congrArg (Option.map fun s : Nat × Nat × Nat => Touch.relabel lab s.1 s.2.1 s.2.2) h1, h2⟩

/-- **C102, the last one.** `atg[-1][-1][-1]` is the last interval of the last tier of the last group, in every textgrid whatever. -/
theorem C102_last (h : Heap) (a : ARef) (g : GRef) (gs : List GRef) (t : TRef) (ts : List TRef) (x : Ref) (xs : List Ref)
    (hg : h.agroups a = gs ++ [g]) (ht : h.gtiers g = ts ++ [t]) (hx : (h.tseq t).vals = xs ++ [x]) :
    entryAtInt a (-1) (-1) (-1) h = .ok x h := by
  have last : ∀ {α : Type} (l : List α) (y : α), pyGet (l ++ [y]) (-1) = some y := by
    intro α l y
    rw [pyGet_counted, show (-1 : Int) = .negSucc 0 from rfl, counted_reverse]
    simp
  have ent : entryAtInt a (-1) (-1) (-1) h = (match pyGet (h.agroups a) (-1) with
    | none => M.throw .indexError
    | some g =>
      match pyGet (h.gtiers g) (-1) with
      | none => M.throw .indexError
      | some t =>
        match pyGet (h.tseq t).vals (-1) with
        | none => M.throw .indexError
        | some x => pure x : M Ref) h := rfl
  rw [ent, hg, last]
  simp only [ht, last, hx]
  rfl

/-- what a list of entries has at a number: from the front, or in the list read backwards -/
def readFrom {α} (l : List α) : Int → Option α
  | .ofNat n => l[n]?
  | .negSucc m => l.reverse[m]?

theorem pyGet_readFrom {α} (l : List α) (i : Int) : pyGet l i = readFrom l i := by
  cases i with
  | ofNat n =>
    unfold pyGet
    rw [if_pos (show (0 : Int) ≤ Int.ofNat n from Int.natCast_nonneg n)]
    rfl
  | negSucc m => rw [pyGet_counted, counted_reverse]; rfl

/-- **C102, one number for each tier.** `group[[i, j, ...]]` has one entry for each tier, which is the one that the tier's number means, from the front or
    from the back; and only then it is returned. For every group whatever. -/
theorem C102_list (h : Heap) (g : GRef) (idx : List Int) (xs : List Ref) :
    groupGetInt h g idx = .ok xs ↔ idx.length = (h.gtiers g).length ∧ xs.length = idx.length ∧
      ∀ (j : Nat) i t, idx[j]? = some i → (h.gtiers g)[j]? = some t → readFrom (h.tseq t).vals i = xs[j]? := by
  have one : ∀ t i x, tierGetInt h t i = .ok x ↔ readFrom (h.tseq t).vals i = some x := by
    intro t i x
    unfold tierGetInt
    rw [pyGet_readFrom]
    cases readFrom (h.tseq t).vals i <;> simp
  unfold groupGetInt
  split
  · rename_i hl
    exact ⟨fun e => (by cases e), fun e => absurd e.1 hl⟩
  · rename_i hl
    have hl : idx.length = (h.gtiers g).length := Decidable.not_not.mp hl
    rw [mapM_ok_iff]
    constructor
    · intro e
      have el : xs.length = idx.length := by
        have := congrArg List.length e
        simp only [List.length_map, List.length_zip] at this
        omega
      refine ⟨hl, el, ?_⟩
      intro j i t hi ht
      have z := congrArg (fun l => l[j]?) e
      have hz : (idx.zip (h.gtiers g))[j]? = some (i, t) := List.getElem?_zip_eq_some.mpr ⟨hi, ht⟩
      simp only [List.getElem?_map, hz, Option.map_some] at z
      cases hx : xs[j]? with
      | none => rw [hx] at z; cases z
      | some x =>
        rw [hx] at z
        exact (one t i x).mp (Option.some.inj z)
    · rintro ⟨-, el, hall⟩
      apply List.ext_getElem?
      intro j
      rw [List.getElem?_map, List.getElem?_map]
      by_cases hj : j < idx.length
      · have hi := List.getElem?_eq_getElem hj
        have ht := List.getElem?_eq_getElem (show j < (h.gtiers g).length by omega)
        have hx := List.getElem?_eq_getElem (show j < xs.length by omega)
        have := hall j _ _ hi ht
        rw [hx] at this
        have hz : (idx.zip (h.gtiers g))[j]? = some (idx[j], (h.gtiers g)[j]) :=
          List.getElem?_zip_eq_some.mpr ⟨hi, ht⟩
        rw [hz, hx]
        exact congrArg some ((one _ _ _).mpr this)
      · rw [List.getElem?_eq_none (by simp only [List.length_zip]; omega), List.getElem?_eq_none (by omega)]
        rfl

/-- **C102, refusals of lists.** A list of another length raises an exception; of the right length, IndexError if some number leads nowhere. -/
theorem C102_list_refused (h : Heap) (g : GRef) (idx : List Int) :
    (idx.length ≠ (h.gtiers g).length → groupGetInt h g idx = .error .exc) ∧
    (idx.length = (h.gtiers g).length → (∃ (j : Nat) (i : Int) (t : TRef), idx[j]? = some i ∧ (h.gtiers g)[j]? = some t ∧
      readFrom (h.tseq t).vals i = none) → groupGetInt h g idx = .error .indexError) := by
  refine ⟨fun hl => if_pos hl, ?_⟩
  rintro hl ⟨j, i, t, hi, ht, hn⟩
  unfold groupGetInt
  rw [if_neg (by simpa using hl)]
  have hz : (idx.zip (h.gtiers g))[j]? = some (i, t) := List.getElem?_zip_eq_some.mpr ⟨hi, ht⟩
  refine mapM_error_mem _ _ _ ?_ (List.mem_of_getElem? hz) ?_
  · intro p _
    unfold tierGetInt
    cases pyGet (h.tseq p.2).vals p.1 with
    | none => exact Or.inr rfl
    | some x => exact Or.inl ⟨x, rfl⟩
  · unfold tierGetInt
    rw [pyGet_readFrom, hn]

/-- **C102, any number of edits.** Edits of single intervals by numbers of either sign, among any edits of C99, do to a workable textgrid what they
    do to its plain data, where numbers from the back are counted in the data as they are at the time of the edit.
    `_partial`, as `C99_step_partial` is. -/
theorem C102_history_partial (a : ARef) (es : List SChange) : ∀ (h : Heap) (q q' : Draft × Draft), Workable h (h.agroups a) →
    DraftedBoth h (h.agroups a) q → SChange.actBothAll es q = some q' →
    ∃ h', SChange.runAll a es h = .ok () h' ∧ Workable h' (h'.agroups a) ∧ DraftedBoth h' (h'.agroups a) q' ∧ bookOf h' a = q'.1.map (·.1) := by
  induction es with
  | nil =>
    intro h q q' wk dr hd
    cases hd
    exact ⟨h, rfl, wk, dr, dr.1.book⟩
  | cons e es ih =>
    intro h q q' wk dr hd
    obtain ⟨q1, h1, h2⟩ := Option.bind_eq_some_iff.mp hd
    have st : ∃ k, e.run a h = .ok () k ∧ Workable k (k.agroups a) ∧ DraftedBoth k (k.agroups a) q1 := by
      cases e with
      | plain e => exact C99_step_partial h a wk q dr e q1 h1
      | signed e =>
        obtain ⟨t, m1, m2⟩ := Option.bind_eq_some_iff.mp (show (e.meant (q.1.map (·.1))).bind (fun t => (Change.touch t).actBoth q) = some q1 from h1)
        rw [← dr.1.book] at m1
        obtain ⟨k, e1, z⟩ := C99_step_partial h a wk q dr (.touch t) q1 m2
        refine ⟨k, ?_, z⟩
        rcases C102_meant h a e with ⟨t', n1, n2⟩ | ⟨n1, -⟩
        · rw [m1] at n1
          cases n1
          exact n2.trans e1
        · rw [m1] at n1
          cases n1
    obtain ⟨k, e1, wk1, dr1⟩ := st
    obtain ⟨h', e2, z⟩ := ih k q1 q' wk1 dr1 h2
    refine ⟨h', ?_, z⟩
    unfold SChange.runAll
    mstep e1
    exact e2

/-- **C102, from the Praat textgrid on.** `AlignedTextGrid(textgrid, classes)` followed by such edits, each possible for the plain data, succeeds and has
    exactly the edited data. `_partial`, as `C99_import_partial` is. -/
theorem C102_import_partial (h : Heap) (tiers : List PTier) (arg : ClassArg) (tss : List (List PTier)) (css : List (List CRef))
    (hr : ReachC h.ct) (td : Tidy h) (ac : Allocated h) (hn : nestify h.ct tiers arg = .ok (tss, css)) (hne : tss ≠ [])
    (hlen : tss.map List.length = css.map List.length) (good : ∀ ts ∈ tss, GoodTiers ts) (es : List SChange)
    (gc : TopClasses h.ct css) (al : AlikeClasses css) (lo hi : Time) (cov : ∀ ts ∈ tss, Covering ts lo hi) (q' : Draft × Draft)
    (hd' : SChange.actBothAll es
      (draftFrom tss (css.map (List.map h.ct.name)), draftFrom tss (css.map (List.map h.ct.name))) = some q') :
    ∃ h', (do let a ← newAtg tiers arg; SChange.runAll a es; pure a : M ARef) h = .ok h.nA h' ∧ bookOf h' h.nA = q'.1.map (·.1) ∧
      (∀ g ∈ h'.agroups h.nA, RelatedByContainment h' (h'.gtiers g) ∧ FitGroup h' (h'.gtiers g)) ∧
      Separate h' (h'.agroups h.nA) := by
  obtain ⟨h0, e0, -, -, dr⟩ := import_workableBoth h tiers arg tss css hr td ac hn hne hlen good [] ⟨gc, Or.inl al⟩ lo hi cov _ rfl
  obtain ⟨h1, e1, wk, -, -⟩ := import_start h tiers arg tss css hr td ac hn hne hlen good gc al lo hi cov
  have e2 : (do let a ← newAtg tiers arg; Change.runAll a []; pure a : M ARef) h = .ok h.nA h1 := by
    mstep e1
    rfl
  rw [e0] at e2
  injection e2 with _ e3
  subst e3
  obtain ⟨h', e4, wk', -, bk⟩ := C102_history_partial h.nA es h0 _ q' wk dr hd'
  refine ⟨h', ?_, bk, fun g hg => ⟨wk'.rel g hg, wk'.fit g hg⟩, wk'.sep⟩
  mstep e1
  mstep e4
  rfl

/-- three numbers that mean a place -/
theorem Book.spot_some {b : Book} {i j k : Int} {s : Nat × Nat × Nat} (h : b.spot i j k = some s) :
    ∃ p, b[s.1]? = some p ∧ counted p.length j = some s.2.1 := by
  unfold Book.spot at h
  obtain ⟨i', h1, h⟩ := Option.bind_eq_some_iff.mp h
  obtain ⟨p, h2, h⟩ := Option.bind_eq_some_iff.mp h
  obtain ⟨j', h3, h⟩ := Option.bind_eq_some_iff.mp h
  obtain ⟨t, h4, h⟩ := Option.bind_eq_some_iff.mp h
  obtain ⟨k', h5, h⟩ := Option.bind_eq_some_iff.mp h
  cases h
  exact ⟨p, h2, h3⟩

theorem STouch.sureAmong.meant {m : Nat} {e : STouch} (hs : e.sureAmong m) {b : Book} (hb : ∀ p ∈ b, m ≤ p.length) {t : Touch}
    (ht : e.meant b = some t) : t.sure := by
  cases e with
  | fuse J i j k =>
    obtain ⟨s, -, rfl⟩ := Option.map_eq_some_iff.mp (show (b.spot i j k).map (fun s => Touch.fuse J s.1 s.2.1 s.2.2) = some t from ht)
    exact hs
  | relabel lab i j k =>
    obtain ⟨s, -, rfl⟩ := Option.map_eq_some_iff.mp (show (b.spot i j k).map (fun s => Touch.relabel lab s.1 s.2.1 s.2.2) = some t from ht)
    exact hs
  | fuseLeft J i j k =>
    obtain ⟨s, h1, rfl⟩ := Option.map_eq_some_iff.mp (show (b.spot i j k).map (fun s => Touch.fuseLeft J s.1 s.2.1 s.2.2) = some t from ht)
    obtain ⟨p, hp, hc⟩ := Book.spot_some h1
    have hl := hb p (List.mem_of_getElem? hp)
    refine ⟨?_, hs.2⟩
    have hj := hs.1
    cases j with
    | ofNat j =>
      have hc : (if j < p.length then some j else none) = some s.2.1 := hc
      split at hc
      · have hc := Option.some.inj hc
        have : (0 : Int) < (j : Int) := by
          rcases hj with q | ⟨-, q⟩
          · exact q
          · exact absurd (Int.natCast_nonneg j) (Int.not_le.mpr q)
        omega
      · cases hc
    | negSucc j =>
      have hc : (if j < p.length then some (p.length - 1 - j) else none) = some s.2.1 := hc
      split at hc
      · have hc := Option.some.inj hc
        rcases hj with q | ⟨q, -⟩
        · omega
        · omega
      · cases hc

/-- edits of single intervals keep the numbers of tiers -/
theorem touch_tiers {d d' : Draft} {m : Nat} (hd : ∀ q ∈ d, m ≤ q.1.length) {e : Touch} (he : (Change.touch e).act d = some d') :
    ∀ q ∈ d', m ≤ q.1.length := by
  have key : ∀ (i : Nat) (ok : Bool → Bool) (f : Page → Option Page), (∀ p p', f p = some p' → p'.length = p.length) →
      d.onPage i ok f = some d' → ∀ q ∈ d', m ≤ q.1.length := by
    intro i ok f hf e
    unfold Draft.onPage at e
    cases hq : d[i]? with
    | none => rw [hq] at e; cases e
    | some q =>
      rw [hq] at e
      simp only at e
      split at e
      case isFalse => cases e
      obtain ⟨p', h1, rfl⟩ := Option.map_eq_some_iff.mp e
      intro q' hq'
      rcases List.mem_or_eq_of_mem_set hq' with hq' | rfl
      · exact hd q' hq'
      · show m ≤ p'.length
        rw [hf _ _ h1]
        exact hd q (List.mem_of_getElem? hq)
  have fuse : ∀ (J : String → String → String) (j k : Nat) (p p' : Page), p.fuse J j k = some p' → p'.length = p.length := by
    intro J j k p p' hp
    obtain ⟨n, rs, r, r', h1, h2, h3, -, -, -, rfl⟩ := Page.fuse_some hp
    rw [List.length_set]
  cases e with
  | fuse J i j k => exact key i _ _ (fuse J j k) he
  | fuseLeft J i j k =>
    refine key i (fun _ => decide (j ≠ 0)) (Page.fuseLeft J j k) ?_ he
    intro p p' hp
    cases k with
    | zero => cases hp
    | succ k => exact fuse J j k p p' hp
  | relabel lab i j k =>
    refine key i (fun _ => true) (Page.relabel lab j k) ?_ he
    intro p p' hp
    unfold Page.relabel at hp
    split at hp
    · cases hp
    · split at hp
      · split at hp
        · cases hp; rw [List.length_set]
        · cases hp
      · cases hp

/-- **C102, a program that tries.** Any list of edits of single intervals by numbers of either sign, possible or not, each as
    `try: ... except Exception: pass`: the textgrid ends up with the plain data after the possible ones.
    `_partial`, as `C94_attempts_partial` is. -/
theorem C102_attempts_partial {R : ClassTab → List (List CRef) → Prop} [LinkedRows R] (a : ARef) (m : Nat) (es : List STouch) :
    ∀ (h : Heap) (d : Draft), WorkableFor R h (h.agroups a) →
    Drafted h (h.agroups a) d → Solid d → (∀ q ∈ d, m ≤ q.1.length) → (∀ e ∈ es, e.sureAmong m) →
    ∃ h', STouch.tryAll a es h = .ok () h' ∧ WorkableFor R h' (h'.agroups a) ∧ Drafted h' (h'.agroups a) (STouch.actAll es d) ∧
      bookOf h' a = (STouch.actAll es d).map (·.1) := by
  induction es with
  | nil => exact fun h d wk dr _ _ _ => ⟨h, rfl, wk, dr, dr.book⟩
  | cons e es ih =>
    intro h d wk dr so hm hs
    have hse := hs e (by simp)
    have hs' := fun e he => hs e (List.mem_cons_of_mem _ he)
    have refused : ∀ x, e.run a h = .err x h → ((e.meant (d.map (·.1))).bind fun t => (Change.touch t).act d) = none →
        ∃ h', STouch.tryAll a (e :: es) h = .ok () h' ∧ WorkableFor R h' (h'.agroups a) ∧
          Drafted h' (h'.agroups a) (STouch.actAll (e :: es) d) ∧ bookOf h' a = (STouch.actAll (e :: es) d).map (·.1) := by
      intro x hr he
      obtain ⟨h', e2, wk2, dr2, q⟩ := ih h d wk dr so hm hs'
      refine ⟨h', ?_, wk2, ?_, ?_⟩
      · unfold STouch.tryAll
        refine Eq.trans (M.bind_ok (a := ()) (h' := h) ?_) e2
        unfold attempt
        rw [hr]
      · unfold STouch.actAll; rw [he]; exact dr2
      · unfold STouch.actAll; rw [he]; exact q
    have hb : bookOf h a = d.map (·.1) := dr.book
    rcases C102_meant h a e with ⟨t, n1, n2⟩ | ⟨n1, n2⟩
    · rw [hb] at n1
      have ht : t.sure := hse.meant (fun p hp => by obtain ⟨q, hq, rfl⟩ := List.mem_map.mp hp; exact hm q hq) n1
      rcases C94_decided_partial h a wk d dr so t ht with ⟨d', he⟩ | ⟨he, hr⟩
      · obtain ⟨k, e1, wk1, dr1⟩ := wk.mildStep dr (.touch t) he rfl
        obtain ⟨h', e2, wk2, dr2, q⟩ := ih k d' wk1 dr1 (so.step ht he) (touch_tiers hm he) hs'
        have hx : ((e.meant (d.map (·.1))).bind fun t => (Change.touch t).act d) = some d' := by rw [n1]; exact he
        refine ⟨h', ?_, wk2, ?_, ?_⟩
        · unfold STouch.tryAll
          refine Eq.trans (M.bind_ok (a := ()) (h' := k) ?_) e2
          unfold attempt
          rw [n2, show t.run a h = .ok () k from e1]
        · unfold STouch.actAll; rw [hx]; exact dr2
        · unfold STouch.actAll; rw [hx]; exact q
      · have hx : ((e.meant (d.map (·.1))).bind fun t => (Change.touch t).act d) = none := by rw [n1]; exact he
        rcases hr with hr | hr
        · exact refused _ (n2.trans hr) hx
        · exact refused _ (n2.trans hr) hx
    · rw [hb] at n1
      exact refused _ n2 (by rw [n1]; rfl)

/-- **C102, trying from the Praat textgrid on.** `AlignedTextGrid(textgrid, classes)`, for aligned covering tiers, followed by any attempts to fuse or
    relabel single intervals by numbers of either sign, succeeds and has the data after the possible ones.
    `_partial`, as `C94_import_partial` is. -/
theorem C102_tries_partial (h : Heap) (tiers : List PTier) (arg : ClassArg) (tss : List (List PTier)) (css : List (List CRef))
    (hr : ReachC h.ct) (td : Tidy h) (ac : Allocated h) (hn : nestify h.ct tiers arg = .ok (tss, css)) (hne : tss ≠ [])
    (hlen : tss.map List.length = css.map List.length) (good : ∀ ts ∈ tss, GoodTiers ts) (gc : TopClasses h.ct css) (al : AlikeClasses css)
    (lo hi : Time) (cov : ∀ ts ∈ tss, Covering ts lo hi) (m : Nat) (hm : ∀ cs ∈ css, m ≤ cs.length)
    (es : List STouch) (hs : ∀ e ∈ es, e.sureAmong m) :
    ∃ h', (do let a ← newAtg tiers arg; STouch.tryAll a es; pure a : M ARef) h = .ok h.nA h' ∧
      bookOf h' h.nA = (STouch.actAll es (draftFrom tss (css.map (List.map h.ct.name)))).map (·.1) := by
  obtain ⟨h1, e1, wk, dr, -⟩ := import_start h tiers arg tss css hr td ac hn hne hlen good gc al lo hi cov
  have hq : ∀ q ∈ draftFrom tss (css.map (List.map h.ct.name)), m ≤ q.1.length := by
    intro q hq
    unfold draftFrom bookFrom at hq
    obtain ⟨p, hp, rfl⟩ := List.mem_map.mp hq
    obtain ⟨⟨ts, ns⟩, hz, rfl⟩ := List.mem_map.mp hp
    obtain ⟨n, hz⟩ := List.mem_iff_getElem?.mp hz
    obtain ⟨z1, z2⟩ := List.getElem?_zip_eq_some.mp hz
    rw [List.getElem?_map, Option.map_eq_some_iff] at z2
    obtain ⟨cs, hc, rfl⟩ := z2
    have hl : ts.length = cs.length := by
      have := congrArg (fun l => l[n]?) hlen
      simp only [List.getElem?_map, z1, hc, Option.map_some] at this
      exact Option.some.inj this
    have := hm cs (List.mem_of_getElem? hc)
    simp only [List.length_zip, List.length_map]
    omega
  obtain ⟨h', e2, -, -, q⟩ := C102_attempts_partial h.nA m es h1 _ wk dr (Covering.solid cov) hq hs
  refine ⟨h', ?_, q⟩
  mstep e1
  mstep e2
  rfl

/-! ## Cases that meet the hypotheses -/

/-- the last phone of the last speaker; "T" of the first speaker with the phone before it, in the same word; the first word of three, from the back, with
    the next one; the first phone, now the third from the back; then the first word by a place from the front -/
def exBack : List SChange :=
  [.signed (.relabel "z" (-1) (-1) (-1)), .signed (.fuseLeft joinSpace (-2) (-1) (-2)), .signed (.fuse joinSpace 0 (-2) (-3)),
   .signed (.relabel "y" (-2) 1 (-3)), .plain (.touch (.relabel "x" 0 0 0))]

/-- what they leave -/
def exBackDone : Book :=
  [[("Word", [(0, 3, "x"), (3, 4, "")]), ("Phone", [(0, 1, "y"), (1, 3, "K T"), (3, 4, "")])],
   [("Word", [(0, 2, "hm"), (2, 4, "")]), ("Phone", [(0, 1, "HH"), (1, 2, "M"), (2, 4, "z")])]]

theorem exBack_acts : ∃ q', SChange.actBothAll exBack (draftFrom [exPraat.take 2, exPraat.drop 2] [["Word", "Phone"], ["Word", "Phone"]],
    draftFrom [exPraat.take 2, exPraat.drop 2] [["Word", "Phone"], ["Word", "Phone"]]) = some q' ∧ q'.1.map (·.1) = exBackDone := by
  have h : (SChange.actBothAll exBack (draftFrom [exPraat.take 2, exPraat.drop 2] [["Word", "Phone"], ["Word", "Phone"]],
    draftFrom [exPraat.take 2, exPraat.drop 2] [["Word", "Phone"], ["Word", "Phone"]])).map (fun q => q.1.map (·.1)) = some exBackDone := by
    decide +kernel
  exact Option.map_eq_some_iff.mp h

example : ∃ h', (do let a ← newAtg exPraat (.flat [cWord, cPhone])
                    SChange.runAll a exBack
                    pure a : M ARef) heap0 = .ok 0 h' ∧ bookOf h' 0 = exBackDone := by
  obtain ⟨q', e, d⟩ := exBack_acts
  obtain ⟨h', e1, q, -⟩ := C102_import_partial heap0 exPraat (.flat [cWord, cPhone]) [exPraat.take 2, exPraat.drop 2]
    [[cWord, cPhone], [cWord, cPhone]] .base heap0_tidy heap0_alloc rfl (by simp) (by decide) exPraat_good exBack
    wordPhone_good.topClasses wordPhone_good.even.2 0 4 exPraat_covering q' e
  exact ⟨h', e1, q.trans d⟩

/-- a phone with the next one, which is in another word; a group that does not exist; "T" with the phone before it; the last word with the next one, which
    there is not; the first two words, and then the first two phones, now in the same word -/
def exBackTries : List STouch :=
  [.fuse joinSpace (-2) (-1) 0, .relabel "x" (-3) 0 0, .fuseLeft joinSpace 0 (-1) (-2), .fuse joinSpace 0 0 (-1),
   .fuse joinSpace 0 (-2) (-3), .fuse joinSpace (-2) (-1) (-3)]

example : ∃ h', (do let a ← newAtg exPraat (.flat [cWord, cPhone])
                    STouch.tryAll a exBackTries
                    pure a : M ARef) heap0 = .ok 0 h' ∧
    bookOf h' 0 = [[("Word", [(0, 3, " cat"), (3, 4, "")]), ("Phone", [(0, 3, " K T"), (3, 4, "")])],
                   [("Word", [(0, 2, "hm"), (2, 4, "")]), ("Phone", [(0, 1, "HH"), (1, 2, "M"), (2, 4, "")])]] := by
  obtain ⟨h', e, q⟩ := C102_tries_partial heap0 exPraat (.flat [cWord, cPhone]) [exPraat.take 2, exPraat.drop 2]
    [[cWord, cPhone], [cWord, cPhone]] .base heap0_tidy heap0_alloc rfl (by simp) (by decide) exPraat_good
    wordPhone_good.topClasses wordPhone_good.even.2 0 4 exPraat_covering 2 (by decide) exBackTries (by
      intro e he
      simp only [exBackTries, List.mem_cons, List.not_mem_nil, or_false] at he
      rcases he with rfl | rfl | rfl | rfl | rfl | rfl
      · exact joinSpace_sure
      · show "x" ≠ "#"; decide
      · exact ⟨by decide, joinSpace_sure⟩
      · exact joinSpace_sure
      · exact joinSpace_sure
      · exact joinSpace_sure)
  refine ⟨h', e, q.trans ?_⟩
  decide +kernel

example : entryAtInt 0 (-1) (-1) (-1) exTryGrid = .ok 11 exTryGrid :=
  C102_last exTryGrid 0 1 [0] 3 [2] 11 [9, 10] (by decide +kernel) (by decide +kernel) (by decide +kernel)

-- the last interval of each tier of the second speaker, the second of the last tier, and refused lists
example : groupGetInt exTryGrid 1 [-1, -1] = .ok [8, 11] ∧ groupGetInt exTryGrid 1 [0, -2] = .ok [7, 10] ∧
    groupGetInt exTryGrid 1 [-3, 0] = .error .indexError ∧ groupGetInt exTryGrid 1 [0] = .error .exc := by
  refine ⟨(C102_list _ _ _ _).mpr ⟨by decide +kernel, by decide +kernel, ?_⟩, by decide +kernel, by decide +kernel, by decide +kernel⟩
  rw [show exTryGrid.gtiers 1 = [2, 3] by decide +kernel]
  intro j i t hi ht
  match j with
  | 0 => cases hi; cases ht; decide +kernel
  | 1 => cases hi; cases ht; decide +kernel

/-- the same by running the program; and numbers that are too small, in each place -/
theorem exBack_run :
    bookOf (run0 (do let a ← newAtg exPraat (.flat [cWord, cPhone]); SChange.runAll a exBack)) 0 = exBackDone ∧
    (STouch.run 0 (.relabel "x" (-3) 0 0) exTryGrid).out = .error .indexError ∧
    (STouch.run 0 (.relabel "x" (-2) (-3) 0) exTryGrid).out = .error .indexError ∧
    (STouch.run 0 (.relabel "x" (-2) 0 (-4)) exTryGrid).out = .error .indexError ∧
    (STouch.run 0 (.relabel "x" (-2) 0 (-3)) exTryGrid).out = .ok () := by
  decide +kernel

end ATG
