import Verif.Lemmas.TierInit
import Verif.Model.Base
/-!
# C09, C11, C51: precedence links, tier construction, casting
-/
namespace ATG

/-! ## C09 `set_fol` and `set_prev` -/

/-- C09 as stated: after `x.set_fol(y)`, `x.fol` is `y` and `y.prev` is `x`. -/
def C09_statement : Prop :=
  ∀ (x y : Ref) (h : Heap), x ≠ y → h.cls x = h.cls y → h.label x ≠ "#" → h.label y ≠ "#" →
    ∃ h', setFol x (.obj y) h = .ok () h' ∧ h'.fol x = some (.obj y) ∧ h'.prev y = some (.obj x)

/-- The state after `A.fuse_rightwards()` in a tier of three words A, B, C (entries 0, 1, 2). -/
def exFused : Heap := run0 (do
  let a ← newEntry cWord 0 1 "a"
  let b ← newEntry cWord 1 2 "b"
  let c ← newEntry cWord 2 3 "c"
  let _ ← newTier [a, b, c] none
  fuseRight joinSpace a)

/-- C09 fails: after `A.fuse_rightwards()` in a `Word` tier A, B, C, `A.fol` is C but `C.prev` is
    still B; then `A.set_fol(C)` returns at once (`mixins/mixins.py:80-81`) and leaves `C.prev`. -/
theorem C09_violated : ¬ C09_statement := by
  intro hst
  obtain ⟨h', e, _, hp⟩ := hst 0 2 exFused (by decide) (by decide +kernel) (by decide +kernel)
    (by decide +kernel)
  have e' : ((setFol 0 (.obj 2) exFused).heap).prev 2 = some (.obj 1) := by decide +kernel
  rw [e] at e'
  simp only [Res.heap] at e'
  rw [hp] at e'
  exact absurd e' (by decide)

/-- C09, the part that holds: unless `x.fol` already is `y` while `y.prev` is not `x`, the links become
    mutual; all other pointers and all other attributes stay as they are. -/
theorem C09_set_fol_partial (x y : Ref) (h : Heap) (hxy : x ≠ y) (hc : h.cls x = h.cls y)
    (hlx : h.label x ≠ "#") (hly : h.label y ≠ "#")
    (hst : h.fol x = some (.obj y) → h.prev y = some (.obj x)) :
    setFol x (.obj y) h = .ok ()
      { h with fol := upd h.fol x (some (.obj y)), prev := upd h.prev y (some (.obj x)) } := by
  rw [setFol_ok x y h hxy hlx hc.symm]
  by_cases e : h.fol x = some (.obj y)
  · simp [e, upd_eq_self _ _ _ e, upd_eq_self _ _ _ (hst e)]
  · simp [e, hly]

/-- C09 for `set_prev`. -/
theorem C09_set_prev_partial (x y : Ref) (h : Heap) (hxy : x ≠ y) (hc : h.cls x = h.cls y)
    (hlx : h.label x ≠ "#") (hly : h.label y ≠ "#")
    (hst : h.prev x = some (.obj y) → h.fol y = some (.obj x)) :
    setPrev x (.obj y) h = .ok ()
      { h with prev := upd h.prev x (some (.obj y)), fol := upd h.fol y (some (.obj x)) } := by
  rw [setPrev_ok x y h hxy hlx hc.symm]
  by_cases e : h.prev x = some (.obj y)
  · simp [e, upd_eq_self _ _ _ e, upd_eq_self _ _ _ (hst e)]
  · simp [e, hly]

/-- C09: an entry cannot follow or precede itself; nothing changes. -/
theorem C09_self (x : Ref) (h : Heap) :
    setFol x (.obj x) h = .err .exc h ∧ setPrev x (.obj x) h = .err .exc h := by
  constructor
  · simp [setFol, linkFuel, setFolN, M.bind_apply]
  · simp [setPrev, linkFuel, setPrevN, M.bind_apply]

/-- C09: an entry of another class is rejected and nothing changes. -/
theorem C09_class (x y : Ref) (h : Heap) (hxy : x ≠ y) (hc : h.cls x ≠ h.cls y)
    (hlx : h.label x ≠ "#") (hf : h.fol x ≠ some (.obj y)) (hp : h.prev x ≠ some (.obj y)) :
    setFol x (.obj y) h = .err .exc h ∧ setPrev x (.obj y) h = .err .exc h := by
  have hne : y ≠ x := fun e => hxy e.symm
  have hc' : ¬ h.cls y = h.cls x := fun e => hc e.symm
  constructor
  · simp [setFol, linkFuel, setFolN, M.bind_apply, hne, hlx, hf, hc']
  · simp [setPrev, linkFuel, setPrevN, M.bind_apply, hne, hlx, hp, hc']

/-- C09: the mutual recursion stops after at most three calls, in every heap and for every argument
    (more fuel never changes the outcome, so the fuel of the model is not observable). -/
theorem C09_fuel (n : Nat) (x : Ref) (l : Link) (h : Heap) :
    setFolN (n + 3) x l h = setFol x l h ∧ setPrevN (n + 3) x l h = setPrev x l h := by
  constructor
  · by_cases e0 : l = .obj x
    · subst e0; simp [setFol, linkFuel, setFolN, M.bind_apply]
    by_cases e1 : h.label x = "#"
    · simp [setFol, linkFuel, setFolN, M.bind_apply, e0, e1]
    cases l with
    | bumper => simp [setFol, linkFuel, setFolN, M.bind_apply, e1]
    | obj y =>
      have hxy : x ≠ y := fun e => e0 (by rw [e])
      by_cases hc : h.cls y = h.cls x
      · rw [setFolN_ok n x y h hxy e1 hc, setFol_ok x y h hxy e1 hc]
      · have hne : y ≠ x := fun e => hxy e.symm
        simp [setFol, linkFuel, setFolN, M.bind_apply, hne, e1, hc]
  · by_cases e0 : l = .obj x
    · subst e0; simp [setPrev, linkFuel, setPrevN, M.bind_apply]
    by_cases e1 : h.label x = "#"
    · simp [setPrev, linkFuel, setPrevN, M.bind_apply, e0, e1]
    cases l with
    | bumper => simp [setPrev, linkFuel, setPrevN, M.bind_apply, e1]
    | obj y =>
      have hxy : x ≠ y := fun e => e0 (by rw [e])
      by_cases hc : h.cls y = h.cls x
      · rw [setPrevN_ok n x y h hxy e1 hc, setPrev_ok x y h hxy e1 hc]
      · have hne : y ≠ x := fun e => hxy e.symm
        simp [setPrev, linkFuel, setPrevN, M.bind_apply, hne, e1, hc]

-- two fresh words meet the hypotheses; the result is mutual
example : let h := heapOf [(cWord, 0, 1, "a"), (cWord, 1, 2, "b")]
    h.cls 0 = h.cls 1 ∧ h.fol 0 ≠ some (.obj 1) ∧
    (setFol 0 (.obj 1) h).heap.fol 0 = some (.obj 1) ∧
    (setFol 0 (.obj 1) h).heap.prev 1 = some (.obj 0) := by decide +kernel
example : (setFol 0 (.obj 1) (heapOf [(cWord, 0, 1, "a"), (cPhone, 1, 2, "b")])).out = .error .exc := by
  decide +kernel

/-! ## C11 tier construction -/

/-- C11: a tier built from intervals lists exactly them in order of start, linked with boundaries at both
    ends; every entry has the tier's class and the tier as `intier`; on a top-level tier every entry's
    `within` is the tier. Times, labels, subset lists and supersets of all entries, and the pointers of
    all other entries, are unchanged. -/
theorem C11_tier_init (t : TRef) (entries : List Ref) (c s : CRef) (name : String) (h : Heap)
    (hnew : h.tcont t = .unset) (hci : h.ct.isSub c cPoint = false) (hs : h.ct.sup c = some s)
    (hp : ∀ x ∈ entries, h.isPoint x = false) (hnd : entries.Nodup)
    (hl : ∀ x ∈ entries, h.label x ≠ "#") :
    ∃ h', tierInit t entries c name h = .ok () h' ∧
      (h'.tseq t).vals.Perm entries ∧ SortedByStart h' (h'.tseq t).vals ∧
      DoublyLinked h' (h'.tseq t).vals ∧
      (∀ x ∈ entries, h'.cls x = c ∧ h'.intier x = some t) ∧
      (h.ct.isSub s cTop = true → ∀ x ∈ entries, h'.within x = some (.tier t)) ∧
      (∀ x, x ∉ entries → h'.fol x = h.fol x ∧ h'.prev x = h.prev x ∧ h'.intier x = h.intier x ∧
        h'.within x = h.within x ∧ h'.cls x = h.cls x) ∧
      h'.start = h.start ∧ h'.stop = h.stop ∧ h'.label = h.label ∧ h'.subs = h.subs ∧
      h'.sup = h.sup ∧ h'.nE = h.nE ∧ (∀ t', t' ≠ t → h'.tseq t' = h.tseq t') := by
  have hmem : ∀ x, x ∈ slSort h entries ↔ x ∈ entries := fun x => (slSort_perm h entries).mem_iff
  refine ⟨_, tierInit_ok t entries c s name h hnew hci hs hp hnd hl, ?_, ?_, ?_, ?_, ?_, ?_, rfl, rfl, rfl,
    rfl, rfl, rfl, ?_⟩
  · simpa [tierBuilt] using slSort_perm h entries
  · have := slSort_sorted h entries
    simpa [tierBuilt, SortedByStart] using this
  · have : (tierBuilt h t (slSort h entries) c s name).tseq t =
      ⟨slSort h entries, if slSort h entries = [] then none else some c⟩ := by simp [tierBuilt]
    rw [this]
    exact linked_of _ _ ((slSort_perm h entries).nodup_iff.mpr hnd) h.fol h.prev rfl rfl
  · intro x hx; simp [tierBuilt, hmem, hx]
  · intro e x hx; simp [tierBuilt, hmem, hx, e]
  · intro x hx
    refine ⟨by simp [tierBuilt, folOf, hmem, hx], by simp [tierBuilt, prevOf, hmem, hx],
      by simp [tierBuilt, hmem, hx], ?_, by simp [tierBuilt, hmem, hx]⟩
    simp only [tierBuilt, hmem]
    split <;> simp [hx]
  · intro t' ht'; simp [tierBuilt, upd, ht']

-- a `Word` tier (top-level) from three words given out of order
example : let h := heapOf [(cWord, 2, 3, "c"), (cWord, 0, 1, "a"), (cWord, 1, 2, "b")]
    let h' := (newTier [0, 1, 2] none h).heap
    h.ct.sup cWord = some 7 ∧ h.ct.isSub 7 cTop = true ∧ (h'.tseq 0).vals = [1, 2, 0] ∧
    h'.fol 1 = some (.obj 2) ∧ h'.prev 1 = some .bumper ∧ h'.fol 0 = some .bumper ∧
    h'.intier 2 = some 0 ∧ h'.within 2 = some (.tier 0) := by decide +kernel
-- the labels must not be "#": such an entry ignores `set_fol` and the tier is not linked
example : let h := heapOf [(cWord, 0, 1, "#"), (cWord, 1, 2, "b")]
    (newTier [0, 1] none h).heap.fol 0 = none := by decide +kernel

/-! ## C51 casting -/

/-- C51: a cast that succeeds changes the class of the entry and nothing else. -/
theorem C51_cast (c : CRef) (x : Ref) (h : Heap) (hk : h.ct.isSub c cPoint = h.isPoint x) :
    castTo c x h = .ok () { h with cls := upd h.cls x c } := castTo_ok c x h hk

/-- C51: a point is never cast to an interval class, nor an interval to a point class; nothing
    changes. -/
theorem C51_cast_reject (c : CRef) (x : Ref) (h : Heap) (hk : h.ct.isSub c cPoint ≠ h.isPoint x) :
    castTo c x h = .err .assertionError h := by simp [castTo, hk]

/-- C51: after any cast attempt the entry is a point exactly if it was one before. -/
theorem C51_kind (c : CRef) (x y : Ref) (h : Heap) : (castTo c x h).heap.isPoint y = h.isPoint y := by
  unfold castTo
  split
  · rename_i e
    simp only [Res.heap, Heap.isPoint, upd_apply]
    split
    · rename_i e2; subst e2; exact e
    · rfl
  · rfl

example : let h := heapOf [(cInterval, 0, 1, "a"), (cPoint, 1, 1, "p")]
    (castTo cWord 0 h).heap.cls 0 = cWord ∧ (castTo cWord 1 h).out = .error .assertionError ∧
    (castTo cPoint 0 h).out = .error .assertionError := by decide +kernel

end ATG
