import Verif.Lemmas.Frame
import Verif.Lemmas.History
/-!
# C06, C10, C12, C13, C14: subset lists and supersets
-/
namespace ATG

/-! ## C06 `SequenceList.remove` and `pop` -/

/-- `i` is the position of the first entry of `l` with the value of `x`. -/
def FirstAt (h : Heap) (l : List Ref) (x : Ref) (i : Nat) : Prop :=
  (∃ y, l[i]? = some y ∧ SameValue h y x) ∧ ∀ j y, j < i → l[j]? = some y → ¬ SameValue h y x

theorem slIndexOf_first (h : Heap) (l : List Ref) (x : Ref) (i : Nat) (hf : FirstAt h l x i) :
    slIndexOf h l x = some i := by
  obtain ⟨⟨y, hy, hs⟩, hm⟩ := hf
  unfold slIndexOf
  rw [List.findIdx?_eq_some_iff_getElem]
  obtain ⟨hlt, he⟩ := List.getElem?_eq_some_iff.mp hy
  refine ⟨hlt, ?_, ?_⟩
  · rw [he, beq_iff_eq, tup_eq_iff]; exact hs
  · intro j hj
    have hjl : j < l.length := by omega
    rw [Bool.not_eq_true, beq_eq_false_iff_ne, ne_eq, tup_eq_iff]
    exact hm j _ hj (List.getElem?_eq_getElem hjl)

/-- C06 as stated, for subset lists: `w.subset_list.remove(x)` deletes exactly the first entry with the
    value of `x`. -/
def C06_statement : Prop :=
  ∀ (w x : Ref) (h : Heap) (i : Nat), FirstAt h (h.subs w).vals x i →
    ((subsRemove w x h).heap.subs w).vals = (h.subs w).vals.eraseIdx i

/-- A word (entry 0) whose subset list was set to two phones (1, 2) with the same times and label. -/
def exTwins : Heap := run0 (do
  let w ← newEntry cWord 0 2 "w"
  let p ← newEntry cPhone 0 1 "p"
  let q ← newEntry cPhone 0 1 "p"
  setSubs w [p, q])

/-- C06 fails: with two phones of the same value, `word.subset_list.remove(p)` removes both, since
    `p.remove_superset()` (`sequence_list.py:247`) finds its twin `in` the list and removes that too. -/
theorem C06_violated : ¬ C06_statement := by
  intro hst
  have := hst 0 1 exTwins 0 ⟨⟨1, by decide +kernel, by decide +kernel⟩, by
    intro j y hj; omega⟩
  exact absurd this (by decide +kernel)

/-- C06, the part that holds for subset lists: the first entry with the value of `x` is deleted and all
    others stay, if after that no entry with the value of `x` is left or `x` belongs to another superset
    (or to none). -/
theorem C06_subset_remove_partial (w x : Ref) (h : Heap) (i : Nat)
    (hf : FirstAt h (h.subs w).vals x i)
    (hc : h.sup x ≠ some w ∨ ∀ y ∈ (h.subs w).vals.eraseIdx i, y ≠ x ∧ ¬ SameValue h y x) :
    (subsRemove w x h).heap.subs w = ⟨(h.subs w).vals.eraseIdx i, (h.subs w).ecls⟩ := by
  unfold subsRemove slRemoveAt
  rw [M.bind_apply, M.get_apply]
  simp only [slIndexOf_first h _ x i hf]
  rw [M.bind_apply]
  simp only [putSubs, M.modify_apply]
  rcases hc with hc | hc
  · rw [(removeSuperset_only x _).1 w (by exact hc)]; simp
  · by_cases e : h.sup x = some w
    · rw [removeSuperset_forgot x w _ (by exact e) (by
        simp only [upd_same]
        rintro (hh | ⟨y, hy, hs⟩)
        · exact (hc x hh).1 rfl
        · exact (hc y hy).2 hs)]
      simp [Res.heap, forgot]
    · rw [(removeSuperset_only x _).1 w (by exact e)]; simp

/-- C06 for the list of a tier: exactly the first entry with the value of `x` is deleted, always; no other
    tier changes. -/
theorem C06_tier_remove (t : TRef) (x : Ref) (h : Heap) (i : Nat) (hf : FirstAt h (h.tseq t).vals x i) :
    (slRemoveAt (fun h => h.tseq t) (putSeq t) x h).heap.tseq t =
      ⟨(h.tseq t).vals.eraseIdx i, (h.tseq t).ecls⟩ ∧
    ∀ t', t' ≠ t → (slRemoveAt (fun h => h.tseq t) (putSeq t) x h).heap.tseq t' = h.tseq t' := by
  unfold slRemoveAt
  rw [M.bind_apply, M.get_apply]
  simp only [slIndexOf_first h _ x i hf]
  rw [M.bind_apply]
  simp only [putSeq, M.modify_apply]
  have hk := removeSuperset_frame x
    { h with tseq := upd h.tseq t ⟨(h.tseq t).vals.eraseIdx i, (h.tseq t).ecls⟩ }
  unfold RemFrame at hk
  rw [hk]
  exact ⟨by simp, fun t' ht' => by simp [upd, ht']⟩

/-- C06: `remove` raises `ValueError` and changes nothing when no entry has the value of `x`. -/
theorem C06_remove_none (get : Heap → SL) (put : SL → M Unit) (x : Ref) (h : Heap)
    (hn : ∀ y ∈ (get h).vals, ¬ SameValue h y x) : slRemoveAt get put x h = .err .valueError h := by
  unfold slRemoveAt
  mstep M.get_apply h
  have : slIndexOf h (get h).vals x = none := by
    unfold slIndexOf
    rw [List.findIdx?_eq_none_iff]
    intro y hy
    rw [beq_eq_false_iff_ne, ne_eq, tup_eq_iff]; exact hn y hy
  rw [this]; rfl

/-- C06: `pop` of something that is not in the subset list changes no list, superset, time or label. -/
theorem C06_pop_none (w x : Ref) (h : Heap) (hn : ¬ Listed h (h.subs w).vals x) :
    ∃ f p, (ivalPop w x h).heap = { h with fol := f, prev := p } := by
  unfold ivalPop
  rw [M.bind_apply, M.get_apply]
  simp only []
  rw [if_neg (by rw [slContains_iff]; exact hn)]
  rw [M.bind_apply, M.pure_apply]
  simp only []
  rw [M.bind_apply, M.get_apply]
  exact ⟨_, _, setPrecedence_frame (h.subs w).vals h⟩

-- a list where the condition of the partial theorem holds, and its effect
example : let h := run0 (do
      let w ← newEntry cWord 0 2 "w"
      let p ← newEntry cPhone 0 1 "p"
      let q ← newEntry cPhone 1 2 "q"
      setSubs w [p, q])
    FirstAt h (h.subs 0).vals 2 1 ∧ ((subsRemove 0 2 h).heap.subs 0).vals = [1] := by
  refine ⟨⟨⟨2, by decide +kernel, by decide +kernel⟩, ?_⟩, by decide +kernel⟩
  intro j y hj hy
  have : j = 0 := by omega
  subst this
  have e : y = 1 := by
    have h1 : (some 1 : Option Ref) = some y := by rw [← hy]; decide +kernel
    exact (Option.some.inj h1).symm
  subst e; decide +kernel

/-! ## C10 subset lists are doubly linked -/

/-- C10: whenever `w.set_subset_list(l)` returns, in whatever state it was called, the subset list of `w`
    consists of exactly the given intervals in order of start and is doubly linked with boundaries at both
    ends; times and labels are unchanged. -/
theorem C10_set_subset_list (w : Ref) (l : List Ref) (h h' : Heap) (hnd : l.Nodup)
    (hl : ∀ x ∈ l, h.label x ≠ "#") (hok : setSubsetList w l h = .ok () h') :
    (h'.subs w).vals.Perm l ∧ SortedByStart h (h'.subs w).vals ∧ DoublyLinked h' (h'.subs w).vals ∧
      h'.start = h.start ∧ h'.stop = h.stop ∧ h'.label = h.label ∧ h'.cls = h.cls := by
  by_cases hi : ∀ x ∈ l, ∃ c, h.ct.sub (h.cls w) = some c ∧ h.ct.isSub (h.cls x) c = true
  · unfold setSubsetList at hok
    rw [M.bind_ok (allInst_ok w l h hi), if_pos rfl] at hok
    by_cases hc : ∀ x ∈ l, ∀ y ∈ l, h.cls x = h.cls y
    · rw [M.bind_ok (slMk_ok h l hc)] at hok
      rw [M.bind_ok (show putSubs w _ h = .ok () { h with
        subs := upd h.subs w ⟨slSort h l, headCls h l⟩ } from rfl)] at hok
      generalize hh1 : ({ h with subs := upd h.subs w ⟨slSort h l, headCls h l⟩ } : Heap) = h1 at hok
      have hf := adoptAll_subs w l h1
      cases q : adoptAll w l h1 with
      | err e h2 => rw [M.bind_err q] at hok; cases hok
      | ok a h2 =>
        rw [q] at hf
        rw [M.bind_ok q, M.bind_ok (setContainsSubs_ok w h2)] at hok
        obtain ⟨hf1, hf2⟩ := hf
        simp only [Res.heap] at hf1 hf2
        have hs : (h2.subs w).vals = slSort h l := by rw [hf1]; subst hh1; simp
        have e1 : h2.cls = h.cls := by rw [hf2]; subst hh1; rfl
        have e2 : h2.label = h.label := by rw [hf2]; subst hh1; rfl
        have e3 : h2.start = h.start := by rw [hf2]; subst hh1; rfl
        have e4 : h2.stop = h.stop := by rw [hf2]; subst hh1; rfl
        have hmem : ∀ x, x ∈ slSort h l ↔ x ∈ l := fun x => (slSort_perm h l).mem_iff
        have hnd' : (slSort h l).Nodup := (slSort_perm h l).nodup_iff.mpr hnd
        rw [M.bind_ok (M.get_apply _)] at hok
        simp only [hs] at hok
        rw [setPrecedence_ok _ (slSort h l) hnd' (by
          intro x hx y hy
          show h2.cls x = h2.cls y
          rw [e1]; exact hc x ((hmem x).mp hx) y ((hmem y).mp hy)) (by
          intro x hx
          show h2.label x ≠ "#"
          rw [e2]; exact hl x ((hmem x).mp hx))] at hok
        cases hok
        refine ⟨?_, ?_, ?_, e3, e4, e2, e1⟩
        · show (h2.subs w).vals.Perm l
          rw [hs]; exact slSort_perm h l
        · show SortedByStart h (h2.subs w).vals
          rw [hs]; exact slSort_sorted h l
        · show DoublyLinked _ (h2.subs w).vals
          rw [hs]; exact linked_of _ _ hnd' _ _ rfl rfl
    · rw [M.bind_err (slMk_err h l hc)] at hok; cases hok
  · obtain ⟨e, he⟩ := setSubsetList_err w l h hi
    rw [he] at hok; cases hok

/-- C10: re-linking a list sets the pointers of its entries and nothing else, whatever they were before. -/
theorem C10_precedence (l : List Ref) (h : Heap) (hnd : l.Nodup)
    (hc : ∀ x ∈ l, ∀ y ∈ l, h.cls x = h.cls y) (hl : ∀ x ∈ l, h.label x ≠ "#") :
    ∃ f p, setPrecedence l h = .ok () { h with fol := f, prev := p } ∧
      DoublyLinked { h with fol := f, prev := p } l ∧
      ∀ r, r ∉ l → f r = h.fol r ∧ p r = h.prev r :=
  ⟨_, _, setPrecedence_ok h l hnd hc hl, linked_of _ _ hnd h.fol h.prev rfl rfl,
    fun r hr => by simp [folOf, prevOf, hr]⟩

/-- C10: after any admissible history of calls (without the raw `subset_list.remove`) every subset list is
    doubly linked. -/
theorem C10_history (ct : ClassTab) (V : List CRef) (hf : Flat ct V) (os : List Op)
    (hv : Valid V os (emptyHeap ct)) (hn : NoListRemove os) (w : Ref) :
    DoublyLinked (runAll os (emptyHeap ct)) ((runAll os (emptyHeap ct)).subs w).vals :=
  ((Inv.empty ct V hf).runAll os hv).2 hn (LinkedAll.empty ct) w

/-- The classes `Word` and `Phone` of the package are well-behaved. -/
theorem flat_wordphone : Flat baseClasses [cWord, cPhone] := by
  have e1 : baseClasses.sub cWord = some cPhone := by decide +kernel
  have e2 : baseClasses.sub cPhone = some 8 := by decide +kernel
  constructor
  · intro c hc x hx d hd hs
    simp only [List.mem_cons, List.not_mem_nil, or_false] at hc hx
    rcases hc with rfl | rfl
    · rw [e1] at hd; cases hd
      rcases hx with rfl | rfl
      · exact absurd hs (by decide +kernel)
      · rfl
    · rw [e2] at hd; cases hd
      rcases hx with rfl | rfl <;> exact absurd hs (by decide +kernel)
  · intro c hc d hd hs
    simp only [List.mem_cons, List.not_mem_nil, or_false] at hc hd
    rcases hc with rfl | rfl
    · rw [e1] at hs; cases hs; decide +kernel
    · rw [e2] at hs; cases hs
      rcases hd with hd | hd <;> exact absurd hd (by decide)

/-- A history with two words, three phones, a move between the words, a failing call and a removal. -/
def exHistory : List Op :=
  [.create cWord 0 3 "a", .create cWord 3 6 "b", .create cPhone 0 1 "p", .create cPhone 1 2 "q",
   .create cPhone 3 4 "r", .append 0 2, .append 0 3, .appendSubset 1 4, .append 1 3, .append 2 0,
   .assign 0 [4, 2], .pop 0 4, .removeSuperset 3, .assign 0 [3, 2, 4]]

example : Valid [cWord, cPhone] exHistory (emptyHeap baseClasses) := by decide +kernel
example : ((runAll exHistory (emptyHeap baseClasses)).subs 0).vals = [2, 3, 4] := by decide +kernel
example : NoListRemove exHistory := by
  intro o ho w x e
  subst e
  simp [exHistory] at ho

/-! ## C12 `super_instance` and `subset_list` agree -/

/-- the two directions of the relation agree -/
def Agree (h : Heap) : Prop := ∀ w x, x ∈ (h.subs w).vals ↔ h.sup x = some w

/-- C12 as stated, with `set_super_instance` and `set_subset_list` among the calls: the agreement reached
    by a history is kept by one more call of them. -/
def C12_statement : Prop :=
  ∀ (ct : ClassTab) (V : List CRef) (os : List Op), Flat ct V → Valid V os (emptyHeap ct) →
    Agree (runAll os (emptyHeap ct)) ∧
    (∀ x s, x < (runAll os (emptyHeap ct)).nE → s < (runAll os (emptyHeap ct)).nE →
      Agree (setSuper x s (runAll os (emptyHeap ct))).heap) ∧
    (∀ w l, w < (runAll os (emptyHeap ct)).nE → (∀ x ∈ l, x < (runAll os (emptyHeap ct)).nE) → l.Nodup →
      Agree (setSubsetList w l (runAll os (emptyHeap ct))).heap)

/-- two words, the first with a phone -/
def exSetSuper : List Op :=
  [.create cWord 0 3 "a", .create cWord 3 6 "b", .create cPhone 0 1 "p", .append 0 2]

/-- C12 fails: `p.set_super_instance(b)` makes `b` the superset of `p`, while the old superset `a` goes
    on listing `p` (`sequences/sequences.py:127-130`). -/
theorem C12_violated_set_super_instance : ¬ C12_statement := by
  intro hst
  have := (hst baseClasses [cWord, cPhone] exSetSuper flat_wordphone (by decide +kernel)).2.1 2 1
    (by decide +kernel) (by decide +kernel) 0 2
  exact absurd this (by decide +kernel)

/-- C12 fails: `a.set_subset_list([])` empties the list of `a`, while the phone keeps `a` as its
    superset. -/
theorem C12_violated_set_subset_list : ¬ C12_statement := by
  intro hst
  have := (hst baseClasses [cWord, cPhone] exSetSuper flat_wordphone (by decide +kernel)).2.2 0 []
    (by decide +kernel) (by simp) (by simp) 0 2
  exact absurd this (by decide +kernel)

/-- C12 fails without the condition that values are distinct: after `a.subset_list = [p]`,
    `a.remove_from_subset_list(q)` with a copy `q` of `p` drops `p` from the list, while `p` keeps `a` as
    its superset. -/
theorem C12_violated_copy : ∃ os : List Op, ¬ Agree (runAll os (emptyHeap baseClasses)) ∧
    os = [.create cWord 0 3 "a", .create cPhone 0 1 "p", .create cPhone 0 1 "p", .assign 0 [1],
      .removeFrom 0 2] := by
  refine ⟨_, ?_, rfl⟩
  intro ha
  exact absurd (ha 0 1) (by decide +kernel)

/-- C12, the part that holds: after any admissible history of create / append / append_subset_list /
    subset_list= / remove_superset / remove_from_subset_list / pop / subset_list.remove calls, including
    failing ones, `x` is in `w.subset_list` exactly when `x.super_instance` is `w`, and no list holds an
    interval twice. Missing: `set_super_instance` and direct `set_subset_list`, for which the claim is
    false. -/
theorem C12_history_partial (ct : ClassTab) (V : List CRef) (hf : Flat ct V) (os : List Op)
    (hv : Valid V os (emptyHeap ct)) :
    Agree (runAll os (emptyHeap ct)) ∧ ∀ w, ((runAll os (emptyHeap ct)).subs w).vals.Nodup :=
  ⟨(((Inv.empty ct V hf).runAll os hv).1).agree, (((Inv.empty ct V hf).runAll os hv).1).nodup⟩

/-- C12: an interval is in at most one subset list. -/
theorem C12_one_superset_partial (ct : ClassTab) (V : List CRef) (hf : Flat ct V) (os : List Op)
    (hv : Valid V os (emptyHeap ct)) (x v w : Ref)
    (h1 : x ∈ ((runAll os (emptyHeap ct)).subs v).vals)
    (h2 : x ∈ ((runAll os (emptyHeap ct)).subs w).vals) : v = w := by
  have ha := (C12_history_partial ct V hf os hv).1
  have e1 := (ha v x).mp h1
  have e2 := (ha w x).mp h2
  rw [e1] at e2; exact Option.some.inj e2

/-! ## C13 subset membership respects the class hierarchy -/

/-- C13 as stated for `w.append(x)`: it raises and changes nothing unless `x` is an instance of the subset
    class of `w`. -/
def C13_statement : Prop :=
  ∀ (w x : Ref) (h : Heap) (d : CRef), h.ct.sub (h.cls w) = some d → h.ct.isSub (h.cls x) d = false →
    ∃ e, ivalAppend w x h = .err e h

/-- C13 fails: a `Word` that has a phone accepts a plain `SequenceInterval` (which is cast to `Phone`),
    because the test in `append` is `issubclass(self.subset_class, other.entry_class)`, the wrong way
    round (`sequences/sequences.py:110`). -/
theorem C13_violated_accepts : ¬ C13_statement := by
  intro hst
  obtain ⟨e, he⟩ := hst 0 2 (run0 (do
    let w ← newEntry cWord 0 2 "w"
    let p ← newEntry cPhone 0 1 "p"
    let _ ← newEntry cInterval 1 2 "q"
    ivalAppend w p)) cPhone (by decide +kernel) (by decide +kernel)
  have : (ivalAppend 0 2 (run0 (do
    let w ← newEntry cWord 0 2 "w"
    let p ← newEntry cPhone 0 1 "p"
    let _ ← newEntry cInterval 1 2 "q"
    ivalAppend w p))).out = .ok () := by decide +kernel
  rw [he] at this
  cases this

/-- C13 fails: an empty `Word` rejects a plain `SequenceInterval`, but by then the entry class of its
    subset list has become `SequenceInterval`, and from then on it rejects phones as well. -/
theorem C13_violated_unchanged : ∃ h : Heap, h.ct.sub (h.cls 0) = some cPhone ∧ h.cls 1 = cInterval ∧
    h.cls 2 = cPhone ∧ (h.subs 0) = SL.empty ∧
    (ivalAppend 0 1 h).out = .error .exc ∧
    ((ivalAppend 0 1 h).heap.subs 0).ecls = some cInterval ∧
    (ivalAppend 0 2 h).out = .ok () ∧
    (ivalAppend 0 2 (ivalAppend 0 1 h).heap).out = .error .exc :=
  ⟨heapOf [(cWord, 0, 2, "w"), (cInterval, 0, 1, "q"), (cPhone, 0, 1, "p")], by decide +kernel⟩

/-- C13, `append`: an interval whose class is not a superclass of the subset class is rejected and nothing
    changes. -/
theorem C13_append_reject_partial (w x : Ref) (h : Heap)
    (hn : ∀ d, h.ct.sub (h.cls w) = some d → h.ct.isSub d (h.cls x) = false) :
    ∃ e, ivalAppend w x h = .err e h := ivalAppend_err w x h hn

/-- C13, `append_subset_list`: an interval that is not an instance of the subset class is rejected and
    nothing changes, in every state. -/
theorem C13_append_subset_reject (w x : Ref) (h : Heap)
    (hn : ∀ d, h.ct.sub (h.cls w) = some d → h.ct.isSub (h.cls x) d = false) :
    ∃ e, appendSubset w x h = .err e h := appendSubset_err w x h hn

/-- C13, `subset_list = l` and `set_subset_list(l)`: if some member of `l` is not an instance of the subset
    class, the call raises and nothing changes, in every state. -/
theorem C13_assign_reject (w : Ref) (l : List Ref) (h : Heap) (x : Ref) (hx : x ∈ l)
    (hn : ∀ d, h.ct.sub (h.cls w) = some d → h.ct.isSub (h.cls x) d = false) :
    (∃ e, setSubs w l h = .err e h) ∧ (∃ e, setSubsetList w l h = .err e h) := by
  have hno : ¬ ∀ x ∈ l, ∃ c, h.ct.sub (h.cls w) = some c ∧ h.ct.isSub (h.cls x) c = true := by
    intro hh
    obtain ⟨c, h1, h2⟩ := hh x hx
    rw [hn c h1] at h2; cases h2
  exact ⟨setSubs_err_class w l h hno, setSubsetList_err w l h hno⟩

/-- C13: `x.set_super_instance(s)` raises and changes nothing if `s` is not of the superset class of `x`, and also if
    `s` is the superset of `x` already. -/
theorem C13_set_super_reject (x s : Ref) (h : Heap) (c : CRef) (hc : h.ct.sup (h.cls x) = some c)
    (hx : h.ct.isSub (h.cls s) c = false ∨ h.sup x = some s) : setSuper x s h = .err .exc h := by
  unfold setSuper setSuperN
  mstep M.get_apply h
  mstep (show isInst s (h.ct.sup (h.cls x)) h = .ok (h.ct.isSub (h.cls s) c) h by
    unfold isInst
    mstep M.get_apply h
    rw [hc]; rfl)
  rw [if_neg]
  · rfl
  · rcases hx with hx | hx <;> simp [hx]

/-- C13: without a superset class it is a `TypeError`. -/
theorem C13_set_super_none (x s : Ref) (h : Heap) (hc : h.ct.sup (h.cls x) = none) :
    setSuper x s h = .err .typeError h := by
  unfold setSuper setSuperN
  mstep M.get_apply h
  unfold isInst
  rw [hc]
  rfl

/-- C13, histories: every member of a subset list has exactly the subset class of its superset. -/
theorem C13_history_partial (ct : ClassTab) (V : List CRef) (hf : Flat ct V) (os : List Op)
    (hv : Valid V os (emptyHeap ct)) (w x : Ref)
    (hx : x ∈ ((runAll os (emptyHeap ct)).subs w).vals) :
    (runAll os (emptyHeap ct)).ct.sub ((runAll os (emptyHeap ct)).cls w) =
      some ((runAll os (emptyHeap ct)).cls x) := by
  have i := ((Inv.empty ct V hf).runAll os hv).1
  exact i.typed w x ((i.agree w x).mp hx)

-- a phone cannot be the superset of a word
example : let h := heapOf [(cPhone, 0, 2, "w"), (cWord, 0, 1, "p")]
    (ivalAppend 0 1 h).out = .error .valueError ∧ (appendSubset 0 1 h).out = .error .exc ∧
    (setSubs 0 [1] h).out = .error .exc := by decide +kernel

/-! ## C14 re-parenting moves an interval -/

/-- C14, `w.append(x)`: after any admissible history, `x` (of the subset class of `w`) ends up in the
    sorted, linked list of `w`; it is gone from the list of its former superset, whose other members are
    still in the same order and linked around the gap; nothing else moves. -/
theorem C14_append (ct : ClassTab) (V : List CRef) (hf : Flat ct V) (os : List Op)
    (hv : Valid V os (emptyHeap ct)) (h : Heap) (hh : h = runAll os (emptyHeap ct)) (w x v : Ref)
    (hw : w < h.nE) (hx : x < h.nE) (hd : h.ct.sub (h.cls w) = some (h.cls x)) (hold : h.sup x = some v)
    (hvw : v ≠ w) :
    ∃ h', ivalAppend w x h = .ok () h' ∧
      (h'.subs w).vals.Perm ((h.subs w).vals ++ [x]) ∧ SortedByStart h' (h'.subs w).vals ∧
      DoublyLinked h' (h'.subs w).vals ∧ h'.sup x = some w ∧ h'.within x = some (.ival w) ∧
      (h'.subs v).vals = (h.subs v).vals.filter (· ≠ x) ∧ DoublyLinked h' (h'.subs v).vals ∧
      (∀ r, r ≠ x → h'.sup r = h.sup r) ∧
      (∀ u, u ≠ w → u ≠ v → (h'.subs u).vals = (h.subs u).vals) ∧
      h'.start = h.start ∧ h'.stop = h.stop ∧ h'.label = h.label := by
  have i : Inv V h := hh ▸ ((Inv.empty ct V hf).runAll os hv).1
  have hxv := (i.agree v x).mpr hold
  have hxw : x ∉ (h.subs w).vals := by
    intro q; have := (i.agree w x).mp q; rw [hold] at this; exact hvw (Option.some.inj this)
  obtain ⟨h', hrun, hi, hL, hl1, hl2, hl3, e1, e2, e3, e4, e5, e6, hv', hvl, hwi, hsu⟩ :=
    i.append_ok w x hw hx hd
  rw [if_neg hxw] at hl2
  refine ⟨h', hrun, hl2, ?_, hl1, by simp [hsu], by simp [hwi], hv' v hvw, hvl v hvw (Or.inr hxv), ?_, ?_,
    e2, e3, e4⟩
  · unfold SortedByStart at *; rw [e2]; exact hl3
  · intro r hr; rw [hsu r, if_neg hr]
  · intro u hu1 hu2
    rw [hv' u hu1]
    apply filter_ne_self
    intro q; have := (i.agree u x).mp q; rw [hold] at this; exact hu2 (Option.some.inj this).symm

/-- C14, `w.append_subset_list(x)`: as for `append`, except that the position in the list is the one chosen
    by `SequenceList.append` (see C04) and `within` is left unset (see `C14_append_subset_within`). -/
theorem C14_append_subset (ct : ClassTab) (V : List CRef) (hf : Flat ct V) (os : List Op)
    (hv : Valid V os (emptyHeap ct)) (h : Heap) (hh : h = runAll os (emptyHeap ct)) (w x v : Ref)
    (hw : w < h.nE) (hx : x < h.nE) (hd : h.ct.sub (h.cls w) = some (h.cls x)) (hold : h.sup x = some v)
    (hvw : v ≠ w) :
    ∃ h', appendSubset w x h = .ok () h' ∧
      (h'.subs w).vals.Perm ((h.subs w).vals ++ [x]) ∧
      DoublyLinked h' (h'.subs w).vals ∧ h'.sup x = some w ∧
      (h'.subs v).vals = (h.subs v).vals.filter (· ≠ x) ∧ DoublyLinked h' (h'.subs v).vals ∧
      (∀ r, r ≠ x → h'.sup r = h.sup r) ∧
      (∀ u, u ≠ w → u ≠ v → (h'.subs u).vals = (h.subs u).vals) ∧
      h'.start = h.start ∧ h'.stop = h.stop ∧ h'.label = h.label := by
  have i : Inv V h := hh ▸ ((Inv.empty ct V hf).runAll os hv).1
  have hxv := (i.agree v x).mpr hold
  have hxw : x ∉ (h.subs w).vals := by
    intro q; have := (i.agree w x).mp q; rw [hold] at this; exact hvw (Option.some.inj this)
  have hrun := i.appendSubset_ok w x hw hx hd hxw
  rw [hold] at hrun
  have i1 : Inv V (removed h v x) := i.removed v x hxv _ _
  have e0 : (removed h v x).subs w = h.subs w := by simp [removed, upd, Ne.symm hvw]
  have hlk := (i1.appended w x hw hx hd (by simp [removed])).2.2
  refine ⟨_, hrun, ?_, ?_, by simp [appended], ?_, ?_, ?_, ?_, rfl, rfl, rfl⟩
  · show (upd (removed h v x).subs w _ w).vals.Perm _
    rw [upd_same, e0]
    exact (insAt_perm _ _ x).trans (by simpa using (List.perm_append_comm (l₁ := [x]) (l₂ := (h.subs w).vals)))
  · show DoublyLinked _ (upd (removed h v x).subs w _ w).vals
    rw [upd_same]; exact hlk
  · show (upd (removed h v x).subs w _ v).vals = _
    rw [upd_ne _ _ _ _ hvw]
    simp only [removed, upd_same]
    exact erase_eq_filter' _ x (i.nodup v)
  · show DoublyLinked _ (upd (removed h v x).subs w _ v).vals
    rw [upd_ne _ _ _ _ hvw]
    have h0 : DoublyLinked (removed h v x) ((removed h v x).subs v).vals := by
      have : ((removed h v x).subs v).vals = (h.subs v).vals.erase x := by simp [removed]
      rw [this]
      exact linked_of _ _ ((i.nodup v).sublist List.erase_sublist) h.fol h.prev rfl rfl
    have hne : ∀ y ∈ ((removed h v x).subs v).vals,
        y ∉ insAt (removed h v x) ((removed h v x).subs w).vals x := by
      intro y hy hq
      rw [(insAt_perm _ _ x).mem_iff] at hq
      have h1 := (i1.agree v y).mp hy
      rcases List.mem_cons.mp hq with q | q
      · subst q; simp [removed] at h1
      · have h2 := (i1.agree w y).mp q
        rw [h1] at h2; exact hvw (Option.some.inj h2)
    apply h0.congr
    · intro y hy; simp only [appended, folOf, hne y hy, if_false]
    · intro y hy; simp only [appended, prevOf, hne y hy, if_false]
  · intro r hr; simp [appended, removed, upd, hr]
  · intro u h1 h2; simp [appended, removed, upd, h1, h2]

/-- C14, `w.subset_list = l`: every member of `l` moves to `w`, whose list becomes exactly `l` in order of
    start; every other superset keeps its remaining members in order, and those that lost a member are
    linked around the gaps; former members of `w` that are not in `l` end up without a superset. -/
theorem C14_assign (ct : ClassTab) (V : List CRef) (hf : Flat ct V) (os : List Op)
    (hv : Valid V os (emptyHeap ct)) (h : Heap) (hh : h = runAll os (emptyHeap ct)) (w : Ref) (l : List Ref)
    (hw : w < h.nE) (hl : ∀ x ∈ l, x < h.nE) (hnd : l.Nodup)
    (hd : ∀ x ∈ l, h.ct.sub (h.cls w) = some (h.cls x)) :
    ∃ h', setSubs w l h = .ok () h' ∧
      (h'.subs w).vals.Perm l ∧ SortedByStart h' (h'.subs w).vals ∧ DoublyLinked h' (h'.subs w).vals ∧
      (∀ x ∈ l, h'.sup x = some w ∧ h'.within x = some (.ival w)) ∧
      (∀ x ∈ (h.subs w).vals, x ∉ l → h'.sup x = none ∧ h'.within x = none) ∧
      (∀ x, x ∉ l → x ∉ (h.subs w).vals → h'.sup x = h.sup x) ∧
      (∀ v, v ≠ w → (h'.subs v).vals = (h.subs v).vals.filter (· ∉ l)) ∧
      (∀ v, v ≠ w → (∃ x ∈ l, x ∈ (h.subs v).vals) → DoublyLinked h' (h'.subs v).vals) ∧
      h'.start = h.start ∧ h'.stop = h.stop ∧ h'.label = h.label := by
  have i : Inv V h := hh ▸ ((Inv.empty ct V hf).runAll os hv).1
  obtain ⟨h', hrun, hi, hL, hl1, hl2, e1, e2, e3, e4, e5, e6, hv', hvl, hwi, hsu⟩ :=
    i.assigned w l ((h.ct.sub (h.cls w)).getD 0) hw hl hnd (by
      intro x hx; simp [hd x hx])
  refine ⟨h', hrun, ?_, ?_, hl1, ?_, ?_, ?_, hv', ?_, e2, e3, e4⟩
  · rw [hl2]; exact slSort_perm h l
  · have := slSort_sorted h l
    rw [hl2]; unfold SortedByStart at *; rw [e2]; exact this
  · intro x hx; rw [hsu x, hwi x]; simp [hx]
  · intro x hx hn; rw [hsu x, hwi x]; simp [hx, hn]
  · intro x h1 h2; rw [hsu x]; simp [h1, h2]
  · intro v hv1 hv2; exact hvl v hv1 (Or.inr hv2)

/-- C14: unlike `append`, `append_subset_list` leaves `within` unset (`sequences/sequences.py:166-189` never
    sets it), so that the interval has no `within_path` through its superset. -/
theorem C14_append_subset_within : ∃ h : Heap, ((appendSubset 0 1 h).heap.subs 0).vals = [1] ∧
    (appendSubset 0 1 h).heap.within 1 = none ∧ (ivalAppend 0 1 h).heap.within 1 = some (.ival 0) :=
  ⟨heapOf [(cWord, 0, 2, "w"), (cPhone, 0, 1, "p")], by decide +kernel⟩

-- the hypotheses of C14 are met by a history: phone 3 moves from word 0 (with 2, 3, 4) to word 1
def exMove : List Op :=
  [.create cWord 0 3 "a", .create cWord 3 6 "b", .create cPhone 0 1 "p", .create cPhone 1 2 "q",
   .create cPhone 2 3 "r", .assign 0 [2, 3, 4]]
example : let h := runAll exMove (emptyHeap baseClasses)
    Valid [cWord, cPhone] exMove (emptyHeap baseClasses) ∧ h.sup 3 = some 0 ∧
    h.ct.sub (h.cls 1) = some (h.cls 3) ∧
    ((ivalAppend 1 3 h).heap.subs 0).vals = [2, 4] ∧ (ivalAppend 1 3 h).heap.fol 2 = some (.obj 4) ∧
    ((appendSubset 1 3 h).heap.subs 0).vals = [2, 4] ∧ (appendSubset 1 3 h).heap.prev 4 = some (.obj 2) ∧
    ((setSubs 1 [3, 2] h).heap.subs 1).vals = [2, 3] ∧
    ((setSubs 1 [3, 2] h).heap.subs 0).vals = [4] := by decide +kernel

end ATG
