import Verif.Lemmas.Sum
import Verif.Props.Hierarchy
/-!
# C93: the sum of two intervals
-/
namespace ATG

/-- C93 as stated: after `w + x`, for an interval `x` of the subset class of `w` that belongs to no interval
    yet, the subset intervals of the sum are those of `w` and `x`. -/
def C93_statement : Prop := ∀ (h : Heap) (w x : Ref), (∀ v y, y ∈ (h.subs v).vals ↔ h.sup y = some v) →
  h.ct.sub (h.cls w) = some (h.cls x) → h.ct.sup (h.cls x) = some (h.cls w) → h.sup x = none →
  ∃ r h', ivalAdd w x h = .ok r h' ∧ (h'.subs r).vals.Perm ((h.subs w).vals ++ [x])

/-- what the sum does to a new interval and to the intervals that were there -/
theorem ivalAdd_new {V : List CRef} {h : Heap} (i : Inv V h) (w x : Ref) (hw : w < h.nE) (hx : x < h.nE)
    (hd : h.ct.sub (h.cls w) = some (h.cls x)) (hu : h.ct.sup (h.cls x) = some (h.cls w)) (hold : h.sup x = none) :
    ∃ h', ivalAdd w x h = .ok w h' ∧ (h'.subs w).vals = [x] ∧ h'.sup x = some w ∧
      h'.within x = some (.ival w) ∧ DoublyLinked h' [x] ∧
      (∀ y ∈ (h.subs w).vals, h'.sup y = none ∧ h'.within y = none) ∧
      (∀ y, y ≠ x → y ∉ (h.subs w).vals →
        h'.sup y = h.sup y ∧ h'.within y = h.within y ∧ h'.fol y = h.fol y ∧ h'.prev y = h.prev y) ∧
      (∀ v, v ≠ w → h'.subs v = h.subs v) ∧
      h'.start = h.start ∧ h'.stop = h.stop ∧ h'.label = h.label ∧ h'.cls = h.cls := by
  have hm : x ∉ (h.subs w).vals := fun q => by
    rw [(i.agree w x).mp q] at hold; exact absurd hold (by simp)
  obtain ⟨ec, hadd, i1, -⟩ := i.slAdd_new w x hw hx hd hm
  generalize hh1 : ({ h with subs := upd h.subs w ⟨(h.subs w).vals, ec⟩ } : Heap) = h1 at *
  have hs1 : (h1.subs w).vals = (h.subs w).vals := by subst hh1; simp
  have hal : ∀ y ∈ (h.subs w).vals, y < h.nE := fun y hy => (i.alloc w y ((i.agree w y).mp hy)).1
  have hcl : ∀ y ∈ (h.subs w).vals, h.cls y = h.cls x := by
    intro y hy
    have := i.typed w y ((i.agree w y).mp hy)
    rw [hd] at this
    exact (Option.some.inj this).symm
  have hp := slSort_perm h ((h.subs w).vals ++ [x])
  have hmem : ∀ r, r ∈ slSort h ((h.subs w).vals ++ [x]) ↔ r ∈ (h.subs w).vals ∨ r = x := by
    intro r; rw [hp.mem_iff]; simp
  have hlt : ∀ r ∈ slSort h ((h.subs w).vals ++ [x]), r < h.nE := by
    intro r hr
    rcases (hmem r).mp hr with q | q
    · exact hal r q
    · exact q ▸ hx
  have hnd : (slSort h ((h.subs w).vals ++ [x])).Nodup := by
    rw [hp.nodup_iff, List.nodup_append]
    exact ⟨i.nodup w, by simp, by
      intro a ha b hb e
      simp at hb; subst hb; subst e; exact hm ha⟩
  have hcls : ∀ r ∈ slSort h ((h.subs w).vals ++ [x]), h.cls r = h.cls x := by
    intro r hr
    rcases (hmem r).mp hr with q | q
    · exact hcl r q
    · exact q ▸ rfl
  have g : GoodList h (slSort h ((h.subs w).vals ++ [x])) :=
    ⟨hnd, fun a ha b hb => i.distinct a (hlt a ha) b (hlt b hb),
     fun a ha b hb => by rw [hcls a ha, hcls b hb], fun a ha => i.label a (hlt a ha)⟩
  have hfil : ((slSort h ((h.subs w).vals ++ [x])).filter fun y => decide (y ∉ (h1.subs w).vals)) = [x] := by
    have h1' : ((slSort h ((h.subs w).vals ++ [x])).filter fun y => decide (y ∉ (h.subs w).vals)).Perm [x] := by
      refine (hp.filter _).trans ?_
      rw [List.filter_append, List.filter_eq_nil_iff.mpr (by simp)]
      simp [hm]
    rw [hs1]; exact List.perm_singleton.mp h1'
  obtain ⟨f, p, hr, hf⟩ := setSubsCopy_ok w (slSort h ((h.subs w).vals ++ [x])) h1 (h.cls x)
    (g.congr (by subst hh1; rfl) (by subst hh1; rfl) (by subst hh1; rfl) (by subst hh1; rfl) (by subst hh1; rfl))
    (by intro e; have := (hmem x).mpr (Or.inr rfl); rw [e] at this; simp at this)
    (by have := slSort_sorted h ((h.subs w).vals ++ [x]); subst hh1; exact this)
    (by subst hh1; exact hcls)
    (by
      subst hh1
      intro y hy
      exact ⟨h.cls x, hd, by show h.ct.isSub (h.cls y) _ = true; rw [hcls y hy, isSub_refl]⟩)
    (by rw [hs1]; exact i.nodup w)
    (by
      rw [hs1]
      intro y hy
      exact ⟨(hmem y).mpr (Or.inl hy), by subst hh1; exact (i.agree w y).mp hy⟩)
    (by
      rw [hs1]
      intro y hy hn
      rcases (hmem y).mp hy with q | q
      · exact absurd q hn
      · subst hh1; rw [q]; exact hold)
  rw [hfil] at hr
  refine ⟨{ h1 with
        subs := upd h1.subs w ⟨[x], some (h.cls x)⟩
        sup := fun r => if r ∈ (h1.subs w).vals then none
          else if r ∈ slSort h ((h.subs w).vals ++ [x]) then some w else h1.sup r
        within := fun r => if r ∈ (h1.subs w).vals then none
          else if r ∈ slSort h ((h.subs w).vals ++ [x]) then some (.ival w) else h1.within r
        cont := upd h1.cont w .alias
        fol := folOf [x] f
        prev := prevOf none [x] p }, ?_, ?_, ?_, ?_, ?_, ?_, ?_, ?_, ?_, ?_, ?_, ?_⟩
  · unfold ivalAdd
    mstep M.get_apply h
    rw [hu]
    simp only [isSub_refl, if_true]
    have e1 : subsIAddCopy w x h = setSubsCopy w (slSort h ((h.subs w).vals ++ [x])) h1 := by
      unfold subsIAddCopy
      mstep M.get_apply h
      mstep hadd
      rfl
    rw [hr] at e1
    mstep e1
    rfl
  · simp
  · simp [hs1, hm, hmem]
  · simp [hs1, hm, hmem]
  · constructor <;> simp [folOf, prevOf, prevIn, plink, nextIn]
  · intro y hy; simp [hs1, hy]
  · intro y hne hy
    have hny : y ∉ slSort h ((h.subs w).vals ++ [x]) := fun q => by
      rcases (hmem y).mp q with q | q
      · exact hy q
      · exact hne q
    obtain ⟨a, b⟩ := hf y hny
    refine ⟨by subst hh1; simp [hs1, hy, hny], by subst hh1; simp [hs1, hy, hny], ?_, ?_⟩
    · show folOf [x] f y = _
      rw [folOf_notMem _ _ _ (by simpa using hne), a]; subst hh1; rfl
    · show prevOf none [x] p y = _
      rw [prevOf_notMem _ _ _ _ (by simpa using hne), b]; subst hh1; rfl
  · intro v hv; subst hh1; simp [upd, hv]
  all_goals subst hh1; rfl

/-- what the sum does when the interval is there already -/
theorem ivalAdd_again {V : List CRef} {h : Heap} (i : Inv V h) (w x : Ref)
    (hu : h.ct.sup (h.cls x) = some (h.cls w)) (hx : x ∈ (h.subs w).vals) :
    ∃ h', ivalAdd w x h = .ok w h' ∧ (h'.subs w).vals = [] ∧
      (∀ y ∈ (h.subs w).vals, h'.sup y = none ∧ h'.within y = none) ∧
      (∀ y, y ∉ (h.subs w).vals →
        h'.sup y = h.sup y ∧ h'.within y = h.within y ∧ h'.fol y = h.fol y ∧ h'.prev y = h.prev y) ∧
      (∀ v, v ≠ w → h'.subs v = h.subs v) ∧
      h'.start = h.start ∧ h'.stop = h.stop ∧ h'.label = h.label ∧ h'.cls = h.cls := by
  have hd := i.typed w x ((i.agree w x).mp hx)
  have g := i.good w
  have hcl : ∀ y ∈ (h.subs w).vals, h.cls y = h.cls x := fun y hy => g.cls y hy x hx
  have hp := slSort_perm h (h.subs w).vals
  have hn : newOf h (h.subs w).vals [x] = [] := by
    simp [newOf, (slContains_iff h (h.subs w).vals x).mpr (Or.inl hx)]
  have hfil : ((slSort h (h.subs w).vals).filter fun y => decide (y ∉ (h.subs w).vals)) = [] := by
    rw [List.filter_eq_nil_iff]
    intro y hy; simp [hp.mem_iff.mp hy]
  obtain ⟨f, p, hr, hf⟩ := setSubsCopy_ok w (slSort h (h.subs w).vals) h (h.cls x)
    ⟨hp.nodup_iff.mpr g.nodup, fun a ha b hb => g.distinct a (hp.mem_iff.mp ha) b (hp.mem_iff.mp hb),
     fun a ha b hb => g.cls a (hp.mem_iff.mp ha) b (hp.mem_iff.mp hb), fun a ha => g.label a (hp.mem_iff.mp ha)⟩
    (by intro e; have := hp.mem_iff.mpr hx; rw [e] at this; simp at this)
    (slSort_sorted h _) (fun y hy => hcl y (hp.mem_iff.mp hy))
    (fun y hy => ⟨h.cls x, hd, by rw [hcl y (hp.mem_iff.mp hy), isSub_refl]⟩)
    g.nodup (fun y hy => ⟨hp.mem_iff.mpr hy, (i.agree w y).mp hy⟩)
    (fun y hy hn => absurd (hp.mem_iff.mp hy) hn)
  rw [hfil] at hr
  have e1 : subsIAddCopy w x h = setSubsCopy w (slSort h (h.subs w).vals) h := by
    unfold subsIAddCopy
    mstep M.get_apply h
    mstep slAdd_none_new _ _ _ h hn
    exact setSubsCopy_sort w _ h (h.cls x) hcl
  rw [hr] at e1
  have e2 : ivalAdd w x h = (do subsIAddCopy w x; pure w : M Ref) h := by
    unfold ivalAdd
    mstep M.get_apply h
    rw [hu]
    simp only [isSub_refl, if_true]
  refine ⟨_, e2.trans (M.bind_ok e1), ?_, ?_, ?_, ?_, ?_⟩
  · simp
  · intro y hy; simp [hy]
  · intro y hy
    obtain ⟨a, b⟩ := hf y (fun q => hy (hp.mem_iff.mp q))
    simp [hy, hp.mem_iff, a, b]
  · intro v hv; simp [upd, hv]
  · exact ⟨rfl, rfl, rfl, rfl⟩

/-- C93, `w + x` for a new interval `x`, after any admissible history: the subset list of the sum is `[x]`, well
    linked; *every interval that was in it before is thrown out* and has no superset any more.  So the
    property holds if `w` had no subset intervals, and only then.  Nothing else changes. -/
theorem C93_new_partial (ct : ClassTab) (V : List CRef) (hf : Flat ct V) (os : List Op)
    (hv : Valid V os (emptyHeap ct)) (h : Heap) (hh : h = runAll os (emptyHeap ct)) (w x : Ref)
    (hw : w < h.nE) (hx : x < h.nE) (hd : h.ct.sub (h.cls w) = some (h.cls x))
    (hu : h.ct.sup (h.cls x) = some (h.cls w)) (hold : h.sup x = none) :
    ∃ h', ivalAdd w x h = .ok w h' ∧ (h'.subs w).vals = [x] ∧ h'.sup x = some w ∧
      h'.within x = some (.ival w) ∧ DoublyLinked h' [x] ∧
      (∀ y ∈ (h.subs w).vals, h'.sup y = none ∧ h'.within y = none) ∧
      (∀ y, y ≠ x → y ∉ (h.subs w).vals →
        h'.sup y = h.sup y ∧ h'.within y = h.within y ∧ h'.fol y = h.fol y ∧ h'.prev y = h.prev y) ∧
      (∀ v, v ≠ w → h'.subs v = h.subs v) ∧
      h'.start = h.start ∧ h'.stop = h.stop ∧ h'.label = h.label ∧ h'.cls = h.cls :=
  ivalAdd_new (hh ▸ ((Inv.empty ct V hf).runAll os hv).1) w x hw hx hd hu hold

/-- C93, `w + x` when `x` is in the subset list already, after any admissible history: the list of the sum is
    *empty*, and every interval that was in it, `x` included, has no superset any more. -/
theorem C93_again_violated (ct : ClassTab) (V : List CRef) (hf : Flat ct V) (os : List Op)
    (hv : Valid V os (emptyHeap ct)) (h : Heap) (hh : h = runAll os (emptyHeap ct)) (w x : Ref)
    (hu : h.ct.sup (h.cls x) = some (h.cls w)) (hx : x ∈ (h.subs w).vals) :
    ∃ h', ivalAdd w x h = .ok w h' ∧ (h'.subs w).vals = [] ∧
      (∀ y ∈ (h.subs w).vals, h'.sup y = none ∧ h'.within y = none) ∧
      (∀ y, y ∉ (h.subs w).vals →
        h'.sup y = h.sup y ∧ h'.within y = h.within y ∧ h'.fol y = h.fol y ∧ h'.prev y = h.prev y) ∧
      (∀ v, v ≠ w → h'.subs v = h.subs v) ∧
      h'.start = h.start ∧ h'.stop = h.stop ∧ h'.label = h.label ∧ h'.cls = h.cls :=
  ivalAdd_again (hh ▸ ((Inv.empty ct V hf).runAll os hv).1) w x hu hx

/-- C93 the other way round, `x + w`, after any admissible history: `x` joins the sorted, linked subset list of
    `w` and leaves its former superset, whose other intervals keep their order; nothing is thrown out. -/
theorem C93_upwards_partial (ct : ClassTab) (V : List CRef) (hf : Flat ct V) (os : List Op)
    (hv : Valid V os (emptyHeap ct)) (h : Heap) (hh : h = runAll os (emptyHeap ct)) (w x : Ref)
    (hw : w < h.nE) (hx : x < h.nE) (hd : h.ct.sub (h.cls w) = some (h.cls x))
    (c : CRef) (hu : h.ct.sup (h.cls w) = some c) (hc : h.ct.isSub (h.cls x) c = false) :
    ∃ h', ivalAdd x w h = .ok x h' ∧
      (h'.subs w).vals.Perm (if x ∈ (h.subs w).vals then (h.subs w).vals else (h.subs w).vals ++ [x]) ∧
      SortedByStart h' (h'.subs w).vals ∧ DoublyLinked h' (h'.subs w).vals ∧
      (∀ r, h'.sup r = if r = x then some w else h.sup r) ∧
      (∀ v, v ≠ w → (h'.subs v).vals = (h.subs v).vals.filter (· ≠ x)) ∧
      (∀ v, v ≠ w → x ∈ (h.subs v).vals → DoublyLinked h' (h'.subs v).vals) ∧
      h'.start = h.start ∧ h'.stop = h.stop ∧ h'.label = h.label ∧ h'.cls = h.cls := by
  have i : Inv V h := hh ▸ ((Inv.empty ct V hf).runAll os hv).1
  obtain ⟨h', hrun, hi, hL, hl1, hl2, hl3, e1, e2, e3, e4, e5, e6, hv', hvl, hwi, hsu⟩ :=
    i.subsIAdd_ok w x hw hx hd
  refine ⟨h', ?_, hl2, ?_, hl1, hsu, hv', fun v hvw hm => hvl v hvw (Or.inr hm), e2, e3, e4, e5⟩
  · unfold ivalAdd
    mstep M.get_apply h
    rw [hu]
    simp only [hc, Bool.false_eq_true, if_false]
    rw [hd]
    simp only [isSub_refl, if_true]
    mstep hrun
    rfl
  · unfold SortedByStart at *; rw [e2]; exact hl3

/-- C93: intervals neither of which can hold the other are refused and nothing changes; so are intervals of
    classes without a superset class. -/
theorem C93_refused (h : Heap) (a b : Ref) :
    (∀ c d, h.ct.sup (h.cls b) = some c → h.ct.isSub (h.cls a) c = false →
      h.ct.sub (h.cls b) = some d → h.ct.isSub (h.cls a) d = false →
      ivalAdd a b h = .err .valueError h) ∧
    (h.ct.sup (h.cls b) = none → ivalAdd a b h = .err .typeError h) := by
  constructor
  · intro c d hc h1 hd h2
    unfold ivalAdd
    mstep M.get_apply h
    rw [hc]
    simp only [h1, Bool.false_eq_true, if_false]
    rw [hd]
    simp only [h2, Bool.false_eq_true, if_false]
    rfl
  · intro hc
    unfold ivalAdd
    mstep M.get_apply h
    rw [hc]
    rfl

-- the hypotheses are met: word 0 holds phones 1 and 2; 3 is a free phone, 4 another word with phone 5
def exSum : List Op :=
  [.create cWord 0 3 "a", .create cPhone 0 1 "p", .create cPhone 1 2 "q", .create cPhone 2 3 "r",
   .create cWord 3 6 "b", .create cPhone 3 6 "s", .assign 0 [1, 2], .assign 4 [5]]
example : let h := runAll exSum (emptyHeap baseClasses)
    Valid [cWord, cPhone] exSum (emptyHeap baseClasses) ∧ h.sup 3 = none ∧ (h.subs 0).vals = [1, 2] ∧
    h.ct.sub (h.cls 0) = some (h.cls 3) ∧ h.ct.sup (h.cls 3) = some (h.cls 0) ∧
    ((ivalAdd 0 3 h).heap.subs 0).vals = [3] ∧ (ivalAdd 0 3 h).heap.sup 1 = none ∧
    ((ivalAdd 0 2 h).heap.subs 0).vals = [] ∧ (ivalAdd 0 2 h).heap.sup 2 = none ∧
    (∃ c, h.ct.sup (h.cls 0) = some c ∧ h.ct.isSub (h.cls 3) c = false) ∧
    ((ivalAdd 3 0 h).heap.subs 0).vals = [1, 2, 3] ∧ (ivalAdd 3 0 h).heap.fol 2 = some (.obj 3) ∧
    ((ivalAdd 5 0 h).heap.subs 0).vals = [1, 2, 5] ∧ ((ivalAdd 5 0 h).heap.subs 4).vals = [] ∧
    (ivalAdd 0 4 h).out = .error .valueError := by decide +kernel

/-- C93 does not hold: a word with two phones loses them when a third one is added. -/
theorem C93_violated : ¬ C93_statement := by
  intro hs
  have i : Inv [cWord, cPhone] (runAll exSum (emptyHeap baseClasses)) :=
    ((Inv.empty baseClasses [cWord, cPhone] flat_wordphone).runAll exSum (by decide +kernel)).1
  have hc : let h := runAll exSum (emptyHeap baseClasses)
      h.ct.sub (h.cls 0) = some (h.cls 3) ∧ h.ct.sup (h.cls 3) = some (h.cls 0) ∧ h.sup 3 = none ∧
      (h.subs 0).vals = [1, 2] ∧ (ivalAdd 0 3 h).out = .ok 0 ∧ ((ivalAdd 0 3 h).heap.subs 0).vals = [3] := by
    decide +kernel
  obtain ⟨c1, c2, c3, c4, c5, c6⟩ := hc
  obtain ⟨r, h', hr, hp⟩ := hs _ 0 3 i.agree c1 c2 c3
  rw [hr] at c5 c6
  obtain rfl : r = 0 := by simpa [Res.out] using c5
  have := hp.length_eq
  rw [c4, show (h'.subs 0).vals = [3] from c6] at this
  simp at this

end ATG
