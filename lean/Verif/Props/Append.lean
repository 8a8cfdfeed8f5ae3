import Verif.Lemmas.AppendStep
import Verif.Lemmas.GroupRun
/-!
# C29: appending to a tier of a group (`mixins/tiermixins.py:54-125`)

`append` calls itself for the subset list of the new interval on the tier below, and for the superset
instance on the tier above. Each call returns at once when the interval is an object of the tier already;
but an interval that is only equal in value to an entry is never added (`SequenceList.__add__` drops it), so
that test never becomes true.
-/
namespace ATG

/-- tiers `u` and `d` are neighbours in group `g`, `u` above `d` -/
structure TierPair (h : Heap) (g : GRef) (u d : TRef) (i : Nat) : Prop where
  up : (h.gtiers g)[i]? = some u
  down : (h.gtiers g)[i + 1]? = some d
  distinct : (h.gtiers g).Nodup
  cont : h.gcont g = some (h.gtiers g)
  inU : h.twithin u = some g
  inD : h.twithin d = some g

theorem TierPair.frame {h h' : Heap} {g u d i} (f : SeqFrame h h') (n : TierPair h g u d i) :
    TierPair h' g u d i := by
  have e1 : h'.gtiers = h.gtiers := by rw [f]
  have e2 : h'.gcont = h.gcont := by rw [f]
  have e3 : h'.twithin = h.twithin := by rw [f]
  exact ⟨by rw [e1]; exact n.up, by rw [e1]; exact n.down, by rw [e1]; exact n.distinct,
    by rw [e1, e2]; exact n.cont, by rw [e3]; exact n.inU, by rw [e3]; exact n.inD⟩

theorem TierPair.ne {h : Heap} {g u d i} (n : TierPair h g u d i) : u ≠ d := by
  rintro rfl
  obtain ⟨l1, e1⟩ := List.getElem?_eq_some_iff.mp n.up
  obtain ⟨l2, e2⟩ := List.getElem?_eq_some_iff.mp n.down
  exact List.pairwise_iff_getElem.mp n.distinct i (i + 1) l1 l2 (by omega) (e1.trans e2.symm)

theorem findIdx_of_nodup {l : List TRef} (hn : l.Nodup) {i : Nat} {t : TRef} (e : l[i]? = some t) :
    l.findIdx? (· == t) = some i := by
  obtain ⟨hl, e⟩ := List.getElem?_eq_some_iff.mp e
  rw [List.findIdx?_eq_some_iff_getElem]
  refine ⟨hl, by simp [e], fun j hj => ?_⟩
  simp only [beq_iff_eq]
  intro e'
  exact List.pairwise_iff_getElem.mp hn j i (by omega) hl hj (e'.trans e.symm)

theorem TierPair.truthyU {h : Heap} {g u d i} (n : TierPair h g u d i) : withinTruthy h u = some g := by
  obtain ⟨l1, e1⟩ := List.getElem?_eq_some_iff.mp n.up
  unfold withinTruthy
  rw [n.inU]
  simp only
  rw [if_pos (by omega)]

theorem TierPair.truthyD {h : Heap} {g u d i} (n : TierPair h g u d i) : withinTruthy h d = some g := by
  obtain ⟨l1, e1⟩ := List.getElem?_eq_some_iff.mp n.up
  unfold withinTruthy
  rw [n.inD]
  simp only
  rw [if_pos (by omega)]

theorem TierPair.below {h : Heap} {g u d i} (n : TierPair h g u d i) : siblingTier g u 1 h = .ok d h := by
  unfold siblingTier
  mstep M.get_apply h
  have : tierWithinIndex h u = .ok (some i) := by
    unfold tierWithinIndex
    simp only [n.inU, n.cont, findIdx_of_nodup n.distinct n.up]
  simp only [this]
  have : pyGet (h.gtiers g) ((i : Int) + 1) = some d := by
    unfold pyGet
    rw [if_pos (by omega)]
    exact n.down
  rw [this]
  rfl

theorem TierPair.above {h : Heap} {g u d i} (n : TierPair h g u d i) : siblingTier g d (-1) h = .ok u h := by
  unfold siblingTier
  mstep M.get_apply h
  have : tierWithinIndex h d = .ok (some (i + 1)) := by
    unfold tierWithinIndex
    simp only [n.inD, n.cont, findIdx_of_nodup n.distinct n.down]
  simp only [this]
  have : pyGet (h.gtiers g) (((i + 1 : Nat) : Int) + -1) = some u := by
    unfold pyGet
    rw [if_pos (by omega), show (((i + 1 : Nat) : Int) + -1).toNat = i by omega]
    exact n.up
  rw [this]
  rfl

theorem SameValue.frame {h h' : Heap} (f : SeqFrame h h') {x y} (s : SameValue h x y) : SameValue h' x y := by
  have e1 : h'.isPoint = h.isPoint := by rw [f]; rfl
  have e2 : h'.start = h.start := by rw [f]
  have e3 : h'.stop = h.stop := by rw [f]
  have e4 : h'.label = h.label := by rw [f]
  unfold SameValue at *
  rw [e1, e2, e3, e4]; exact s

theorem SeqFrame.symm {a b : Heap} (f : SeqFrame a b) : SeqFrame b a := by
  unfold SeqFrame at *
  rw [f]

theorem Listed.frame {h h' : Heap} (f : SeqFrame h h') {l l' x} (m : ∀ y, y ∈ l → y ∈ l') (s : Listed h l x) :
    Listed h' l' x := by
  rcases s with s | ⟨y, hy, s⟩
  · exact Or.inl (m _ s)
  · exact Or.inr ⟨y, m y hy, s.frame f⟩

/-- an interval that is not an object of tier `t` and could be added to it -/
structure Candidate (h : Heap) (t : TRef) (x : Ref) : Prop where
  out : x ∉ (h.tseq t).vals
  cls : h.cls x = h.tcls t
  label : h.label x ≠ "#"

/-- the situation of a copy: `x` has the value of an entry of `u`, and its first subset interval `y` has
    the value of an entry of `d` -/
structure Twin (h : Heap) (g : GRef) (u d : TRef) (i : Nat) (x y : Ref) : Prop where
  near : TierPair h g u d i
  okU : OkTier h u
  okD : OkTier h d
  candX : Candidate h u x
  candY : Candidate h d y
  sameX : Listed h (h.tseq u).vals x
  sameY : Listed h (h.tseq d).vals y
  first : (h.subs x).vals.head? = some y
  bare : (h.subs y).vals = []
  sup : h.sup y = some x

theorem Twin.frame {h h' : Heap} {g u d i x y} (f : SeqFrame h h') (w : Twin h g u d i x y)
    (ou : OkTier h' u) (od : OkTier h' d) (mu : ∀ z, z ∈ (h'.tseq u).vals ↔ z ∈ (h.tseq u).vals)
    (md : ∀ z, z ∈ (h'.tseq d).vals ↔ z ∈ (h.tseq d).vals) : Twin h' g u d i x y := by
  have hc : h'.cls = h.cls := by rw [f]
  have htc : h'.tcls = h.tcls := by rw [f]
  have hl : h'.label = h.label := by rw [f]
  have hs : h'.subs = h.subs := by rw [f]
  have hp : h'.sup = h.sup := by rw [f]
  refine ⟨w.near.frame f, ou, od, ⟨?_, ?_, ?_⟩, ⟨?_, ?_, ?_⟩, w.sameX.frame f fun z hz => (mu z).mpr hz,
    w.sameY.frame f fun z hz => (md z).mpr hz, by rw [hs]; exact w.first, by rw [hs]; exact w.bare,
    by rw [hp]; exact w.sup⟩
  · rw [mu]; exact w.candX.out
  · rw [hc, htc]; exact w.candX.cls
  · rw [hl]; exact w.candX.label
  · rw [md]; exact w.candY.out
  · rw [hc, htc]; exact w.candY.cls
  · rw [hl]; exact w.candY.label

/-- C29 fails, for every recursion depth: appending an interval with the value of an entry, whose first
    subset interval has the value of an entry of the tier below, never ends. The depth is unbounded, so
    Python raises `RecursionError`. -/
theorem C29_diverges_violated (n : Nat) : ∀ (h : Heap) (g : GRef) (u d : TRef) (i : Nat) (x y : Ref),
    Twin h g u d i x y →
    (∃ h', tierAppendN n u x h = .err .recursionError h') ∧
    ∃ h', tierAppendN n d y h = .err .recursionError h' := by
  induction n with
  | zero => intro h g u d i x y _; exact ⟨⟨h, rfl⟩, ⟨h, rfl⟩⟩
  | succ n ih =>
    intro h g u d i x y w
    constructor
    · obtain ⟨sl, h1, ha, hs, f, ok1, o, mL, _⟩ := addSet_ok h u x w.okU w.candX.out w.candX.cls w.candX.label
      have w1 : Twin h1 g u d i x y := w.frame f ok1 (w.okD.frame f (o d w.near.ne.symm)) (mL w.sameX)
        (fun z => by rw [o d w.near.ne.symm])
      obtain ⟨h2, e2⟩ := (ih h1 g u d i x y w1).2
      refine ⟨h2, ?_⟩
      obtain ⟨rest, er⟩ : ∃ rest, (h1.subs x).vals = y :: rest := by
        have := w1.first
        cases hq : (h1.subs x).vals with
        | nil => rw [hq] at this; simp at this
        | cons a l => rw [hq] at this; simp at this; exact ⟨l, by rw [this]⟩
      unfold tierAppendN
      mstep M.get_apply h
      rw [if_pos (by rw [w.candX.cls, isSub_refl]; rfl), if_neg (by simpa using w.candX.out)]
      mstep ha
      mstep hs
      mstep M.get_apply h1
      refine M.bind_err ?_
      rw [if_pos (by rw [er]; simp), w1.near.truthyU]
      simp only
      rw [er, M.forL_cons, M.bind_ok w1.near.below, e2]
    · obtain ⟨sl, h1, ha, hs, f, ok1, o, mL, _⟩ := addSet_ok h d y w.okD w.candY.out w.candY.cls w.candY.label
      have w1 : Twin h1 g u d i x y := w.frame f (w.okU.frame f (o u w.near.ne)) ok1
        (fun z => by rw [o u w.near.ne]) (mL w.sameY)
      obtain ⟨h2, e2⟩ := (ih h1 g u d i x y w1).1
      refine ⟨h2, ?_⟩
      unfold tierAppendN
      mstep M.get_apply h
      rw [if_pos (by rw [w.candY.cls, isSub_refl]; rfl), if_neg (by simpa using w.candY.out)]
      mstep ha
      mstep hs
      mstep M.get_apply h1
      rw [if_neg (by rw [w1.bare]; simp)]
      mstep M.pure_apply () h1
      mstep M.get_apply h1
      simp only [w1.sup]
      rw [if_pos (by
        have := w1.first
        cases hq : (h1.subs x).vals with
        | nil => rw [hq] at this; simp at this
        | cons a l => simp), w1.near.truthyD]
      simp only
      mstep w1.near.above
      exact e2

/-- what is known of a heap after part of an append: nothing but tier lists, links and containers differ,
    and the lists of the two tiers contain the intervals expected -/
structure Part (h h' : Heap) (u d : TRef) (x : Ref) (l : List Ref) : Prop where
  frame : SeqFrame h h'
  okU : OkTier h' u
  okD : OkTier h' d
  memU : ∀ z, z ∈ (h'.tseq u).vals ↔ z ∈ (h.tseq u).vals ∨ z = x
  old : ∀ z, z ∈ (h.tseq d).vals → z ∈ (h'.tseq d).vals
  new : ∀ z, z ∈ (h'.tseq d).vals → z ∈ (h.tseq d).vals ∨ z ∈ l
  all : ∀ z ∈ l, Listed h' (h'.tseq d).vals z
  other : ∀ t, t ≠ u → t ≠ d → h'.tseq t = h.tseq t

/-- a bare subset interval of `x` is appended below, once `x` is an entry of the tier above -/
theorem subAppend_ok (n : Nat) (h : Heap) (g : GRef) (u d : TRef) (i : Nat) (x y : Ref)
    (near : TierPair h g u d i) (okD : OkTier h d) (hx : x ∈ (h.tseq u).vals)
    (hxc : h.cls x = h.tcls u)
    (hy : h.cls y = h.tcls d) (hl : h.label y ≠ "#") (hb : (h.subs y).vals = [])
    (hs : h.sup y = some x) :
    ∃ h', tierAppendN (n + 2) d y h = .ok () h' ∧ SeqFrame h h' ∧ OkTier h' d ∧
      (∀ t, t ≠ d → h'.tseq t = h.tseq t) ∧
      (∀ z, z ∈ (h.tseq d).vals → z ∈ (h'.tseq d).vals) ∧
      (∀ z, z ∈ (h'.tseq d).vals → z ∈ (h.tseq d).vals ∨ z = y) ∧
      Listed h' (h'.tseq d).vals y := by
  by_cases hm : y ∈ (h.tseq d).vals
  · refine ⟨h, ?_, SeqFrame.refl h, okD, fun _ _ => rfl, fun _ e => e, fun _ e => Or.inl e, Or.inl hm⟩
    unfold tierAppendN
    mstep M.get_apply h
    rw [if_pos (by rw [hy, isSub_refl]; rfl), if_pos (by simpa using hm)]
    rfl
  · obtain ⟨sl, h1, ha, hset, f, ok1, o, mL, mN⟩ := addSet_ok h d y okD hm hy hl
    have hsub : h1.subs = h.subs := by rw [f]
    have hsup : h1.sup = h.sup := by rw [f]
    have hcls : h1.cls = h.cls := by rw [f]
    have htcls : h1.tcls = h.tcls := by rw [f]
    refine ⟨h1, ?_, f, ok1, o, ?_, ?_, ?_⟩
    · unfold tierAppendN
      mstep M.get_apply h
      rw [if_pos (by rw [hy, isSub_refl]; rfl), if_neg (by simpa using hm)]
      mstep ha
      mstep hset
      mstep M.get_apply h1
      rw [if_neg (by rw [hsub, hb]; simp)]
      mstep M.pure_apply () h1
      mstep M.get_apply h1
      simp only [hsup, hs]
      split
      · rw [(near.frame f).truthyD]
        simp only
        mstep (near.frame f).above
        unfold tierAppendN
        mstep M.get_apply h1
        rw [if_pos (by rw [hcls, htcls, hxc, isSub_refl]; rfl),
          if_pos (by rw [o u near.ne]; simpa using hx)]
        rfl
      · rfl
    · intro z hz
      by_cases hL : Listed h (h.tseq d).vals y
      · exact (mL hL z).mpr hz
      · exact (mN hL z).mpr (Or.inl hz)
    · intro z hz
      by_cases hL : Listed h (h.tseq d).vals y
      · exact Or.inl ((mL hL z).mp hz)
      · exact (mN hL z).mp hz
    · by_cases hL : Listed h (h.tseq d).vals y
      · exact hL.frame f fun z hz => (mL hL z).mpr hz
      · exact Or.inl ((mN hL y).mpr (Or.inr rfl))

theorem subAppends_ok (n : Nat) (g : GRef) (u d : TRef) (i : Nat) (x : Ref) : ∀ (l : List Ref) (h : Heap),
    TierPair h g u d i → OkTier h u → OkTier h d → x ∈ (h.tseq u).vals → h.cls x = h.tcls u →
    (∀ y ∈ l, h.cls y = h.tcls d ∧ h.label y ≠ "#" ∧ (h.subs y).vals = [] ∧ h.sup y = some x) →
    ∃ h', M.forL l (fun iv => do
        let d ← siblingTier g u 1
        tierAppendN (n + 2) d iv) h = .ok () h' ∧ SeqFrame h h' ∧ OkTier h' d ∧
      (∀ t, t ≠ d → h'.tseq t = h.tseq t) ∧
      (∀ z, z ∈ (h.tseq d).vals → z ∈ (h'.tseq d).vals) ∧
      (∀ z, z ∈ (h'.tseq d).vals → z ∈ (h.tseq d).vals ∨ z ∈ l) ∧
      ∀ y ∈ l, Listed h' (h'.tseq d).vals y := by
  intro l
  induction l with
  | nil =>
    intro h _ _ okD _ _ _
    exact ⟨h, rfl, SeqFrame.refl h, okD, fun _ _ => rfl, fun _ e => e, fun _ e => Or.inl e, by simp⟩
  | cons y l ih =>
    intro h near okU okD hx hxc hl
    obtain ⟨hy1, hy2, hy3, hy4⟩ := hl y (by simp)
    obtain ⟨h1, e1, f1, ok1, o1, a1, b1, c1⟩ := subAppend_ok n h g u d i x y near okD hx hxc hy1 hy2 hy3 hy4
    have hsub : h1.subs = h.subs := by rw [f1]
    have hsup : h1.sup = h.sup := by rw [f1]
    have hcls : h1.cls = h.cls := by rw [f1]
    have htcls : h1.tcls = h.tcls := by rw [f1]
    have hlab : h1.label = h.label := by rw [f1]
    obtain ⟨h2, e2, f2, ok2, o2, a2, b2, c2⟩ := ih h1 (near.frame f1) (okU.frame f1 (o1 u near.ne)) ok1
      (by rw [o1 u near.ne]; exact hx) (by rw [hcls, htcls]; exact hxc)
      (by rw [hsub, hsup, hcls, htcls, hlab]; exact fun z hz => hl z (by simp [hz]))
    refine ⟨h2, ?_, f1.trans f2, ok2, fun t ht => (o2 t ht).trans (o1 t ht), fun z hz => a2 z (a1 z hz), ?_, ?_⟩
    · rw [M.forL_cons, M.bind_ok near.below, e1]
      exact e2
    · intro z hz
      rcases b2 z hz with hz | hz
      · rcases b1 z hz with hz | hz
        · exact Or.inl hz
        · exact Or.inr (by simp [hz])
      · exact Or.inr (by simp [hz])
    · intro z hz
      rcases List.mem_cons.mp hz with rfl | hz
      · exact c1.frame f2 a2
      · exact c2 z hz

/-- C29 for an interval without a superset instance, and with a bare subset list: an append at any
    recursion depth of three or more returns; the interval is an entry of its tier, and each of its subset
    intervals is listed on the tier below; no other tier is changed.
    `_partial`: the interval must not have the value of an entry of the tier (`C29_diverges_violated`), and
    only two levels are covered. -/
theorem C29_down_partial (n : Nat) (h : Heap) (g : GRef) (u d : TRef) (i : Nat) (x : Ref)
    (near : TierPair h g u d i) (okU : OkTier h u) (okD : OkTier h d) (hx : Candidate h u x)
    (hnew : ¬ Listed h (h.tseq u).vals x) (hsup : h.sup x = none)
    (hsubs : ∀ y ∈ (h.subs x).vals, h.cls y = h.tcls d ∧ h.label y ≠ "#" ∧ (h.subs y).vals = [] ∧
      h.sup y = some x) :
    ∃ h', tierAppendN (n + 3) u x h = .ok () h' ∧ Part h h' u d x (h.subs x).vals := by
  obtain ⟨sl, h1, ha, hset, f, ok1, o, _, mN⟩ := addSet_ok h u x okU hx.out hx.cls hx.label
  have hsb : h1.subs = h.subs := by rw [f]
  have hsp : h1.sup = h.sup := by rw [f]
  have hcls : h1.cls = h.cls := by rw [f]
  have htcls : h1.tcls = h.tcls := by rw [f]
  have hlab : h1.label = h.label := by rw [f]
  obtain ⟨h2, e2, f2, ok2, o2, a2, b2, c2⟩ := subAppends_ok n g u d i x (h.subs x).vals h1 (near.frame f) ok1
    (okD.frame f (o d near.ne.symm)) ((mN hnew x).mpr (Or.inr rfl)) (by rw [hcls, htcls]; exact hx.cls)
    (by rw [hsb, hsp, hcls, htcls, hlab]; exact hsubs)
  have hsp2 : h2.sup = h.sup := by rw [f2, hsp]
  refine ⟨h2, ?_, f.trans f2, ok1.frame f2 (o2 u near.ne), ok2, ?_, ?_, ?_, c2, ?_⟩
  · unfold tierAppendN
    mstep M.get_apply h
    rw [if_pos (by rw [hx.cls, isSub_refl]; rfl), if_neg (by simpa using hx.out)]
    mstep ha
    mstep hset
    mstep M.get_apply h1
    have : (if (h1.subs x).vals.length > 0 then
          match withinTruthy h1 u with
          | none => pure ()
          | some g => do
            M.forL (h1.subs x).vals (fun iv => do
              let d ← siblingTier g u 1
              tierAppendN (n + 2) d iv)
        else pure () : M Unit) h1 = .ok () h2 := by
      split
      · rw [(near.frame f).truthyU]
        simp only
        rw [hsb]
        exact e2
      · rename_i hz
        rw [hsb] at hz
        have : (h.subs x).vals = [] := List.eq_nil_of_length_eq_zero (by omega)
        rw [this] at e2
        exact e2
    mstep this
    mstep M.get_apply h2
    simp only [hsp2, hsup]
    rfl
  · intro z; rw [o2 u near.ne]; exact mN hnew z
  · intro z hz; exact a2 z (by rw [o d near.ne.symm]; exact hz)
  · intro z hz
    have := b2 z hz
    rw [o d near.ne.symm] at this
    exact this
  · intro t h1t h2t; rw [o2 t h2t, o t h1t]

/-- C29 for an interval `y` with a superset instance `x`: the append returns at any recursion depth of four
    or more; `x` is an entry of the tier above, and all its subset intervals, `y` among them, are listed on
    the tier of `y`.
    `_partial`: as for `C29_down_partial`. -/
theorem C29_up_partial (n : Nat) (h : Heap) (g : GRef) (u d : TRef) (i : Nat) (x y : Ref)
    (near : TierPair h g u d i) (okU : OkTier h u) (okD : OkTier h d) (hx : Candidate h u x)
    (hnew : ¬ Listed h (h.tseq u).vals x) (hsup : h.sup x = none) (hy : Candidate h d y)
    (hsubs : ∀ y ∈ (h.subs x).vals, h.cls y = h.tcls d ∧ h.label y ≠ "#" ∧ (h.subs y).vals = [] ∧
      h.sup y = some x) (hmem : y ∈ (h.subs x).vals) :
    ∃ h', tierAppendN (n + 4) d y h = .ok () h' ∧ Part h h' u d x (h.subs x).vals := by
  obtain ⟨_, _, hyb, hys⟩ := hsubs y hmem
  obtain ⟨sl, h1, ha, hset, f, ok1, o, mL, mN⟩ := addSet_ok h d y okD hy.out hy.cls hy.label
  have hsb : h1.subs = h.subs := by rw [f]
  have hsp : h1.sup = h.sup := by rw [f]
  have hcls : h1.cls = h.cls := by rw [f]
  have htcls : h1.tcls = h.tcls := by rw [f]
  have hlab : h1.label = h.label := by rw [f]
  have hu : h1.tseq u = h.tseq u := o u near.ne
  have hold : ∀ z, z ∈ (h.tseq d).vals → z ∈ (h1.tseq d).vals := by
    intro z hz
    by_cases hL : Listed h (h.tseq d).vals y
    · exact (mL hL z).mpr hz
    · exact (mN hL z).mpr (Or.inl hz)
  have hnew' : ∀ z, z ∈ (h1.tseq d).vals → z ∈ (h.tseq d).vals ∨ z = y := by
    intro z hz
    by_cases hL : Listed h (h.tseq d).vals y
    · exact Or.inl ((mL hL z).mp hz)
    · exact (mN hL z).mp hz
  obtain ⟨h2, e2, p⟩ := C29_down_partial n h1 g u d i x (near.frame f) (okU.frame f hu) ok1
    ⟨by rw [hu]; exact hx.out, by rw [hcls, htcls]; exact hx.cls, by rw [hlab]; exact hx.label⟩
    (fun e => hnew (e.frame f.symm fun z hz => by rw [← hu]; exact hz)) (by rw [hsp]; exact hsup)
    (by rw [hsb, hsp, hcls, htcls, hlab]; exact hsubs)
  rw [hsb] at p
  refine ⟨h2, ?_, f.trans p.frame, p.okU, p.okD, ?_, ?_, ?_, p.all, ?_⟩
  · unfold tierAppendN
    mstep M.get_apply h
    rw [if_pos (by rw [hy.cls, isSub_refl]; rfl), if_neg (by simpa using hy.out)]
    mstep ha
    mstep hset
    mstep M.get_apply h1
    rw [if_neg (by rw [hsb, hyb]; simp)]
    mstep M.pure_apply () h1
    mstep M.get_apply h1
    simp only [hsp, hys]
    rw [if_pos (by rw [hsb]; exact List.length_pos_of_mem hmem), (near.frame f).truthyD]
    simp only
    mstep (near.frame f).above
    exact e2
  · intro z; rw [p.memU, hu]
  · intro z hz; exact p.old z (hold z hz)
  · intro z hz
    rcases p.new z hz with hz | hz
    · rcases hnew' z hz with hz | hz
      · exact Or.inl hz
      · exact Or.inr (hz ▸ hmem)
    · exact Or.inr hz
  · intro t h1t h2t; rw [p.other t h1t h2t, o t h2t]

/-- a word and a phone in a group, and another word with a phone of its own -/
def exAppendWord (s e : Time) (l : String) (l' : String) : Heap := run0 (do
  let t ← newTierFrom [(0, 1, "a")] cWord "Word"
  let u ← newTierFrom [(0, 1, "p")] cPhone "Phone"
  let _ ← newGroup [t, u]
  let x ← newEntry cWord s e l
  let y ← newEntry cPhone s e l'
  ivalAppend x y)

instance (h : Heap) (t : TRef) : Decidable (OkTier h t) :=
  decidable_of_iff (h.ct.isSub (h.tcls t) cPoint = false ∧ (h.tseq t).ecls = some (h.tcls t) ∧
      (h.tsup t).isSome = true ∧ (∀ x ∈ (h.tseq t).vals, h.cls x = h.tcls t) ∧
      (∀ x ∈ (h.tseq t).vals, h.label x ≠ "#") ∧ (h.tseq t).vals.Nodup ∧ (h.tseq t).vals ≠ [])
    ⟨fun ⟨a, b, c, d, e, f, g⟩ => ⟨a, b, c, d, e, f, g⟩, fun ⟨a, b, c, d, e, f, g⟩ => ⟨a, b, c, d, e, f, g⟩⟩
instance (h : Heap) (g : GRef) (u d : TRef) (i : Nat) : Decidable (TierPair h g u d i) :=
  decidable_of_iff ((h.gtiers g)[i]? = some u ∧ (h.gtiers g)[i + 1]? = some d ∧ (h.gtiers g).Nodup ∧
      h.gcont g = some (h.gtiers g) ∧ h.twithin u = some g ∧ h.twithin d = some g)
    ⟨fun ⟨a, b, c, d, e, f⟩ => ⟨a, b, c, d, e, f⟩, fun ⟨a, b, c, d, e, f⟩ => ⟨a, b, c, d, e, f⟩⟩
instance (h : Heap) (t : TRef) (x : Ref) : Decidable (Candidate h t x) :=
  decidable_of_iff (x ∉ (h.tseq t).vals ∧ h.cls x = h.tcls t ∧ h.label x ≠ "#")
    ⟨fun ⟨a, b, c⟩ => ⟨a, b, c⟩, fun ⟨a, b, c⟩ => ⟨a, b, c⟩⟩
instance (h : Heap) (g : GRef) (u d : TRef) (i : Nat) (x y : Ref) : Decidable (Twin h g u d i x y) :=
  decidable_of_iff (TierPair h g u d i ∧ OkTier h u ∧ OkTier h d ∧ Candidate h u x ∧ Candidate h d y ∧
      Listed h (h.tseq u).vals x ∧ Listed h (h.tseq d).vals y ∧ (h.subs x).vals.head? = some y ∧
      (h.subs y).vals = [] ∧ h.sup y = some x)
    ⟨fun ⟨a, b, c, d, e, f, g, h, i, j⟩ => ⟨a, b, c, d, e, f, g, h, i, j⟩,
     fun ⟨a, b, c, d, e, f, g, h, i, j⟩ => ⟨a, b, c, d, e, f, g, h, i, j⟩⟩

/-- an equal copy of the word with an equal copy of its phone is such a case -/
example : Twin (exAppendWord 0 1 "a" "p") 0 0 1 0 2 3 := by decide +kernel

/-- so appending it ends in `RecursionError`, whatever the recursion limit -/
example (n : Nat) : ∃ h', tierAppendN n 0 2 (exAppendWord 0 1 "a" "p") = .err .recursionError h' :=
  (C29_diverges_violated n _ 0 0 1 0 2 3 (by decide +kernel)).1

/-- the hypotheses of the positive theorems are met by a later word -/
example : let h := exAppendWord 1 2 "b" "q"
    TierPair h 0 0 1 0 ∧ OkTier h 0 ∧ OkTier h 1 ∧ Candidate h 0 2 ∧ Candidate h 1 3 ∧
    ¬ Listed h (h.tseq 0).vals 2 ∧ h.sup 2 = none ∧ (h.subs 2).vals = [3] ∧
    ∀ y ∈ (h.subs 2).vals, h.cls y = h.tcls 1 ∧ h.label y ≠ "#" ∧ (h.subs y).vals = [] ∧ h.sup y = some 2 := by
  decide +kernel

end ATG
