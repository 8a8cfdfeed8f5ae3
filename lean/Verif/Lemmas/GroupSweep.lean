import Verif.Lemmas.GroupClean
import Verif.Props.Append
import Verif.Spec.Homely
/-!
# The run of `TierGroup.cleanup`
-/
namespace ATG

/-- What is needed to relate the tiers of the group again: the entries in `L` agree with the subset lists, and `A`,
    which has all entries of the group, is closed under supersets. -/
structure Stacked (L A : Ref → Prop) (h : Heap) (g : GRef) (ts : List TRef) : Prop where
  stack : TierStack h g ts
  tidy : TidyOn L h
  alloc : Allocated h
  inL : ∀ x ∈ entriesOf h ts, L x
  inA : ∀ x ∈ entriesOf h ts, A x
  closed : ∀ v x, h.sup x = some v → (A v ↔ A x)
  inner : ∀ i t t', ts[i]? = some t → ts[i + 1]? = some t' → ∀ v ∈ (h.tseq t).vals, ∀ x ∈ (h.subs v).vals,
    x ∈ entriesOf h ts

theorem RelatedByContainment.inner {h : Heap} {ts : List TRef} (r : RelatedByContainment h ts) :
    ∀ i t t', ts[i]? = some t → ts[i + 1]? = some t' → ∀ v ∈ (h.tseq t).vals, ∀ x ∈ (h.subs v).vals,
      x ∈ entriesOf h ts := by
  intro i t t' g1 g2 v hv x hx
  rw [(r.subs i t t' g1 g2 v hv).1] at hx
  exact mem_entriesOf.mpr ⟨t', List.mem_of_getElem? g2, (List.mem_filter.mp hx).1⟩

/-- what is left alone from `h` to `h'` by cleaning up the group `g` with the tiers `ts` -/
structure Swept (h h' : Heap) (g : GRef) (ts : List TRef) (A : Ref → Prop) : Prop where
  nE : h.nE ≤ h'.nE
  frame : h' = { h with nE := h'.nE, cls := h'.cls, start := h'.start, stop := h'.stop, label := h'.label,
                        fol := h'.fol, prev := h'.prev, subs := h'.subs, sup := h'.sup, intier := h'.intier,
                        within := h'.within, cont := h'.cont, tseq := h'.tseq, gcont := h'.gcont,
                        twithin := h'.twithin }
  gcont : ∀ k, h'.gcont k = h.gcont k ∨ k = g ∧ h'.gcont k = some ts
  twithin : ∀ t, h'.twithin t = h.twithin t ∨ t ∈ ts ∧ h'.twithin t = some g
  value : ∀ x, x < h.nE → h'.start x = h.start x ∧ h'.stop x = h.stop x ∧ h'.label x = h.label x ∧
    h'.cls x = h.cls x ∧ h'.intier x = h.intier x
  apart : ∀ x, x < h.nE → ¬ A x → (h'.subs x).vals = (h.subs x).vals ∧ h'.sup x = h.sup x ∧
    h'.within x = h.within x ∧ h'.cont x = h.cont x ∧ h'.fol x = h.fol x ∧ h'.prev x = h.prev x
  other : ∀ u, u ∉ ts → h'.tseq u = h.tseq u

theorem Swept.refl (h : Heap) (g : GRef) (ts : List TRef) (A : Ref → Prop) : Swept h h g ts A :=
  ⟨Nat.le_refl _, rfl, fun _ => Or.inl rfl, fun _ => Or.inl rfl, fun _ _ => ⟨rfl, rfl, rfl, rfl, rfl⟩,
    fun _ _ _ => ⟨rfl, rfl, rfl, rfl, rfl, rfl⟩, fun _ _ => rfl⟩

theorem Swept.trans {h h' h'' : Heap} {g : GRef} {ts : List TRef} {A : Ref → Prop} (a : Swept h h' g ts A)
    (b : Swept h' h'' g ts A) : Swept h h'' g ts A := by
  refine ⟨Nat.le_trans a.nE b.nE, ?_, ?_, ?_, ?_, ?_, ?_⟩
  · have k := b.frame
    rw [a.frame] at k
    exact k
  · intro k
    rcases b.gcont k with e | e
    · rw [e]; exact a.gcont k
    · exact Or.inr e
  · intro t
    rcases b.twithin t with e | e
    · rw [e]; exact a.twithin t
    · exact Or.inr e
  · intro x hx
    obtain ⟨a1, a2, a3, a4, a5⟩ := a.value x hx
    obtain ⟨b1, b2, b3, b4, b5⟩ := b.value x (by have := a.nE; romega)
    exact ⟨b1.trans a1, b2.trans a2, b3.trans a3, b4.trans a4, b5.trans a5⟩
  · intro x hx hA
    obtain ⟨a1, a2, a3, a4, a5, a6⟩ := a.apart x hx hA
    obtain ⟨b1, b2, b3, b4, b5, b6⟩ := b.apart x (by have := a.nE; romega) hA
    exact ⟨b1.trans a1, b2.trans a2, b3.trans a3, b4.trans a4, b5.trans a5, b6.trans a6⟩
  · intro u hu
    exact (b.other u hu).trans (a.other u hu)

theorem Reseated.swept {h h' : Heap} {g : GRef} {ts : List TRef} {A : Ref → Prop} (r : Reseated h h' g ts A) :
    Swept h h' g ts A := by
  have s := r.same
  refine ⟨by rw [s.nE]; exact Nat.le_refl _, ?_, r.gcont, r.twithin, ?_, ?_, fun u _ => by rw [s.tseq]⟩
  · have k := r.frame
    rw [s.nE, s.cls, s.start, s.stop, s.label, s.tseq, show h'.intier = h.intier by rw [r.frame]]
    exact k
  · intro x _
    exact ⟨by rw [s.start], by rw [s.stop], by rw [s.label], by rw [s.cls], by rw [r.frame]⟩
  · intro x _ hA
    exact ⟨r.apart.subs x hA, r.apart.sup x hA, r.apart.within x hA, r.apart.cont x hA, r.apart.fol x hA,
      r.apart.prev x hA⟩

theorem Fills.swept {h h' : Heap} {g : GRef} {ts : List TRef} {new : TRef → List Ref} (f : Fills h h' ts new)
    (A : Ref → Prop) : Swept h h' g ts A := by
  refine ⟨f.nE, ?_, fun k => Or.inl (by rw [f.frame]), fun t => Or.inl (by rw [f.frame]), ?_, ?_, f.other⟩
  · have k := f.frame
    rw [show h'.gcont = h.gcont by rw [f.frame], show h'.twithin = h.twithin by rw [f.frame]]
    exact k
  · intro x hx
    have a := (f.away x (Or.inl hx)).1
    exact ⟨a.start, a.stop, a.label, a.cls, a.intier⟩
  · intro x hx _
    obtain ⟨a, b⟩ := f.away x (Or.inl hx)
    exact ⟨by rw [a.subs], a.sup, a.within, b, a.fol, a.prev⟩

theorem Fillable.congr {h h' : Heap} {t : TRef} (f : Fillable h t) (s : SameContents h h') : Fillable h' t := by
  refine ⟨?_, ?_, ?_, ?_⟩
  · rw [s.tseq, s.nE]; exact f.old
  · rw [s.tseq, s.tcls]; exact f.ecls
  · have : h'.span = h.span := by funext x; unfold Heap.span; rw [s.start, s.stop]
    rw [this, s.tseq]; exact f.laid
  · have : h'.span = h.span := by funext x; unfold Heap.span; rw [s.start, s.stop]
    rw [this, s.tseq, s.start]; exact f.pos

/-- relating the tiers of such a group again -/
theorem Stacked.again {L A : Ref → Prop} {h : Heap} {g : GRef} {ts : List TRef} (k : Stacked L A h g ts) :
    ∃ h', reRelate g h = .ok () h' ∧ Reseated h h' g ts A ∧ Stacked L A h' g ts ∧ RelatedByContainment h' ts := by
  have st := k.stack
  obtain ⟨h', e, r, htd⟩ := reRelate_among g ts h st.gtiers st.gpoint st.chain st.ne st.aligned k.tidy k.inL k.inA k.closed
  have s := r.same
  have hE : entriesOf h' ts = entriesOf h ts := by unfold entriesOf; rw [s.tseq]
  have hlt : ∀ x ∈ entriesOf h ts, x < h.nE := by
    intro x hx
    obtain ⟨t, ht, hx⟩ := mem_entriesOf.mp hx
    exact (st.tiers t ht).old x hx
  have hlow : ToBottom h' ts ↔ ToBottom h ts := ToBottom.congr s.ct fun t _ => by rw [r.frame]
  refine ⟨h', e, r, ⟨⟨?_, fun q => (r.seated (hlow.mp q)).1, ?_, st.ne, ?_, ?_, ?_, ?_, fun q => (r.seated (hlow.mp q)).2, ?_⟩,
    ?_, ?_, ?_, ?_, ?_, r.related.inner⟩, r.related⟩
  · rw [r.frame]; exact st.gtiers
  · rw [r.frame]; exact st.gpoint
  · exact st.chain.congr (by rw [r.frame]) (by rw [r.frame]) (by rw [r.frame]) (by rw [r.frame])
  · rw [s.ct, s.tcls]; exact st.top
  · exact st.aligned.congr s.start s.stop s.tseq s.cls s.tcls s.label s.ct
  · exact fun t ht => (st.tiers t ht).congr s
  · intro q t ht
    rw [(r.unseated fun q' => q (hlow.mpr q')).2]
    exact st.loose (fun q' => q (hlow.mpr q')) t ht
  · exact htd fun i t t' g1 g2 v hv x hx _ => k.inner i t t' g1 g2 v hv x hx
  · intro v x hx
    rw [s.nE]
    rcases r.subs v x hx with q | q
    · exact k.alloc v x q.1
    · exact ⟨hlt v q.1, hlt x q.2⟩
  · rw [hE]; exact k.inL
  · rw [hE]; exact k.inA
  · intro v x hx
    rcases r.sup v x hx with q | q
    · exact k.closed v x q.1
    · exact ⟨fun _ => k.inA x q.2, fun _ => k.inA v q.1⟩

theorem Fills.stacked {L A : Ref → Prop} {h h' : Heap} {g : GRef} {ts : List TRef} {new : TRef → List Ref}
    (f : Fills h h' ts new) (k : Stacked L A h g ts) (hA : ∀ x, h.nE ≤ x → A x) :
    Stacked (fun x => L x ∨ Made h h' x) A h' g ts := by
  have hmem : ∀ x ∈ entriesOf h' ts, x ∈ entriesOf h ts ∨ Made h h' x := by
    intro x hx
    obtain ⟨t, ht, hx⟩ := mem_entriesOf.mp hx
    rcases List.mem_append.mp ((f.perm t ht).mem_iff.mp hx) with a | a
    · exact Or.inl (mem_entriesOf.mpr ⟨t, ht, a⟩)
    · exact Or.inr (f.range t ht x a)
  refine ⟨f.stack k.stack, f.tidy k.tidy k.alloc, ?_, ?_, ?_, ?_, ?_⟩
  · intro v x hx
    have := f.subs k.alloc v x hx
    have := f.nE
    constructor <;> romega
  · intro x hx
    rcases hmem x hx with q | q
    · exact Or.inl (k.inL x q)
    · exact Or.inr q
  · intro x hx
    rcases hmem x hx with q | q
    · exact k.inA x q
    · exact hA x q.1
  · intro v x hx
    exact k.closed v x (f.sup v x hx).1
  · intro i t t' g1 g2 v hv x hx
    have ht := List.mem_of_getElem? g1
    obtain ⟨q1, q2, q3⟩ := f.subs k.alloc v x hx
    rcases List.mem_append.mp ((f.perm t ht).mem_iff.mp hv) with a | a
    · obtain ⟨u, hu, hxu⟩ := mem_entriesOf.mp (k.inner i t t' g1 g2 v a x q1)
      exact mem_entriesOf.mpr ⟨u, hu, (f.perm u hu).mem_iff.mpr (by simp [hxu])⟩
    · have := (f.range t ht v a).1; romega

/-- the part of a group that guides the cleanup from tier to tier -/
structure Ladder (h : Heap) (g : GRef) (ts : List TRef) : Prop where
  gtiers : h.gtiers g = ts
  gcont : h.gcont g = some ts
  chain : ClassChain h ts
  low : ToBottom h ts
  twithin : ∀ t ∈ ts, h.twithin t = some g

theorem Ladder.congr {h h' : Heap} {g : GRef} {ts us : List TRef} {new : TRef → List Ref} (l : Ladder h g ts)
    (f : Fills h h' us new) : Ladder h' g ts := by
  refine ⟨by rw [f.frame]; exact l.gtiers, by rw [f.frame]; exact l.gcont,
    l.chain.congr (by rw [f.frame]) (by rw [f.frame]) (by rw [f.frame]) (by rw [f.frame]), ?_, ?_⟩
  · exact (ToBottom.congr (by rw [f.frame]) fun t _ => by rw [f.frame]).mpr l.low
  · rw [show h'.twithin = h.twithin by rw [f.frame]]; exact l.twithin

theorem Ladder.truthy {h : Heap} {g : GRef} {ts : List TRef} (l : Ladder h g ts) {t : TRef} (ht : t ∈ ts) :
    withinTruthy h t = some g := by
  unfold withinTruthy
  rw [l.twithin t ht]
  simp only
  rw [l.gtiers, if_pos (List.length_pos_of_mem ht)]

/-- `cleanup()` of a tier of a group goes down to the lowest tier, filling the gaps, then relates the tiers again -/
theorem tierCleanupN_run (g : GRef) (ts : List TRef) : ∀ (rest : List TRef) (t : TRef) (i : Nat) (n : Nat) (h : Heap),
    Ladder h g ts → ts.drop i = t :: rest → rest.length < n → (∀ u ∈ t :: rest, Fillable h u) →
    (∀ u ∈ t :: rest, tight (h.tstarts u) (h.tends u) = false) → ∀ h1 h2, fillAll (t :: rest) h = .ok () h1 →
    reRelate g h1 = .ok () h2 → tierCleanupN n t h = .ok () h2 := by
  intro rest
  induction rest with
  | nil =>
    intro t i n h ld hd hn hf ht h1 h2 e1 e2
    obtain ⟨n, rfl⟩ : ∃ m, n = m + 1 := ⟨n - 1, by simp at hn; omega⟩
    obtain ⟨k, ek, fk⟩ := fill_one h t (hf t (by simp))
    have hk : k = h1 := by
      unfold fillAll at e1
      have : (do let h ← M.get; tierFill t (gapsOf ((h.tseq t).vals.map h.span)); fillAll [] : M Unit) h = .ok () k := by
        mstep M.get_apply h
        mstep ek
        rfl
      rw [this] at e1
      injection e1
    subst hk
    have ld' := ld.congr fk
    have hlast : ts.getLast? = some t := by
      have : ts = ts.take i ++ [t] := by rw [← hd, List.take_append_drop]
      rw [this]; simp
    have hmem : t ∈ ts := List.mem_of_getLast? hlast
    obtain ⟨c, hc, hb⟩ := ld'.low t hlast
    unfold tierCleanupN
    mstep M.get_apply h
    rw [if_neg (by rw [ht t (by simp)]; simp), PlainTier.spans_eq h t (hf t (by simp)).laid]
    mstep ek
    mstep M.get_apply k
    mstep (show isSubO (k.tsub t) cBottom k = Res.ok true k by rw [hc]; show Res.ok (k.ct.isSub c cBottom) k = _; rw [hb])
    rw [ld'.truthy hmem]
    exact e2
  | cons t' rest ih =>
    intro t i n h ld hd hn hf ht h1 h2 e1 e2
    obtain ⟨n, rfl⟩ : ∃ m, n = m + 1 := ⟨n - 1, by simp at hn; omega⟩
    obtain ⟨k, ek, fk⟩ := fill_one h t (hf t (by simp))
    have e1' : fillAll (t' :: rest) k = .ok () h1 := by
      have : fillAll (t :: t' :: rest) h = fillAll (t' :: rest) k := by
        conv => lhs; unfold fillAll
        mstep M.get_apply h
        mstep ek
        rfl
      rw [← this]; exact e1
    have ld' := ld.congr fk
    have g1 : ts[i]? = some t := by
      have := congrArg (fun l : List TRef => l[0]?) hd
      simpa using this
    have g2 : ts[i + 1]? = some t' := by
      have := congrArg (fun l : List TRef => l[1]?) hd
      simpa [List.getElem?_drop] using this
    have hmem : t ∈ ts := List.mem_of_getElem? g1
    have hmem' : t' ∈ ts := List.mem_of_getElem? g2
    have hnd := ld.chain.nodup
    have hdn : (t :: t' :: rest).Nodup := by rw [← hd]; exact hnd.sublist (List.drop_sublist _ _)
    have hseq : ∀ u ∈ t' :: rest, k.tseq u = h.tseq u := by
      intro u hu
      refine fk.other u fun e => ?_
      have : u = t := by simpa using e
      subst this
      exact (List.nodup_cons.mp hdn).1 hu
    have hsp : ∀ u ∈ t' :: rest, ∀ x ∈ (h.tseq u).vals, SameEntry h k x := fun u hu x hx =>
      (fk.away x (Or.inl ((hf u (List.mem_cons_of_mem _ hu)).old x hx))).1
    unfold tierCleanupN
    mstep M.get_apply h
    rw [if_neg (by rw [ht t (by simp)]; simp), PlainTier.spans_eq h t (hf t (by simp)).laid]
    mstep ek
    mstep M.get_apply k
    mstep (show isSubO (k.tsub t) cBottom k = Res.ok false k by
      rw [(ld'.chain.down i t t' g1 g2).1]
      show Res.ok (k.ct.isSub (k.tcls t') cBottom) k = _
      rw [(ld'.chain.inner i t t' g1 g2).2])
    rw [ld'.truthy hmem]
    simp only
    have tp : TierPair k g t t' i := ⟨by rw [ld'.gtiers]; exact g1, by rw [ld'.gtiers]; exact g2, by rw [ld'.gtiers]; exact hnd,
      by rw [ld'.gtiers]; exact ld'.gcont, ld'.twithin t hmem, ld'.twithin t' hmem'⟩
    mstep tp.below
    refine ih t' (i + 1) n k ld' ?_ (by simp at hn; omega) ?_ ?_ h1 h2 e1' e2
    · rw [← List.drop_drop, hd]; rfl
    · intro u hu
      have q := hf u (List.mem_cons_of_mem _ hu)
      refine ⟨?_, ?_, ?_, ?_⟩
      · intro x hx; rw [hseq u hu] at hx; have := q.old x hx; have := fk.nE; romega
      · rw [hseq u hu, show k.tcls = h.tcls by rw [fk.frame]]; exact q.ecls
      · have : (h.tseq u).vals.map k.span = (h.tseq u).vals.map h.span :=
          List.map_congr_left fun x hx => fk.span (q.old x hx)
        rw [hseq u hu, this]; exact q.laid
      · have : (h.tseq u).vals.map k.span = (h.tseq u).vals.map h.span :=
          List.map_congr_left fun x hx => fk.span (q.old x hx)
        rw [hseq u hu, this]
        intro hg x hx
        rw [(hsp u hu x hx).start]; exact q.pos hg x hx
    · intro u hu
      have a1 : k.tstarts u = h.tstarts u := by
        unfold Heap.tstarts
        rw [hseq u hu]
        exact List.map_congr_left fun x hx => (hsp u hu x hx).start
      have a2 : k.tends u = h.tends u := by
        unfold Heap.tends
        rw [hseq u hu]
        exact List.map_congr_left fun x hx => (hsp u hu x hx).stop
      rw [a1, a2]
      exact ht u (List.mem_cons_of_mem _ hu)

/-- `cleanup()` of the tiers of a group that does not reach down to `Bottom` fills the gaps, tier by tier -/
theorem sweepLoose_run : ∀ (us : List TRef) (h : Heap), us.Nodup → (∀ u ∈ us, Fillable h u) →
    (∀ u ∈ us, tight (h.tstarts u) (h.tends u) = false) → (∀ u ∈ us, h.twithin u = none) →
    (∀ u ∈ us, ∃ c, h.tsub u = some c ∧ h.ct.isSub c cBottom = false) → ∀ h1, fillAll us h = .ok () h1 →
    M.forL us (fun t => tierCleanup t) h = .ok () h1 := by
  intro us
  induction us with
  | nil => intro h _ _ _ _ _ h1 e1; exact e1
  | cons t rest ih =>
    intro h hdn hf ht hw hb h1 e1
    obtain ⟨k, ek, fk⟩ := fill_one h t (hf t (by simp))
    have e1' : fillAll rest k = .ok () h1 := by
      have : fillAll (t :: rest) h = fillAll rest k := by
        conv => lhs; unfold fillAll
        mstep M.get_apply h
        mstep ek
        rfl
      rw [← this]; exact e1
    have hkw : k.twithin = h.twithin := by rw [fk.frame]
    have hks : k.tsub = h.tsub := by rw [fk.frame]
    have hkc : k.ct = h.ct := by rw [fk.frame]
    have hseq : ∀ u ∈ rest, k.tseq u = h.tseq u := by
      intro u hu
      refine fk.other u fun e => ?_
      have : u = t := by simpa using e
      subst this
      exact (List.nodup_cons.mp hdn).1 hu
    have hsp : ∀ u ∈ rest, ∀ x ∈ (h.tseq u).vals, SameEntry h k x := fun u hu x hx =>
      (fk.away x (Or.inl ((hf u (List.mem_cons_of_mem _ hu)).old x hx))).1
    have hone : tierCleanup t h = .ok () k := by
      obtain ⟨c, hc, hcb⟩ := hb t (by simp)
      unfold tierCleanup
      rw [hw t (by simp)]
      show tierCleanupN (0 + 1) t h = _
      unfold tierCleanupN
      mstep M.get_apply h
      rw [if_neg (by rw [ht t (by simp)]; simp), PlainTier.spans_eq h t (hf t (by simp)).laid]
      mstep ek
      mstep M.get_apply k
      mstep (show isSubO (k.tsub t) cBottom k = Res.ok false k by
        rw [hks, hc]; show Res.ok (k.ct.isSub c cBottom) k = _; rw [hkc, hcb])
      have : withinTruthy k t = none := by
        unfold withinTruthy
        rw [hkw, hw t (by simp)]
      rw [this]
      rfl
    rw [M.forL_cons, hone]
    refine ih k (List.nodup_cons.mp hdn).2 ?_ ?_ (fun u hu => by rw [hkw]; exact hw u (by simp [hu]))
      (fun u hu => by rw [hks, hkc]; exact hb u (by simp [hu])) h1 e1'
    · intro u hu
      have q := hf u (List.mem_cons_of_mem _ hu)
      refine ⟨?_, ?_, ?_, ?_⟩
      · intro x hx; rw [hseq u hu] at hx; have := q.old x hx; have := fk.nE; romega
      · rw [hseq u hu, show k.tcls = h.tcls by rw [fk.frame]]; exact q.ecls
      · have : (h.tseq u).vals.map k.span = (h.tseq u).vals.map h.span :=
          List.map_congr_left fun x hx => fk.span (q.old x hx)
        rw [hseq u hu, this]; exact q.laid
      · have : (h.tseq u).vals.map k.span = (h.tseq u).vals.map h.span :=
          List.map_congr_left fun x hx => fk.span (q.old x hx)
        rw [hseq u hu, this]
        intro hg x hx
        rw [(hsp u hu x hx).start]; exact q.pos hg x hx
    · intro u hu
      have a1 : k.tstarts u = h.tstarts u := by
        unfold Heap.tstarts
        rw [hseq u hu]
        exact List.map_congr_left fun x hx => (hsp u hu x hx).start
      have a2 : k.tends u = h.tends u := by
        unfold Heap.tends
        rw [hseq u hu]
        exact List.map_congr_left fun x hx => (hsp u hu x hx).stop
      rw [a1, a2]
      exact ht u (List.mem_cons_of_mem _ hu)

/-- is there a gap beyond tolerance in the tier? -/
def loose (h : Heap) (t : TRef) : Bool := !tight (h.tstarts t) (h.tends t)

theorem loose_congr {h h' : Heap} (s : SameContents h h') (t : TRef) : loose h' t = loose h t := by
  unfold loose Heap.tstarts Heap.tends
  rw [s.tseq, s.start, s.stop]

/-- entries below the top tier have a container that is not empty -/
theorem cleanupScan_lower {h : Heap} {g : GRef} {ts : List TRef}
    (r : RelatedByContainment h ts) {i : Nat} {t : TRef} (ht : ts[i + 1]? = some t) :
    cleanupScan g t h = .ok (loose h t) h := by
  obtain ⟨u, hu⟩ : ∃ u, ts[i]? = some u := ⟨_, List.getElem?_eq_getElem (by
    have := (List.getElem?_eq_some_iff.mp ht).1; omega)⟩
  have hno : (h.tseq t).vals.any (fun i => !entryWithinTruthy h i) = false := by
    rw [List.any_eq_false]
    intro x hx
    obtain ⟨v, hv, hxv⟩ := r.covered i u t hu ht x hx
    have := (r.sup i u t hu ht v hv x hxv).2
    unfold entryWithinTruthy
    rw [this]
    have : 0 < (h.subs v).vals.length := List.length_pos_of_mem hxv
    simp [this]
  unfold cleanupScan
  mstep M.get_apply h
  by_cases hc : h.ct.isSub (h.tcls t) cTop = true
  · rw [if_pos hc]; rfl
  · rw [if_neg hc, if_neg (by rw [hno]; simp)]; rfl

theorem cleanupScan_top {L A : Ref → Prop} {h : Heap} {g : GRef} {ts : List TRef} (k : Stacked L A h g ts)
    (r : RelatedByContainment h ts) {t : TRef} (ht : ts[0]? = some t) :
    ∃ h', cleanupScan g t h = .ok (loose h t) h' ∧ Stacked L A h' g ts ∧ RelatedByContainment h' ts ∧
      SameContents h h' ∧ Swept h h' g ts A := by
  have hsame : SameContents h h := ⟨rfl, rfl, rfl, rfl, rfl, rfl, rfl, rfl, rfl⟩
  obtain ⟨c, hc, hb⟩ := k.stack.top t ht
  by_cases h1 : h.ct.isSub (h.tcls t) cTop = true
  · refine ⟨h, ?_, k, r, hsame, Swept.refl h g ts A⟩
    unfold cleanupScan
    mstep M.get_apply h
    rw [if_pos h1]; rfl
  · by_cases h2 : (h.tseq t).vals.any (fun i => !entryWithinTruthy h i) = true
    · obtain ⟨h', e, rs, k', r'⟩ := k.again
      refine ⟨h', ?_, k', r', rs.same, rs.swept⟩
      unfold cleanupScan
      mstep M.get_apply h
      rw [if_neg h1, if_pos h2]
      have hall : ∀ l : List Ref, (∀ x ∈ l, x ∈ (h.tseq t).vals) → M.forL l (fun i => do
          let h ← M.get
          if entryWithinTruthy h i then pure () else projectUp i) h = .ok () h := by
        intro l
        induction l with
        | nil => intro _; rfl
        | cons x l ih =>
          intro hl
          rw [M.forL_cons]
          have hx : (do
              let h ← M.get
              if entryWithinTruthy h x then pure () else projectUp x : M Unit) h = .ok () h := by
            mstep M.get_apply h
            by_cases hw : entryWithinTruthy h x = true
            · rw [if_pos hw]; rfl
            · rw [if_neg hw]
              unfold projectUp
              mstep M.get_apply h
              have hcl := k.stack.aligned.cls t (List.mem_of_getElem? ht) x (hl x (by simp))
              mstep (show isSubO (h.ct.sup (h.cls x)) cTop h = Res.ok true h by
                rw [hcl, hc]; show Res.ok (h.ct.isSub c cTop) h = _; rw [hb])
              rfl
          rw [hx]
          exact ih fun y hy => hl y (by simp [hy])
      mstep hall _ (fun _ hx => hx)
      mstep e
      rfl
    · refine ⟨h, ?_, k, r, hsame, Swept.refl h g ts A⟩
      unfold cleanupScan
      mstep M.get_apply h
      rw [if_neg h1, if_neg h2]
      rfl

theorem cleanupScanAll_lower {h : Heap} {g : GRef} {ts : List TRef}
    (r : RelatedByContainment h ts) : ∀ (rest : List TRef) (i : Nat) (acc : Bool), ts.drop (i + 1) = rest →
    cleanupScanAll g rest acc h = .ok (acc || rest.any (loose h)) h := by
  intro rest
  induction rest with
  | nil => intro i acc _; simp [cleanupScanAll, M.pure_apply]
  | cons t rest ih =>
    intro i acc hd
    have g1 : ts[i + 1]? = some t := by
      have := congrArg (fun l : List TRef => l[0]?) hd
      simpa using this
    unfold cleanupScanAll
    mstep cleanupScan_lower r g1
    rw [ih (i + 1) _ (by rw [← List.drop_drop, hd]; rfl), List.any_cons, Bool.or_assoc]

theorem cleanupScanAll_run {L A : Ref → Prop} {h : Heap} {g : GRef} {ts : List TRef} (k : Stacked L A h g ts)
    (r : RelatedByContainment h ts) :
    ∃ h', cleanupScanAll g ts false h = .ok (ts.any (loose h)) h' ∧ Stacked L A h' g ts ∧ RelatedByContainment h' ts ∧
      SameContents h h' ∧ Swept h h' g ts A := by
  cases ts with
  | nil => exact absurd rfl k.stack.ne
  | cons t rest =>
    obtain ⟨h', e, k', r', s, w⟩ := cleanupScan_top k r (t := t) rfl
    refine ⟨h', ?_, k', r', s, w⟩
    unfold cleanupScanAll
    mstep e
    rw [cleanupScanAll_lower r' rest 0 _ rfl, List.any_cons, Bool.false_or]
    have : rest.any (loose h') = rest.any (loose h) := by
      congr 1
      funext u
      exact loose_congr s u
    rw [this]

theorem loose_iff {h : Heap} {t : TRef} :
    loose h t = true ↔ ∃ p ∈ gapsOf ((h.tseq t).vals.map h.span), RealGap p := by
  constructor
  · intro e
    apply Classical.byContradiction
    intro hno
    have : tight (h.tstarts t) (h.tends t) = true := by
      refine (tight_iff h _).mpr ?_
      intro i x y hx hy
      by_cases he : h.stop x = h.start y
      · rw [he]; exact CloseTo.refl _
      · apply Classical.byContradiction
        intro hc
        refine hno ⟨(h.stop x, h.start y), (mem_gapsOf _ _).mpr ⟨i, h.span x, h.span y, by simp [hx], by simp [hy], he, rfl⟩, hc⟩
    unfold loose at e
    rw [this] at e
    cases e
  · rintro ⟨p, hp, hr⟩
    unfold loose
    rw [PlainTier.notTight hp hr]
    rfl

/-- aligned tiers have the same gaps -/
theorem AlignedTiers.gaps {h : Heap} {ts : List TRef} (al : AlignedTiers h ts) (p : Time × Time) :
    ∀ (n i : Nat) (t t' : TRef), ts[i]? = some t → ts[i + n]? = some t' →
      (Gap ((h.tseq t).vals.map h.span) p ↔ Gap ((h.tseq t').vals.map h.span) p) := by
  intro n
  induction n with
  | zero =>
    intro i t t' g1 g2
    rw [Nat.add_zero, g1] at g2
    cases g2
    exact Iff.rfl
  | succ n ih =>
    intro i t t' g1 g2
    obtain ⟨u, hu⟩ : ∃ u, ts[i + n]? = some u := ⟨_, List.getElem?_eq_getElem (by
      have := (List.getElem?_eq_some_iff.mp g2).1; omega)⟩
    exact (ih i t u g1 hu).trans ((al.aligned (i + n) u t' hu g2).gaps p)

theorem AlignedTiers.gaps' {h : Heap} {ts : List TRef} (al : AlignedTiers h ts) (p : Time × Time) {t t' : TRef}
    (ht : t ∈ ts) (ht' : t' ∈ ts) : Gap ((h.tseq t).vals.map h.span) p → Gap ((h.tseq t').vals.map h.span) p := by
  obtain ⟨i, g1⟩ := List.mem_iff_getElem?.mp ht
  obtain ⟨j, g2⟩ := List.mem_iff_getElem?.mp ht'
  rcases Nat.le_total i j with q | q
  · obtain ⟨n, rfl⟩ := Nat.exists_eq_add_of_le q
    exact (al.gaps p n i t t' g1 g2).mp
  · obtain ⟨n, rfl⟩ := Nat.exists_eq_add_of_le q
    exact (al.gaps p n j t' t g2 g1).mpr

theorem forL_noop {α} (l : List α) (m : α → M Unit) (h : Heap) (hm : ∀ x ∈ l, m x h = .ok () h) :
    M.forL l m h = .ok () h := by
  induction l with
  | nil => rfl
  | cons x l ih =>
    rw [M.forL_cons]
    rw [hm x (by simp)]
    exact ih fun y hy => hm y (by simp [hy])

theorem SameContents.trans {h h1 h2 : Heap} (a : SameContents h h1) (b : SameContents h1 h2) : SameContents h h2 :=
  ⟨b.start.trans a.start, b.stop.trans a.stop, b.label.trans a.label, b.cls.trans a.cls, b.nE.trans a.nE,
    b.tseq.trans a.tseq, b.tcls.trans a.tcls, b.tname.trans a.tname, b.ct.trans a.ct⟩

/-- the second half of the cleanup: filling the gaps, if there are any -/
def sweepRest (g : GRef) (b : Bool) : M Unit :=
  if b then do
    let h ← M.get
    M.forL (h.gtiers g) (fun t => tierCleanup t)
    reRelate g
  else pure ()

theorem sweepRest_run {L A : Ref → Prop} {h : Heap} {g : GRef} {ts : List TRef} (k : Stacked L A h g ts)
    (r : RelatedByContainment h ts) (hA : ∀ x, h.nE ≤ x → A x) :
    ∃ h', sweepRest g (ts.any (loose h)) h = .ok () h' ∧ Stacked (fun x => L x ∨ Made h h' x) A h' g ts ∧
      RelatedByContainment h' ts ∧ Swept h h' g ts A ∧ (∀ x, Made h h' x → OnTiers h' ts x) ∧
      ((∀ t ∈ ts, ∀ p ∈ gapsOf ((h.tseq t).vals.map h.span), ¬ RealGap p) → SameContents h h') ∧
      ((∃ t ∈ ts, ∃ p ∈ gapsOf ((h.tseq t).vals.map h.span), RealGap p) → ∃ new : TRef → List Ref, ∀ t ∈ ts, FilledTier h h' t (new t)) := by
  have st := k.stack
  by_cases hl : ts.any (loose h) = true
  · obtain ⟨t0, ht0, hl0⟩ := List.any_eq_true.mp hl
    obtain ⟨p, hp, hr⟩ := loose_iff.mp hl0
    have hloose : ∀ t ∈ ts, loose h t = true := by
      intro t ht
      rw [loose_iff]
      refine ⟨p, (mem_gapsOf_iff (k.stack.tiers t ht).laid p).mpr ?_, hr⟩
      exact k.stack.aligned.gaps' p ht0 ht ((mem_gapsOf_iff (k.stack.tiers t0 ht0).laid p).mp hp)
    obtain ⟨h2, new, e2, f⟩ := fillAll_ok ts h st.chain.nodup st.tiers
    have k2 := f.stacked k hA
    have hnt : ∀ u ∈ ts, tight (h.tstarts u) (h.tends u) = false := by
      intro u hu
      have := hloose u hu
      unfold loose at this
      simpa using this
    obtain ⟨h3, hfor, s3, k3, w3⟩ : ∃ h3, M.forL ts (fun t => tierCleanup t) h = .ok () h3 ∧ SameContents h2 h3 ∧
        Stacked (fun x => L x ∨ Made h h2 x) A h3 g ts ∧ Swept h2 h3 g ts A := by
      by_cases hlow : ToBottom h ts
      · obtain ⟨h3, e3, rs3, k3, r3⟩ := k2.again
        have s3 := rs3.same
        refine ⟨h3, ?_, s3, k3, rs3.swept⟩
        cases hts : ts with
        | nil => exact absurd hts st.ne
        | cons t rest =>
          rw [M.forL_cons]
          have ld : Ladder h g ts := ⟨st.gtiers, st.gcont hlow, st.chain, hlow, st.twithin hlow⟩
          have htop : tierCleanup t h = .ok () h3 := by
            unfold tierCleanup
            refine tierCleanupN_run g ts rest t 0 _ h ld hts ?_ (by rw [← hts]; exact st.tiers) ?_ h2 h3
              (by rw [← hts]; exact e2) e3
            · rw [st.twithin hlow t (by rw [hts]; simp)]
              simp only
              rw [st.gtiers, hts, List.length_cons]
              omega
            · intro u hu
              exact hnt u (by rw [hts]; exact hu)
          rw [htop]
          refine forL_noop _ _ _ ?_
          intro u hu
          refine C21_clean h3 u ?_
          intro i x y hx hy
          have hg := f.gapless u (by rw [hts]; simp [hu])
          rw [show h3.tseq = h2.tseq from s3.tseq] at hx hy
          have := (gapsOf_touching h2 _).mp hg i x y hx hy
          rw [s3.start, s3.stop, this]
          exact CloseTo.refl _
      · refine ⟨h2, ?_, ⟨rfl, rfl, rfl, rfl, rfl, rfl, rfl, rfl, rfl⟩, k2, Swept.refl _ _ _ _⟩
        exact sweepLoose_run ts h st.chain.nodup st.tiers hnt (st.loose hlow) (st.chain.above hlow) h2 e2
    obtain ⟨h4, e4, rs4, k4, r4⟩ := k3.again
    have s4 := rs4.same
    have hn4 : h4.nE = h2.nE := by rw [s4.nE, s3.nE]
    have hmade : (fun x => L x ∨ Made h h2 x) = fun x => L x ∨ Made h h4 x := by
      funext x; unfold Made; rw [hn4]
    rw [hmade] at k4
    refine ⟨h4, ?_, k4, r4, (f.swept A).trans (w3.trans rs4.swept), ?_, ?_, ?_⟩
    · unfold sweepRest
      rw [if_pos hl]
      mstep M.get_apply h
      rw [st.gtiers]
      mstep hfor
      exact e4
    · rintro x ⟨hx1, hx2⟩
      obtain ⟨t, ht, hx⟩ := f.made x hx1 (by rw [← hn4]; exact hx2)
      refine ⟨t, ht, ?_⟩
      rw [show h4.tseq = h2.tseq by rw [s4.tseq, s3.tseq]]
      exact (f.perm t ht).mem_iff.mpr (by simp [hx])
    · intro hno
      exact absurd hr (hno t0 ht0 p hp)
    · intro _
      refine ⟨new, fun t ht => ?_⟩
      have hq : h4.tseq = h2.tseq := by rw [s4.tseq, s3.tseq]
      have hsp4 : h4.span = h2.span := by
        funext x; unfold Heap.span; rw [s4.start, s4.stop, s3.start, s3.stop]
      refine ⟨?_, ?_, ?_, ?_, ?_, ?_⟩
      · intro x hx
        obtain ⟨q1, q2⟩ := f.range t ht x hx
        obtain ⟨s, e, q⟩ := f.blank t ht x hx
        rw [hn4, s4.label, s3.label, s4.cls, s3.cls, q.label, q.cls]
        exact ⟨q1, q2, rfl, rfl⟩
      · rw [hsp4, f.spans t ht]
      · rw [hq]; exact f.sub t ht
      · rw [hq]; exact f.perm t ht
      · rw [hq, hsp4]; exact f.gapless t ht
      · rw [hq, hsp4]; exact f.laid t ht
  · refine ⟨h, ?_, ?_, r, Swept.refl h g ts A, ?_, fun _ => ⟨rfl, rfl, rfl, rfl, rfl, rfl, rfl, rfl, rfl⟩, ?_⟩
    · unfold sweepRest
      rw [if_neg hl]
      rfl
    · have : (fun x => L x ∨ Made h h x) = L := by
        funext x
        unfold Made
        refine propext ⟨fun q => q.elim id fun q => ?_, Or.inl⟩
        romega
      rw [this]
      exact k
    · rintro x ⟨q1, q2⟩
      romega
    · rintro ⟨t, ht, p, hp, hr⟩
      exact absurd (List.any_eq_true.mpr ⟨t, ht, loose_iff.mpr ⟨p, hp, hr⟩⟩) hl

/-- nothing to do: the entries of the first tier are within it, and no tier has a gap -/
theorem groupCleanup_idle {h : Heap} {g : GRef} {ts : List TRef} (hts : h.gtiers g = ts) (hne : ts ≠ [])
    (r : RelatedByContainment h ts) (hr : Rooted h ts)
    (hno : ∀ t ∈ ts, ∀ p ∈ gapsOf ((h.tseq t).vals.map h.span), ¬ RealGap p) : groupCleanup g h = .ok () h := by
  have hlo : ts.any (loose h) = false := by
    rw [List.any_eq_false]
    intro t ht q
    obtain ⟨p, hp, hq⟩ := loose_iff.mp q
    exact hno t ht p hp hq
  have hall : cleanupScanAll g ts false h = .ok (ts.any (loose h)) h := by
    cases ts with
    | nil => exact absurd rfl hne
    | cons t rest =>
      have ht : cleanupScan g t h = .ok (loose h t) h := by
        have hn : (h.tseq t).vals.any (fun i => !entryWithinTruthy h i) = false := by
          rw [List.any_eq_false]
          intro x hx
          unfold entryWithinTruthy
          rw [hr t rfl x hx]
          have : 0 < (h.tseq t).vals.length := List.length_pos_of_mem hx
          simp [this]
        unfold cleanupScan
        mstep M.get_apply h
        by_cases hc : h.ct.isSub (h.tcls t) cTop = true
        · rw [if_pos hc]; rfl
        · rw [if_neg hc, if_neg (by rw [hn]; simp)]; rfl
      unfold cleanupScanAll
      mstep ht
      rw [cleanupScanAll_lower r rest 0 _ rfl, List.any_cons, Bool.false_or]
  unfold groupCleanup
  mstep M.get_apply h
  rw [hts]
  mstep hall
  rw [hlo]
  rfl

/-- the whole cleanup -/
theorem groupCleanup_run {L A : Ref → Prop} {h : Heap} {g : GRef} {ts : List TRef} (k : Stacked L A h g ts)
    (r : RelatedByContainment h ts) (hA : ∀ x, h.nE ≤ x → A x) :
    ∃ h', groupCleanup g h = .ok () h' ∧ Stacked (fun x => L x ∨ Made h h' x) A h' g ts ∧ RelatedByContainment h' ts ∧
      Swept h h' g ts A ∧ (∀ x, Made h h' x → OnTiers h' ts x) ∧
      ((∀ t ∈ ts, ∀ p ∈ gapsOf ((h.tseq t).vals.map h.span), ¬ RealGap p) → SameContents h h') ∧
      ((∃ t ∈ ts, ∃ p ∈ gapsOf ((h.tseq t).vals.map h.span), RealGap p) → ∃ new : TRef → List Ref, ∀ t ∈ ts, FilledTier h h' t (new t)) := by
  obtain ⟨h1, e1, k1, r1, s1, w1⟩ := cleanupScanAll_run k r
  have hsp : h1.span = h.span := by funext x; unfold Heap.span; rw [s1.start, s1.stop]
  have hlo : ts.any (loose h1) = ts.any (loose h) := by
    congr 1
    funext u
    exact loose_congr s1 u
  obtain ⟨h', e, k', r', w', hm, q1, q2⟩ := sweepRest_run k1 r1 (by rw [s1.nE]; exact hA)
  rw [s1.tseq, hsp] at q1 q2
  have hmade : Made h h' = Made h1 h' := by
    funext x; unfold Made; rw [s1.nE]
  refine ⟨h', ?_, ?_, r', w1.trans w', ?_, ?_, ?_⟩
  · unfold groupCleanup
    mstep M.get_apply h
    rw [k.stack.gtiers]
    mstep e1
    rw [← hlo]
    exact e
  · rw [hmade]; exact k'
  · rw [hmade]; exact hm
  · intro q
    exact s1.trans (q1 q)
  · intro q
    obtain ⟨new, hnew⟩ := q2 q
    refine ⟨new, fun t ht => ?_⟩
    have f := hnew t ht
    refine ⟨?_, ?_, ?_, ?_, f.touching, f.laid⟩
    · rw [← s1.nE, ← s1.tcls]; exact f.fresh
    · rw [← s1.tseq, ← hsp]; exact f.spans
    · rw [← s1.tseq]; exact f.kept
    · rw [← s1.tseq]; exact f.perm

end ATG
