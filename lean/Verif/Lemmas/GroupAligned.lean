import Verif.Lemmas.GroupRun
import Verif.Lemmas.Arrange
/-!
# `TierGroup.__init__` on aligned tiers
-/
namespace ATG

/-- the heap on which the removal loop of `TierGroup.__init__` starts -/
def seated (h : Heap) (g : GRef) (ts : List TRef) (b : Bool) : Heap :=
  { (if b then contained h g ts else h) with gtiers := upd h.gtiers g ts }

theorem seated_frame (h : Heap) (g : GRef) (ts : List TRef) (b : Bool) :
    seated h g ts b = { h with gtiers := upd h.gtiers g ts, gcont := (seated h g ts b).gcont,
                               twithin := (seated h g ts b).twithin } := by
  cases b <;> rfl

/-- all entries of the tiers -/
def entriesOf (h : Heap) (ts : List TRef) : List Ref := (ts.map fun t => (h.tseq t).vals).flatten

theorem mem_entriesOf {h : Heap} {ts : List TRef} {x : Ref} :
    x ∈ entriesOf h ts ↔ ∃ t ∈ ts, x ∈ (h.tseq t).vals := by
  unfold entriesOf
  rw [List.mem_flatten]
  constructor
  · rintro ⟨l, hl, hx⟩
    obtain ⟨t, ht, rfl⟩ := List.mem_map.mp hl
    exact ⟨t, ht, hx⟩
  · rintro ⟨t, ht, hx⟩
    exact ⟨_, List.mem_map.mpr ⟨t, ht, rfl⟩, hx⟩

theorem groupInit_run (g : GRef) (tiers ts : List TRef) (delay b : Bool) (h : Heap)
    (ha : arrange h tiers = .ok (ts, b)) (hmem : ∀ t ∈ ts, t ∈ tiers) (al : AlignedTiers h ts)
    {L : Ref → Prop} (td : TidyOn L h) (hL : ∀ x ∈ entriesOf h tiers, L x) :
    ∃ h1 h', groupInit g tiers delay h = .ok () h' ∧
      Frees (seated h g ts b) h1 (entriesOf h tiers) ∧ Relates h1 h' (chainPairs h ts) := by
  have e0 : seated h g ts b = { h with gtiers := upd h.gtiers g ts, gcont := (seated h g ts b).gcont,
                                       twithin := (seated h g ts b).twithin } := seated_frame h g ts b
  have td0 : TidyOn L (seated h g ts b) := by
    rw [e0]
    exact ⟨td.down, td.up, td.nodup, td.distinct, td.cls, td.label⟩
  obtain ⟨h1, e1, f1⟩ := forL_tiers_frees tiers (seated h g ts b) td0 (by
    rw [show (seated h g ts b).tseq = h.tseq by rw [e0]]
    exact fun t ht x hx => hL x (mem_entriesOf.mpr ⟨t, ht, hx⟩))
  have hq : (seated h g ts b).tseq = h.tseq := by rw [e0]
  rw [hq] at f1
  have al1 : AlignedTiers h1 ts := by
    apply al.congr <;> rw [f1.frame, e0]
  have q1 : h1.tseq = h.tseq := by rw [f1.frame, e0]
  obtain ⟨h', e', r'⟩ := relateChain_ok delay ts h1 al1 (by
    intro t ht x hx
    rw [q1] at hx
    rw [f1.sup, if_pos]
    exact mem_entriesOf.mpr ⟨t, hmem t (List.mem_of_mem_tail ht), hx⟩)
  rw [chainPairs_congr (h := h) (by rw [f1.frame, e0]) (by rw [f1.frame, e0]) q1] at r'
  refine ⟨h1, h', ?_, f1, r'⟩
  unfold groupInit
  mstep M.get_apply h
  rw [ha]
  simp only []
  have es : (if b then setContainsGroup g ts else pure ()) h =
      .ok () (if b then contained h g ts else h) := by
    cases b
    · rfl
    · exact setContainsGroup_ok g ts h
  mstep es
  mstep (show M.modify (fun h => { h with gtiers := upd h.gtiers g ts }) (if b then contained h g ts else h) =
    .ok () (seated h g ts b) by cases b <;> rfl)
  mstep e1
  exact e'

theorem chain_lower_notTop {h : Heap} {ts : List TRef} (al : AlignedTiers h ts) (t0 : TRef)
    (h0 : ts[0]? = some t0) (x : Ref) (hx : x ∈ (h.tseq t0).vals) : ∀ p ∈ chainPairs h ts, x ∉ p.2 := by
  intro p hp hxp
  obtain ⟨i, t, t', g1, g2, g3, g4⟩ := mem_chainPairs hp
  rw [g4] at hxp
  have hx' := (List.mem_filter.mp hxp).1
  cases ts with
  | nil => simp at h0
  | cons a rest =>
    simp at h0; subst h0
    have := flatten_disjoint al.once
    exact this _ (List.mem_map.mpr ⟨t', List.mem_of_getElem? (i := i) (by simpa using g2), rfl⟩) x hx hx'

theorem relates_tidy {L : Ref → Prop} {h h0 h1 h' : Heap} {ts tiers : List TRef} (al : AlignedTiers h ts)
    (hmem : ∀ t ∈ ts, t ∈ tiers) (hsub : h0.subs = h.subs)
    (f : Frees h0 h1 (entriesOf h tiers)) (r : Relates h1 h' (chainPairs h ts))
    (e1 : h1.start = h.start) (e2 : h1.stop = h.stop) (e3 : h1.cls = h.cls) (e4 : h1.label = h.label)
    (td : TidyOn L h1)
    (hcl : ∀ p ∈ chainPairs h ts, ∀ x ∈ (h.subs p.1).vals, L x → x ∈ entriesOf h tiers) : TidyOn L h' := by
  have hstart : h'.start = h.start := by rw [r.frame]; exact e1
  have hstop : h'.stop = h.stop := by rw [r.frame]; exact e2
  have hcls : h'.cls = h.cls := by rw [r.frame]; exact e3
  have hlab : h'.label = h.label := by rw [r.frame]; exact e4
  have hP : ∀ p ∈ chainPairs h ts, ∀ x ∈ p.2, x ∈ entriesOf h tiers := by
    intro p hp x hx
    obtain ⟨i, t, t', g1, g2, g3, g4⟩ := mem_chainPairs hp
    rw [g4] at hx
    exact mem_entriesOf.mpr ⟨t', hmem t' (List.mem_of_getElem? g2), (List.mem_filter.mp hx).1⟩
  have hgood : ∀ v, GoodList h' (h'.subs v).vals := by
    intro v
    by_cases hv : ∃ p ∈ chainPairs h ts, p.1 = v
    · obtain ⟨p, hp, rfl⟩ := hv
      rw [r.subs p hp]
      obtain ⟨i, t, t', g1, g2, g3, g4⟩ := mem_chainPairs hp
      have ht' := List.mem_of_getElem? g2
      have hA := al.aligned i t t' g1 g2
      have hnd := al.nodup t' ht'
      rw [g4]
      refine ⟨hnd.sublist List.filter_sublist, ?_, ?_, ?_⟩
      · intro x hx y hy hxy
        have hx := (List.mem_filter.mp hx).1
        have hy := (List.mem_filter.mp hy).1
        apply Decidable.byContradiction
        intro hne
        have hd := hA.lowerDisjoint
        have h1 := hA.pos x hx
        have h2 := hA.pos y hy
        obtain ⟨-, s1, s2, -⟩ := hxy
        rw [hstart] at s1; rw [hstop] at s2
        have key : ∀ l : List Ref, l.Pairwise (fun a b => h.stop a ≤ h.start b) → x ∈ l → y ∈ l → False := by
          intro l
          induction l with
          | nil => intro _ hm; simp at hm
          | cons a l ih =>
            intro hpw m1 m2
            rw [List.pairwise_cons] at hpw
            rcases List.mem_cons.mp m1 with m3 | m3 <;> rcases List.mem_cons.mp m2 with m4 | m4
            · exact hne (m3.trans m4.symm)
            · rw [← m3] at hpw; have := hpw.1 y m4; grind
            · rw [← m4] at hpw; have := hpw.1 x m3; grind
            · exact ih hpw.2 m3 m4
        exact key _ hd hx hy
      · intro x hx y hy
        rw [hcls, al.cls t' ht' x (List.mem_filter.mp hx).1, al.cls t' ht' y (List.mem_filter.mp hy).1]
      · intro x hx
        rw [hlab]; exact al.label t' ht' x (List.mem_filter.mp hx).1
    · rw [(r.otherUpper v (fun p hp e => hv ⟨p, hp, e⟩)).1]
      exact (td.good v).congr (by rw [r.frame]) (by rw [r.frame]) (by rw [r.frame]) (by rw [r.frame])
        (by rw [r.frame])
  refine ⟨?_, ?_, fun v => (hgood v).nodup, fun v => (hgood v).distinct, fun v => (hgood v).cls,
    fun v => (hgood v).label⟩
  · intro v x hx
    by_cases hv : ∃ p ∈ chainPairs h ts, p.1 = v
    · obtain ⟨p, hp, rfl⟩ := hv
      rw [r.subs p hp] at hx
      exact (r.sup p hp x hx).1
    · rw [(r.otherUpper v (fun p hp e => hv ⟨p, hp, e⟩)).1] at hx
      have h1 := td.down v x hx
      have hxR : x ∉ entriesOf h tiers := by
        intro hh; rw [f.sup, if_pos hh] at h1; simp at h1
      rw [(r.otherLower x (fun p hp hh => hxR (hP p hp x hh))).1]; exact h1
  · intro v x hLx hx
    by_cases hl : ∃ p ∈ chainPairs h ts, x ∈ p.2
    · obtain ⟨p, hp, hxp⟩ := hl
      have := (r.sup p hp x hxp).1
      rw [this] at hx; cases hx
      rw [r.subs p hp]; exact hxp
    · rw [(r.otherLower x (fun p hp hh => hl ⟨p, hp, hh⟩)).1] at hx
      have h1 := td.up v x hLx hx
      by_cases hv : ∃ p ∈ chainPairs h ts, p.1 = v
      · exfalso
        obtain ⟨p, hp, rfl⟩ := hv
        rw [f.subs] at h1
        have h2 := List.mem_filter.mp h1
        rw [hsub] at h2
        have := hcl p hp x h2.1 hLx
        simp [this] at h2
      · rw [(r.otherUpper v (fun p hp e => hv ⟨p, hp, e⟩)).1]; exact h1

theorem groupInit_related (g : GRef) (tiers ts : List TRef) (delay b : Bool) (h : Heap)
    (ha : arrange h tiers = .ok (ts, b)) (hmem : ∀ t ∈ ts, t ∈ tiers) (al : AlignedTiers h ts)
    {L : Ref → Prop} (td : TidyOn L h) (hL : ∀ x ∈ entriesOf h tiers, L x) :
    ∃ h', groupInit g tiers delay h = .ok () h' ∧ h'.gtiers = upd h.gtiers g ts ∧ SameContents h h' ∧
      RelatedByContainment h' ts ∧
      (∀ t, ts[0]? = some t → ∀ x ∈ (h.tseq t).vals, h.sup x = none →
        h'.fol x = h.fol x ∧ h'.prev x = h.prev x) ∧
      ((∀ p ∈ chainPairs h ts, ∀ x ∈ (h.subs p.1).vals, L x → x ∈ entriesOf h tiers) → TidyOn L h') := by
  obtain ⟨h1, h', e, f, r⟩ := groupInit_run g tiers ts delay b h ha hmem al td hL
  have e0 := seated_frame h g ts b
  have hseq : h'.tseq = h.tseq := by rw [r.frame, f.frame, e0]
  have hin : ∀ u x, Inside h' u x ↔ Inside h u x := by
    intro u x; unfold Inside; rw [r.frame, f.frame, e0]
  have hfil : ∀ u (l : List Ref), l.filter (Inside h' u ·) = l.filter (Inside h u ·) := by
    intro u l
    apply List.filter_congr
    intro y _
    simp only [hin]
  have hsub : ∀ i t t', ts[i]? = some t → ts[i + 1]? = some t' → ∀ u ∈ (h.tseq t).vals,
      (h'.subs u).vals = (h.tseq t').vals.filter (Inside h u ·) := by
    intro i t t' g1 g2 u hu
    exact r.subs _ (chainPairs_mem g1 g2 hu)
  refine ⟨h', e, by rw [r.frame, f.frame, e0], ?_, ⟨?_, ?_, ?_, ?_, ?_, ?_⟩, ?_, ?_⟩
  · constructor <;> rw [r.frame, f.frame, e0]
  · intro i t t' g1 g2 u hu
    rw [hseq] at hu ⊢
    rw [hfil, hsub i t t' g1 g2 u hu]
    exact ⟨rfl, ((al.aligned i t t' g1 g2).tiled u hu).ne⟩
  · intro i t t' g1 g2 u hu
    rw [hseq] at hu
    rw [hsub i t t' g1 g2 u hu]
    exact r.linked _ (chainPairs_mem g1 g2 hu)
  · intro i t t' g1 g2 u hu x hx
    rw [hseq] at hu
    rw [hsub i t t' g1 g2 u hu] at hx
    exact r.sup _ (chainPairs_mem g1 g2 hu) x hx
  · intro i t t' g1 g2 x hx
    rw [hseq] at hx ⊢
    obtain ⟨u, hu, hi⟩ := (al.aligned i t t' g1 g2).covered x hx
    refine ⟨u, hu, ?_⟩
    rw [hsub i t t' g1 g2 u hu, List.mem_filter]
    exact ⟨hx, by simpa using hi⟩
  · intro t g1 x hx
    rw [hseq] at hx
    rw [(r.otherLower x (chain_lower_notTop al t g1 x hx)).1, f.sup, if_pos]
    exact mem_entriesOf.mpr ⟨t, hmem t (List.mem_of_getElem? g1), hx⟩
  · intro i t t' g1 g2 u hu
    rw [hseq] at hu
    exact r.contains _ (chainPairs_mem g1 g2 hu)
  · intro t g1 x hx hs
    have h1 := r.otherLower x (chain_lower_notTop al t g1 x hx)
    have h2 := f.links x (by rw [e0]; intro v hv; rw [show h.sup x = some v from hv] at hs; simp at hs)
    rw [h1.2.2.1, h1.2.2.2, h2.1, h2.2, e0]; exact ⟨rfl, rfl⟩
  · intro hcl
    exact relates_tidy al hmem (by rw [e0]) f r (by rw [f.frame, e0]) (by rw [f.frame, e0])
      (by rw [f.frame, e0]) (by rw [f.frame, e0])
      (f.tidy L hL (by rw [e0]; exact ⟨td.down, td.up, td.nodup, td.distinct, td.cls, td.label⟩)) hcl

theorem Tidy.congr {h h' : Heap} (t : Tidy h) (e1 : h'.subs = h.subs) (e2 : h'.sup = h.sup)
    (e3 : h'.start = h.start) (e4 : h'.stop = h.stop) (e5 : h'.cls = h.cls) (e6 : h'.label = h.label)
    (e7 : h'.ct = h.ct) : Tidy h' := by
  have g : ∀ v, GoodList h' (h'.subs v).vals := fun v => by
    rw [e1]; exact (t.good v).congr e5 e6 e3 e4 e7
  exact ⟨by rw [e1, e2]; exact t.agree, fun v => (g v).nodup, fun v => (g v).distinct, fun v => (g v).cls,
    fun v => (g v).label⟩

theorem TidyOn.congr {L : Ref → Prop} {h h' : Heap} (t : TidyOn L h) (e1 : h'.subs = h.subs) (e2 : h'.sup = h.sup)
    (e3 : h'.start = h.start) (e4 : h'.stop = h.stop) (e5 : h'.cls = h.cls) (e6 : h'.label = h.label)
    (e7 : h'.ct = h.ct) : TidyOn L h' := by
  have g : ∀ v, GoodList h' (h'.subs v).vals := fun v => by
    rw [e1]; exact (t.good v).congr e5 e6 e3 e4 e7
  exact ⟨by rw [e1, e2]; exact t.down, by rw [e1, e2]; exact t.up, fun v => (g v).nodup, fun v => (g v).distinct,
    fun v => (g v).cls, fun v => (g v).label⟩

theorem ClassChain.congr {h h' : Heap} {ts : List TRef} (c : ClassChain h ts) (e1 : h'.tcls = h.tcls)
    (e2 : h'.tsub = h.tsub) (e3 : h'.tsup = h.tsup) (e4 : h'.ct = h.ct) : ClassChain h' ts := by
  constructor
  · rw [e1]; exact c.distinct
  · rw [e1, e2, e3]; exact c.down
  · rw [e1, e4]; exact c.inner
  · rw [e1, e3, e4]; exact c.top
  · rw [e1, e2, e4]; exact c.bottom

end ATG
