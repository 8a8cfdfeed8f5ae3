import Verif.Lemmas.SnapPair
import Verif.Props.Group
import Verif.Model.Textgrid
/-!
# C60: relating two tiers whose boundaries do not match (`sequences/tiers.py:393-505`)
-/
namespace ATG

/-- `upper` and `lower` are tiers of two adjacent classes, with entries of their own class, all different, and
    ordinary labels below -/
structure TwoTiers (h : Heap) (upper lower : TRef) : Prop where
  chain : ClassChain h [upper, lower]
  sub : h.ct.sub (h.tcls upper) = some (h.tcls lower)
  once : ((h.tseq upper).vals ++ (h.tseq lower).vals).Nodup
  ucls : ∀ u ∈ (h.tseq upper).vals, h.cls u = h.tcls upper
  lcls : ∀ x ∈ (h.tseq lower).vals, h.cls x = h.tcls lower
  label : ∀ x ∈ (h.tseq lower).vals, h.label x ≠ "#"
  nonempty : (h.tseq upper).vals ≠ []

theorem groupInit_snap (g : GRef) (tiers : List TRef) (upper lower : TRef) (h : Heap)
    (tt : TwoTiers h upper lower) (td : Tidy h) (hp : tiers.Perm [upper, lower])
    (mm : Mismatched h (h.tseq upper).vals (h.tseq lower).vals) :
    ∃ h1 h' b L, groupInit g tiers false h = .ok () h' ∧
      Frees (seated h g [upper, lower] b) h1 (entriesOf h tiers) ∧
      Snaps h1 h' ((h.tseq upper).vals.zip L) ∧
      L.flatten = (h.tseq lower).vals ∧ L.length = (h.tseq upper).vals.length ∧ (∀ l ∈ L, l ≠ []) ∧
      ∀ (k : Nat) u l, (h.tseq upper).vals[k]? = some u → L[k]? = some l → ∀ x ∈ l,
        ∀ v ∈ (h.tseq upper).vals,
        shared (h.start x, h.stop x) (h.start v, h.stop v) ≤ shared (h.start x, h.stop x) (h.start u, h.stop u) := by
  obtain ⟨b, ha⟩ := tt.chain.arrange hp (by simp)
  have e0 := seated_frame h g [upper, lower] b
  have td0 : Tidy (seated h g [upper, lower] b) := by
    rw [e0]
    exact ⟨td.agree, td.nodup, td.distinct, td.cls, td.label⟩
  obtain ⟨h1, e1, f1⟩ := forL_tiers_frees tiers (seated h g [upper, lower] b)
    (td0.on fun _ => True) (fun _ _ _ _ => trivial)
  have hq : (seated h g [upper, lower] b).tseq = h.tseq := by rw [e0]
  rw [hq] at f1
  have q1 : h1.tseq = h.tseq := by rw [f1.frame, e0]
  have qs : h1.start = h.start := by rw [f1.frame, e0]
  have qe : h1.stop = h.stop := by rw [f1.frame, e0]
  have qc : h1.cls = h.cls := by rw [f1.frame, e0]
  have ql : h1.label = h.label := by rw [f1.frame, e0]
  have qt : h1.ct = h.ct := by rw [f1.frame, e0]
  have hT : ∀ (l : List Ref) a b, Tiles h l a b → Tiles h1 l a b := by
    intro l
    induction l with
    | nil => intro a b t; exact t
    | cons x r ih =>
      intro a b t
      cases r with
      | nil => unfold Tiles at t ⊢; rw [qs, qe]; exact t
      | cons y r => unfold Tiles at t ⊢; rw [qs, qe]; exact ⟨t.1, t.2.1, ih _ _ t.2.2⟩
  have mm1 : Mismatched h1 (h1.tseq upper).vals (h1.tseq lower).vals := by
    obtain ⟨m1, ⟨a, b, m2⟩, m3, m4⟩ := mm
    refine ⟨?_, ⟨a, b, ?_⟩, ?_, ?_⟩
    · rw [q1, qs, qe]; exact m1
    · rw [q1]; exact hT _ _ _ m2
    · rw [q1, qs, qe]; exact m3
    · unfold Inside; rw [q1, qs, qe]; exact m4
  obtain ⟨h', L, e', sn, g1, g2, g3, g4⟩ := relatePair_snap upper lower h1 (h.tcls lower) mm1
    (by rw [q1]; exact (List.nodup_append.mp tt.once).1)
    (by rw [q1]; exact (List.nodup_append.mp tt.once).2.1)
    (by
      rw [q1]
      intro u hu hl
      exact (List.nodup_append.mp tt.once).2.2 u hu u hl rfl)
    (by
      rw [q1]
      intro x hx
      rw [f1.sup, if_pos]
      exact mem_entriesOf.mpr ⟨lower, hp.mem_iff.mpr (by simp), hx⟩)
    (by rw [q1, ql]; exact tt.label)
    (by rw [q1, qc]; exact tt.lcls)
    (by
      rw [q1, qc, qt]
      intro u hu
      rw [tt.ucls u hu]; exact tt.sub)
    (by rw [q1]; exact tt.nonempty)
  rw [q1] at sn g1 g2 g4
  rw [qs, qe] at g4
  refine ⟨h1, h', b, L, ?_, f1, sn, g1, g2, g3, g4⟩
  unfold groupInit
  mstep M.get_apply h
  rw [ha]
  simp only []
  have es : (if b then setContainsGroup g [upper, lower] else pure ()) h =
      .ok () (if b then contained h g [upper, lower] else h) := by
    cases b
    · rfl
    · exact setContainsGroup_ok g [upper, lower] h
  mstep es
  mstep (show M.modify (fun h => { h with gtiers := upd h.gtiers g [upper, lower] })
    (if b then contained h g [upper, lower] else h) =
    .ok () (seated h g [upper, lower] b) by cases b <;> rfl)
  mstep e1
  unfold relateChain
  mstep e'
  rfl

/-- C60: relating two tiers whose boundaries do not match. The subset lists, joined, are the lower tier; none
    is empty; each lower interval goes to an upper one it shares most with; the lists are linked and owned.
    Each upper interval then starts where its first lower interval starts, at the later of the two former
    starts, and ends where its last one ends, at the earlier of the two former ends. No other time changes,
    and no label, class or tier content. -/
theorem C60_snap (g : GRef) (tiers : List TRef) (upper lower : TRef) (h : Heap)
    (tt : TwoTiers h upper lower) (td : Tidy h) (hp : tiers.Perm [upper, lower])
    (mm : Mismatched h (h.tseq upper).vals (h.tseq lower).vals) :
    ∃ h', groupInit g tiers false h = .ok () h' ∧
      h'.tseq = h.tseq ∧ h'.label = h.label ∧ h'.cls = h.cls ∧ h'.nE = h.nE ∧
      ((h.tseq upper).vals.map fun u => (h'.subs u).vals).flatten = (h.tseq lower).vals ∧
      (∀ u ∈ (h.tseq upper).vals, (h'.subs u).vals ≠ [] ∧ DoublyLinked h' (h'.subs u).vals ∧
        (∀ x ∈ (h'.subs u).vals, h'.sup x = some u ∧ h'.within x = some (.ival u) ∧
          ∀ v ∈ (h.tseq upper).vals, shared (h.start x, h.stop x) (h.start v, h.stop v) ≤
            shared (h.start x, h.stop x) (h.start u, h.stop u)) ∧
        (∀ x, (h'.subs u).vals.head? = some x →
          h'.start u = max (h.start u) (h.start x) ∧ h'.start x = max (h.start u) (h.start x)) ∧
        ∀ x, (h'.subs u).vals.getLast? = some x →
          h'.stop u = min (h.stop u) (h.stop x) ∧ h'.stop x = min (h.stop u) (h.stop x)) ∧
      (∀ x, x ∉ (h.tseq upper).vals → (∀ u ∈ (h.tseq upper).vals, (h'.subs u).vals.head? ≠ some x) →
        h'.start x = h.start x) ∧
      ∀ x, x ∉ (h.tseq upper).vals → (∀ u ∈ (h.tseq upper).vals, (h'.subs u).vals.getLast? ≠ some x) →
        h'.stop x = h.stop x := by
  obtain ⟨h1, h', b, L, e, f1, sn, g1, g2, g3, g4⟩ := groupInit_snap g tiers upper lower h tt td hp mm
  have e0 := seated_frame h g [upper, lower] b
  have q1 : h1.tseq = h.tseq := by rw [f1.frame, e0]
  have qs : h1.start = h.start := by rw [f1.frame, e0]
  have qe : h1.stop = h.stop := by rw [f1.frame, e0]
  have m1 : ((h.tseq upper).vals.zip L).map (·.1) = (h.tseq upper).vals := List.map_fst_zip (by omega)
  have hpair : ∀ u ∈ (h.tseq upper).vals, ∃ k : Nat, (h.tseq upper).vals[k]? = some u ∧
      L[k]? = some (h'.subs u).vals ∧ (u, (h'.subs u).vals) ∈ (h.tseq upper).vals.zip L := by
    intro u hu
    obtain ⟨k, hk, rfl⟩ := List.mem_iff_getElem.mp hu
    have hkL : k < L.length := by omega
    have hm : ((h.tseq upper).vals[k], L[k]) ∈ (h.tseq upper).vals.zip L := by
      have : ((h.tseq upper).vals.zip L)[k]'(by simp; omega) = ((h.tseq upper).vals[k], L[k]) := List.getElem_zip ..
      rw [← this]; exact List.getElem_mem _
    have := sn.rel.subs _ hm
    simp only [] at this
    refine ⟨k, List.getElem?_eq_getElem hk, ?_, ?_⟩
    · rw [this]; exact List.getElem?_eq_getElem hkL
    · rw [this]; exact hm
  have hback : ∀ p ∈ (h.tseq upper).vals.zip L, p.1 ∈ (h.tseq upper).vals ∧ p.2 = (h'.subs p.1).vals :=
    fun p hp => ⟨(List.of_mem_zip hp).1, (sn.rel.subs p hp).symm⟩
  refine ⟨h', e, ?_, ?_, ?_, ?_, ?_, ?_, ?_, ?_⟩
  · rw [sn.rel.frame]; exact q1
  · rw [sn.rel.frame]; show h1.label = _; rw [f1.frame, e0]
  · rw [sn.rel.frame]; show h1.cls = _; rw [f1.frame, e0]
  · rw [sn.rel.frame]; show h1.nE = _; rw [f1.frame, e0]
  · rw [← g1]
    congr 1
    apply List.ext_getElem
    · simp [g2]
    · intro k hk1 hk2
      rw [List.getElem_map]
      have hk : k < (h.tseq upper).vals.length := by omega
      obtain ⟨j, hj, hL, _⟩ := hpair (h.tseq upper).vals[k] (List.getElem_mem hk)
      have hj' : j < (h.tseq upper).vals.length := (List.getElem?_eq_some_iff.mp hj).1
      have : j = k := (List.getElem_inj (List.nodup_append.mp tt.once).1).mp (List.getElem?_eq_some_iff.mp hj).2
      subst this
      exact ((List.getElem?_eq_some_iff.mp hL).2).symm
  · intro u hu
    obtain ⟨k, hk, hL, hm⟩ := hpair u hu
    refine ⟨g3 _ (List.mem_of_getElem? hL), sn.rel.linked _ hm, ?_, ?_, ?_⟩
    · intro x hx
      obtain ⟨s1, s2⟩ := sn.rel.sup _ hm x hx
      exact ⟨s1, s2, g4 k u _ hk hL x hx⟩
    · intro x hx
      have := sn.start _ hm x hx
      rw [qs] at this; exact this
    · intro x hx
      have := sn.stop _ hm x hx
      rw [qe] at this; exact this
  · intro x hx hn
    rw [sn.otherStart x, qs]
    intro p hp
    obtain ⟨b1, b2⟩ := hback p hp
    exact ⟨fun e => hx (e ▸ b1), by rw [b2]; exact hn p.1 b1⟩
  · intro x hx hn
    rw [sn.otherStop x, qe]
    intro p hp
    obtain ⟨b1, b2⟩ := hback p hp
    exact ⟨fun e => hx (e ▸ b1), by rw [b2]; exact hn p.1 b1⟩

theorem tiles_of (h : Heap) : ∀ (l : List Ref) (hne : l ≠ []),
    (∀ (i : Nat) x y, l[i]? = some x → l[i + 1]? = some y → h.stop x = h.start y) →
    (∀ x ∈ l, h.start x < h.stop x) → Tiles h l (h.start (l.head hne)) (h.stop (l.getLast hne))
  | [x], _, _, hp => ⟨rfl, rfl, hp x (by simp)⟩
  | x :: y :: r, _, hn, hp => by
    refine ⟨rfl, hp x (by simp), ?_⟩
    rw [hn 0 x y (by simp) (by simp), List.getLast_cons (by simp)]
    exact tiles_of h (y :: r) (by simp) (fun i a b h1 h2 => hn (i + 1) a b (by simpa using h1) (by simpa using h2))
      (fun z hz => hp z (by simp only [List.mem_cons] at hz ⊢; exact Or.inr hz))

theorem Tiles.meet {h : Heap} {l1 l2 : List Ref} {a b : Time} (t : Tiles h (l1 ++ l2) a b) (x y : Ref)
    (hx : l1.getLast? = some x) (hy : l2.head? = some y) : h.stop x = h.start y := by
  have h1 : l1 ≠ [] := by rintro rfl; simp at hx
  have hl : 0 < l1.length := List.length_pos_iff.mpr h1
  refine t.next (l1.length - 1) x y ?_ ?_
  · rw [List.getElem?_append_left (by omega), ← List.getLast?_eq_getElem?]; exact hx
  · rw [List.getElem?_append_right (by omega), ← hy, List.head?_eq_getElem?]
    congr 1; omega

/-- C60: if the upper intervals follow each other without gaps too, then afterwards there is a gap at every
    boundary that did not match, in both tiers, as wide as the mismatch; matching boundaries stay closed. -/
theorem C60_gap (g : GRef) (tiers : List TRef) (upper lower : TRef) (h : Heap)
    (tt : TwoTiers h upper lower) (td : Tidy h) (hp : tiers.Perm [upper, lower])
    (mm : Mismatched h (h.tseq upper).vals (h.tseq lower).vals)
    (hu : ∃ a b, Tiles h (h.tseq upper).vals a b) :
    ∃ h', groupInit g tiers false h = .ok () h' ∧
      ∀ (k : Nat) u v x y, (h.tseq upper).vals[k]? = some u → (h.tseq upper).vals[k + 1]? = some v →
        (h'.subs u).vals.getLast? = some x → (h'.subs v).vals.head? = some y →
        h.stop u = h.start v ∧ h.stop x = h.start y ∧
        h'.start v - h'.stop u = max (h.stop u) (h.stop x) - min (h.stop u) (h.stop x) ∧
        h'.start y - h'.stop x = max (h.stop u) (h.stop x) - min (h.stop u) (h.stop x) := by
  obtain ⟨h', e, _, _, _, _, hfl, hup, _, _⟩ := C60_snap g tiers upper lower h tt td hp mm
  refine ⟨h', e, ?_⟩
  intro k u v x y hku hkv hx hy
  obtain ⟨a, b, tu⟩ := hu
  obtain ⟨c, d, tl⟩ := mm.tiled
  have e1 : h.stop u = h.start v := tu.next k u v hku hkv
  have e2 : h.stop x = h.start y := by
    have hk : k + 1 < (h.tseq upper).vals.length := (List.getElem?_eq_some_iff.mp hkv).1
    have hk0 : k < (h.tseq upper).vals.length := by omega
    have hsp : (h.tseq upper).vals = (h.tseq upper).vals.take k ++ u :: v :: (h.tseq upper).vals.drop (k + 2) := by
      conv => lhs; rw [← List.take_append_drop k (h.tseq upper).vals]
      rw [List.drop_eq_getElem_cons hk0, List.drop_eq_getElem_cons hk, (List.getElem?_eq_some_iff.mp hku).2,
        (List.getElem?_eq_some_iff.mp hkv).2]
    rw [← hfl, hsp, List.map_append, List.flatten_append] at tl
    simp only [List.map_cons, List.flatten_cons] at tl
    have hne : (h'.subs u).vals ≠ [] := by intro q; rw [q] at hx; simp at hx
    obtain ⟨c', t2⟩ := tl.split.1 (by simp [hne])
    refine t2.meet x y hx ?_
    rw [List.head?_append, hy]; rfl
  obtain ⟨_, _, _, s1, s2⟩ := hup u (List.mem_of_getElem? hku)
  obtain ⟨_, _, _, s3, _⟩ := hup v (List.mem_of_getElem? hkv)
  obtain ⟨p1, p2⟩ := s2 x hx
  obtain ⟨p3, p4⟩ := s3 y hy
  refine ⟨e1, e2, ?_, ?_⟩
  · rw [p3, p1]; grind
  · rw [p4, p2]; grind

/-- C60: if moreover no lower interval lies outside all upper ones, then each upper interval ends up exactly
    tiled by its subset list, all durations positive. -/
theorem C60_tiles (g : GRef) (tiers : List TRef) (upper lower : TRef) (h : Heap)
    (tt : TwoTiers h upper lower) (td : Tidy h) (hp : tiers.Perm [upper, lower])
    (mm : Mismatched h (h.tseq upper).vals (h.tseq lower).vals)
    (hov : ∀ x ∈ (h.tseq lower).vals, ∃ u ∈ (h.tseq upper).vals,
      Overlap (h.start x, h.stop x) (h.start u, h.stop u)) (hup : ∀ u ∈ (h.tseq upper).vals, h.start u < h.stop u) :
    ∃ h', groupInit g tiers false h = .ok () h' ∧
      ∀ u ∈ (h.tseq upper).vals, Tiles h' (h'.subs u).vals (h'.start u) (h'.stop u) := by
  obtain ⟨h', e, _, _, _, _, hfl, hu', o1, o2⟩ := C60_snap g tiers upper lower h tt td hp mm
  refine ⟨h', e, ?_⟩
  intro u hu
  obtain ⟨hne, _, hin, hs, he⟩ := hu' u hu
  obtain ⟨a, b, tl⟩ := mm.tiled
  have hlow : ∀ x ∈ (h'.subs u).vals, x ∈ (h.tseq lower).vals := by
    intro x hx
    rw [← hfl]; exact List.mem_flatten.mpr ⟨_, List.mem_map.mpr ⟨u, hu, rfl⟩, hx⟩
  have hnup : ∀ x ∈ (h'.subs u).vals, x ∉ (h.tseq upper).vals := fun x hx hxu =>
    (List.nodup_append.mp tt.once).2.2 x hxu x (hlow x hx) rfl
  have hnd : (h'.subs u).vals.Nodup := by
    have : ((h.tseq upper).vals.map fun u => (h'.subs u).vals).flatten.Nodup := by
      rw [hfl]; exact (List.nodup_append.mp tt.once).2.1
    rw [List.nodup_iff_pairwise_ne, List.pairwise_flatten] at this
    exact List.nodup_iff_pairwise_ne.mpr (this.1 _ (List.mem_map.mpr ⟨u, hu, rfl⟩))
  have hown : ∀ x ∈ (h'.subs u).vals, ∀ v ∈ (h.tseq upper).vals, x ∈ (h'.subs v).vals → v = u := by
    intro x hx v hv hxv
    have h1 := (hin x hx).1
    have h2 := ((hu' v hv).2.2.1 x hxv).1
    rw [h1] at h2
    exact (Option.some.inj h2).symm
  obtain ⟨c, d, tu⟩ : ∃ c d, Tiles h (h'.subs u).vals c d := by
    rw [← hfl] at tl
    exact tl.part _ (List.mem_map.mpr ⟨u, hu, rfl⟩) hne
  have hstart : ∀ x ∈ (h'.subs u).vals, (h'.subs u).vals.head? ≠ some x → h'.start x = h.start x := by
    intro x hx hn
    apply o1 x (hnup x hx)
    intro v hv hh
    have := hown x hx v hv (List.mem_of_head? hh)
    subst this
    exact hn hh
  have hstop : ∀ x ∈ (h'.subs u).vals, (h'.subs u).vals.getLast? ≠ some x → h'.stop x = h.stop x := by
    intro x hx hn
    apply o2 x (hnup x hx)
    intro v hv hh
    have := hown x hx v hv (List.mem_of_getLast? hh)
    subst this
    exact hn hh
  have hpos : ∀ x ∈ (h'.subs u).vals,
      max (h.start u) (h.start x) < min (h.stop u) (h.stop x) := by
    intro x hx
    obtain ⟨v, hv, ho⟩ := hov x (hlow x hx)
    have h1 := (hin x hx).2.2 v hv
    have h2 := hup v hv
    have h3 := (tu.mem x hx).2.1
    unfold Overlap at ho
    unfold shared at h1
    simp only at ho h1
    grind
  have t := tiles_of h' (h'.subs u).vals hne ?_ ?_
  · rw [(hs _ (List.head?_eq_some_head hne)).1, (he _ (List.getLast?_eq_some_getLast hne)).1,
      ← (hs _ (List.head?_eq_some_head hne)).2, ← (he _ (List.getLast?_eq_some_getLast hne)).2]
    exact t
  · intro i x y hx hy
    have hi1 : i + 1 < (h'.subs u).vals.length := (List.getElem?_eq_some_iff.mp hy).1
    rw [hstop x (List.mem_of_getElem? hx), hstart y (List.mem_of_getElem? hy)]
    · exact tu.next i x y hx hy
    · intro q
      rw [List.head?_eq_getElem?] at q
      have q1 := (List.getElem?_eq_some_iff.mp q).2
      have q2 := (List.getElem?_eq_some_iff.mp hy).2
      have := (List.getElem_inj hnd).mp (q1.trans q2.symm)
      omega
    · intro q
      rw [List.getLast?_eq_getElem?] at q
      have q1 := (List.getElem?_eq_some_iff.mp q).2
      have q2 := (List.getElem?_eq_some_iff.mp hx).2
      have := (List.getElem_inj hnd).mp (q1.trans q2.symm)
      omega
  · intro x hx
    have hpx := hpos x hx
    have h3 := (tu.mem x hx).2.1
    have hs' : h'.start x = h.start x ∨ h'.start x = max (h.start u) (h.start x) := by
      by_cases q : (h'.subs u).vals.head? = some x
      · exact Or.inr (hs x q).2
      · exact Or.inl (hstart x hx q)
    have he' : h'.stop x = h.stop x ∨ h'.stop x = min (h.stop u) (h.stop x) := by
      by_cases q : (h'.subs u).vals.getLast? = some x
      · exact Or.inr (he x q).2
      · exact Or.inl (hstop x hx q)
    rcases hs' with hs' | hs' <;> rcases he' with he' | he' <;> rw [hs', he'] <;> grind

/-! ## A case meeting the hypotheses -/

/-- words `0-2`, `2-3` and phones `0-1`, `1-9/4`, `9/4-3`: the second phone crosses the word boundary -/
def exMismatch : Heap :=
  { exAligned with
    start := fun r => [0, 2, 0, 1, 9/4].getD r 0
    stop := fun r => [2, 3, 1, 9/4, 3].getD r 0 }

theorem exMismatch_two : TwoTiers exMismatch 0 1 where
  chain := ⟨exAligned_chain.distinct, exAligned_chain.down, exAligned_chain.inner, exAligned_chain.top,
    exAligned_chain.bottom⟩
  sub := by decide +kernel
  once := by decide
  ucls := by decide
  lcls := by decide
  label := by decide
  nonempty := by decide

theorem exMismatch_tidy : Tidy exMismatch where
  agree := by intro v x; simp [exMismatch, exAligned, heap0, SL.empty]
  nodup := by intro v; simp [exMismatch, exAligned, heap0, SL.empty]
  distinct := by intro v; simp [exMismatch, exAligned, heap0, SL.empty]
  cls := by intro v; simp [exMismatch, exAligned, heap0, SL.empty]
  label := by intro v; simp [exMismatch, exAligned, heap0, SL.empty]

theorem exMismatch_mis : Mismatched exMismatch (exMismatch.tseq 0).vals (exMismatch.tseq 1).vals where
  order := by unfold SortedSpans; decide +kernel
  tiled := ⟨0, 3, by
    show Tiles exMismatch [2, 3, 4] 0 3
    unfold Tiles Tiles Tiles
    decide +kernel⟩
  owns := by
    intro u hu
    change u ∈ [0, 1] at hu
    rcases List.mem_cons.mp hu with rfl | hu
    · exact ⟨2, by decide +kernel, by unfold shared; decide +kernel⟩
    · rcases List.mem_cons.mp hu with rfl | hu
      · exact ⟨4, by decide +kernel, by unfold shared; decide +kernel⟩
      · cases hu
  crosses := ⟨3, by decide +kernel, by unfold Inside; decide +kernel⟩

-- the crossing phone goes to the first word; the gap at the boundary is 2 to 9/4 in both tiers
example : ∃ h', groupInit 0 [1, 0] false exMismatch = .ok () h' ∧
    ∀ u ∈ [0, 1], Tiles h' (h'.subs u).vals (h'.start u) (h'.stop u) := by
  refine C60_tiles 0 [1, 0] 0 1 exMismatch exMismatch_two exMismatch_tidy (by decide) exMismatch_mis ?_ ?_
  · unfold Overlap; decide +kernel
  · decide +kernel

example : let h' := (groupInit 0 [1, 0] false exMismatch).heap
    ([0, 1, 2, 3, 4].map fun x => (h'.start x, h'.stop x)) = [(0, 2), (9/4, 3), (0, 1), (1, 2), (9/4, 3)] ∧
    (h'.subs 0).vals = [2, 3] ∧ (h'.subs 1).vals = [4] := by decide +kernel

/-! ## What goes wrong -/

/-- words `0-1`, `1-2` and phones `0-1`, ..., `3-4`: the phones go on after the last word -/
def exPastEnd : Heap := run0 (do
  let _ ← newTierFrom [(0, 1, "a"), (1, 2, "b")] cWord "Word"
  let _ ← newTierFrom [(0, 1, "p"), (1, 2, "q"), (2, 3, "r"), (3, 4, "s")] cPhone "Phone"
  newGroup [0, 1])

/-- C60 without the last hypothesis of `C60_tiles`: the phones after the last word are given to it, and the
    last phone then ends (at 2) before it starts (at 3). -/
theorem C60_negative_violated : (exPastEnd.subs 1).vals = [3, 4, 5] ∧ exPastEnd.start 5 = 3 ∧
    exPastEnd.stop 5 = 2 ∧ exPastEnd.stop 1 = 2 := by decide +kernel

/-- three levels with different boundaries -/
def exThreeLevels : Heap := run0 (do
  let cs ← liftC fun ct => customClasses ct ["A", "B", "C"] []
  let _ ← newTierFrom [(0, 4, "a"), (4, 8, "b")] (cs.getD 0 0) "A"
  let _ ← newTierFrom [(0, 5, "c"), (5, 8, "d")] (cs.getD 1 0) "B"
  let _ ← newTierFrom [(0, 3, "e"), (3, 8, "f")] (cs.getD 2 0) "C"
  newGroup [0, 1, 2])

/-- C60 fails with a third level: relating the second and third levels moves the end of `c` to 3, after `a`
    has been adjusted to end with it at 4. -/
theorem C60_levels_violated : (exThreeLevels.subs 0).vals = [2] ∧ exThreeLevels.stop 0 = 4 ∧
    exThreeLevels.stop 2 = 3 ∧ (exThreeLevels.subs 2).vals = [4] ∧ exThreeLevels.stop 4 = 3 := by decide +kernel

end ATG
