import Verif.Lemmas.BuildPoints
import Verif.Spec.ImportPoints
/-!
# Groups of intervals and groups of points of an imported textgrid
-/
namespace ATG

/-- the tiers of a points group point back to it and their points are linked -/
def PointsIn (h : Heap) (g : GRef) : Prop :=
  ∀ t ∈ h.gtiers g, h.ct.isSub (h.tcls t) cPoint = true ∧ h.twithin t = some g ∧ DoublyLinked h (h.tseq t).vals ∧
    ∀ x ∈ (h.tseq t).vals, h.cls x = h.tcls t ∧ h.intier x = some t

theorem Room.settled {h : Heap} {gs : List GRef} (rm : Room h gs) {g : GRef} (hg : g ∈ gs) : Settled h g :=
  ⟨rm.groups g hg, fun t ht => ⟨rm.tiers g hg t ht, ((rm.grid.groups g hg).tiers t ht).old⟩⟩

theorem Stays.refl {h : Heap} {g : GRef} (s : Settled h g) : Stays h h g :=
  ⟨rfl, rfl, Unmoved.refl h _, fun _ _ => rfl, s, fun _ _ _ _ => rfl⟩

theorem Stays.trans {h h1 h2 : Heap} {g : GRef} (a : Stays h h1 g) (b : Stays h1 h2 g) : Stays h h2 g := by
  have u := b.unmoved
  rw [a.gtiers] at u
  refine ⟨b.gtiers.trans a.gtiers, b.gpoint.trans a.gpoint, a.unmoved.trans u, ?_, b.settled, ?_⟩
  · intro t ht
    rw [b.twithin t (by rw [a.gtiers]; exact ht), a.twithin t ht]
  · intro t ht x hx
    rw [b.intier t (by rw [a.gtiers]; exact ht) x (by rw [a.unmoved.tseq t ht]; exact hx), a.intier t ht x hx]

theorem Stays.tiers {h h' : Heap} {g : GRef} (a : Stays h h' g) :
    (h'.gtiers g).map h'.ptier = (h.gtiers g).map h.ptier ∧ (h'.gtiers g).map h'.tcls = (h.gtiers g).map h.tcls := by
  rw [a.gtiers]
  exact ⟨List.map_congr_left fun t ht => a.unmoved.ptier ht, List.map_congr_left fun t ht => a.unmoved.tcls t ht⟩

theorem Stays.pointsIn {h h' : Heap} {g : GRef} (a : Stays h h' g) (hct : h'.ct = h.ct) (p : PointsIn h g) :
    PointsIn h' g := by
  intro t ht
  rw [a.gtiers] at ht
  obtain ⟨p1, p2, p3, p4⟩ := p t ht
  refine ⟨by rw [hct, a.unmoved.tcls t ht]; exact p1, (a.twithin t ht).trans p2, a.unmoved.linked ht p3, ?_⟩
  intro x hx
  rw [a.unmoved.tseq t ht] at hx
  rw [a.unmoved.tcls t ht, (a.unmoved.value t ht x hx).2.2.2, a.intier t ht x hx]
  exact p4 x hx

theorem Expanded.stays {h h' : Heap} (b : Expanded h h') {g : GRef} (s : Settled h g) : Stays h h' g := by
  obtain ⟨g1, g2, g3⟩ := b.group g s.1
  have u : Unmoved h h' (h.gtiers g) := b.unmoved (fun t ht => (s.2 t ht).1) fun t ht => (s.2 t ht).2
  refine ⟨g1, g3, u, fun t ht => (b.other t (s.2 t ht).1).2.2.2.2.2, ⟨Nat.lt_of_lt_of_le s.1 b.nG, ?_⟩,
    fun t ht x hx => b.intier x ((s.2 t ht).2 x hx)⟩
  rw [g1]
  intro t ht
  rw [u.tseq t ht]
  exact ⟨Nat.lt_of_lt_of_le (s.2 t ht).1 b.nT, fun x hx => Nat.lt_of_lt_of_le ((s.2 t ht).2 x hx) b.nE⟩

/-- one group of either kind -/
theorem buildEither_run {h : Heap} {gs : List GRef} (rm : Room h gs) (w : WFC h.ct) {ts : List PTier} {cs : List CRef}
    (hlen : ts.length = cs.length)
    (good : (GoodTiers ts ∧ TopPart h.ct cs) ∨ (GoodPoints ts ∧ PointClasses h.ct cs)) :
    ∃ h', buildGroup ts cs h = .ok [h.nG] h' ∧ Room h' (gs ++ [h.nG].filter fun g => !h'.gpoint g) ∧ h'.ct = h.ct ∧
      h'.nG = h.nG + 1 ∧ h'.nA = h.nA ∧ h'.agroups = h.agroups ∧ h'.acont = h.acont ∧ h'.acloned = h.acloned ∧
      (h'.gtiers h.nG).map h'.ptier = ts ∧ (h'.gtiers h.nG).map h'.tcls = cs ∧ Settled h' h.nG ∧
      (h'.gpoint h.nG = true ↔ PointClasses h.ct cs) ∧ (h'.gpoint h.nG = true → PointsIn h' h.nG) ∧
      ∀ g, Settled h g → Stays h h' g := by
  rcases good with ⟨gt, hi⟩ | ⟨gp, hp⟩
  · obtain ⟨h', e, rm', hct, hn, a1, a2, a3, a4, v1, v2, -, st⟩ := buildGroup_run rm w hlen gt hi
    have hg : h'.gpoint h.nG = false := (rm'.grid.groups h.nG (by simp)).gpoint
    have hno : ¬ PointClasses h.ct cs := by
      rintro ⟨q1, q2⟩
      obtain ⟨c, hc⟩ := List.exists_mem_of_ne_nil _ q1
      have := (q2 c hc).2
      rw [hi.not_point w hc] at this
      cases this
    refine ⟨h', e, ?_, hct, hn, a1, a2, a3, a4, v1, v2, rm'.settled (by simp), ?_, ?_, st⟩
    · simpa [hg] using rm'
    · rw [hg]
      exact ⟨fun q => (by cases q), fun q => absurd q hno⟩
    · rw [hg]
      intro q
      cases q
  · obtain ⟨h', e, ex, hn, pm⟩ := buildPointsGroup_run (h := h) hlen (by
      intro q
      rw [q] at hlen
      exact hp.1 (List.length_eq_zero_iff.mp hlen.symm)) (fun c hc => (hp.2 c hc).2) gp
    obtain ⟨a1, a2, a3, a4⟩ := ex.atg
    refine ⟨h', e, ?_, ex.ct, hn, a1, a2, a3, a4, pm.tiers, pm.classes, pm.settled, ⟨fun _ => hp, fun _ => pm.point⟩, ?_,
      fun g s => ex.stays s⟩
    · simpa [pm.point] using ex.room rm
    · intro _ t ht
      obtain ⟨q1, q2, q3⟩ := pm.linked t ht
      refine ⟨?_, q1, q2, q3⟩
      rw [ex.ct]
      have := List.mem_map_of_mem (f := h'.tcls) ht
      rw [pm.classes] at this
      exact (hp.2 _ this).2

theorem buildMixed_run : ∀ (l : List (List PTier × List CRef)) {h : Heap} {gs : List GRef}, Room h gs → WFC h.ct →
    (∀ q ∈ l, q.1.length = q.2.length ∧
      ((GoodTiers q.1 ∧ TopPart h.ct q.2) ∨ (GoodPoints q.1 ∧ PointClasses h.ct q.2))) →
    ∃ h', buildGroups l h = .ok (List.range' h.nG l.length) h' ∧
      Room h' (gs ++ (List.range' h.nG l.length).filter fun g => !h'.gpoint g) ∧
      h'.ct = h.ct ∧ h'.nA = h.nA ∧ h'.agroups = h.agroups ∧ h'.acont = h.acont ∧ h'.acloned = h.acloned ∧
      (List.range' h.nG l.length).map (fun g => ((h'.gtiers g).map h'.ptier, (h'.gtiers g).map h'.tcls)) = l ∧
      (∀ g ∈ List.range' h.nG l.length, Settled h' g ∧
        (h'.gpoint g = true ↔ PointClasses h.ct ((h'.gtiers g).map h'.tcls)) ∧ (h'.gpoint g = true → PointsIn h' g)) ∧
      ∀ g, Settled h g → Stays h h' g
  | [], h, gs, rm, w, _ => ⟨h, rfl, by simpa using rm, rfl, rfl, rfl, rfl, rfl, rfl, by simp, fun _ s => .refl s⟩
  | (ts, cs) :: l, h, gs, rm, w, hl => by
    obtain ⟨q1, q2⟩ := hl (ts, cs) (by simp)
    obtain ⟨h1, e1, rm1, hct, hn, a1, a2, a3, a4, v1, v2, st, hk, hpi, ss⟩ := buildEither_run rm w q1 q2
    obtain ⟨h2, e2, rm2, hct2, b1, b2, b3, b4, u2, u3, u4⟩ := buildMixed_run l rm1 (by rw [hct]; exact w) (by
      rw [hct]; exact fun q hq => hl q (by simp [hq]))
    rw [hn] at e2 rm2 u2 u3
    have sn := u4 h.nG st
    obtain ⟨g1, g2⟩ := sn.tiers
    refine ⟨h2, ?_, ?_, hct2.trans hct, b1.trans a1, b2.trans a2, b3.trans a3, b4.trans a4, ?_, ?_, ?_⟩
    · unfold buildGroups
      mstep e1
      mstep e2
      rw [List.length_cons, List.range'_succ]
      rfl
    · rw [List.length_cons, List.range'_succ]
      rw [List.append_assoc] at rm2
      have : ([h.nG].filter fun g => !h1.gpoint g) ++ (List.range' (h.nG + 1) l.length).filter (fun g => !h2.gpoint g) =
          (h.nG :: List.range' (h.nG + 1) l.length).filter fun g => !h2.gpoint g := by
        rw [List.filter_cons, List.filter_cons, sn.gpoint]
        split <;> simp
      rw [this] at rm2
      exact rm2
    · rw [List.length_cons, List.range'_succ, List.map_cons, u2, g1, g2, v1, v2]
    · rw [List.length_cons, List.range'_succ]
      intro g hg
      rcases List.mem_cons.mp hg with rfl | hg
      · refine ⟨sn.settled, ?_, ?_⟩
        · rw [sn.gpoint, g2, v2]; exact hk
        · rw [sn.gpoint]
          exact fun q => sn.pointsIn hct2 (hpi q)
      · obtain ⟨c1, c2, c3⟩ := u3 g hg
        rw [hct] at c2
        exact ⟨c1, c2, c3⟩
    · intro g s
      exact (ss g s).trans (u4 g (ss g s).settled)

/-- points groups are beside the interval groups -/
theorem PointsIn.beside {h : Heap} {gs : List GRef} (gr : GapGrid h gs) {g : GRef} (p : PointsIn h g)
    (s : Settled h g) : Beside h gs (h.gtiers g) := by
  refine ⟨?_, ?_⟩
  · intro t ht k hk hm
    have := (p t ht).1
    rw [gr.interval k hk t hm] at this
    cases this
  · rintro x ⟨t, ht, hx⟩
    refine ⟨(s.2 t ht).2 x hx, ?_⟩
    rintro k hk ⟨u, hu, hxu⟩
    have c1 := ((p t ht).2.2.2 x hx).1
    have c2 := (gr.groups k hk).aligned.cls u hu x hxu
    have := (p t ht).1
    rw [← c1, c2, gr.interval k hk u hu] at this
    cases this

end ATG
