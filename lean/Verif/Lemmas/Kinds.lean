import Verif.Lemmas.Trim
import Verif.Spec.Kinds
/-!
# What groups are made of tiers, whatever these hold
-/
namespace ATG

/-- classes, textgrids, the first `n` tiers and the first `m` groups are as they were -/
structure Older (n m : Nat) (h h' : Heap) : Prop where
  ct : h'.ct = h.ct
  tcls : ∀ t, t < n → h'.tcls t = h.tcls t
  tname : ∀ t, t < n → h'.tname t = h.tname t
  gpoint : ∀ g, g < m → h'.gpoint g = h.gpoint g
  gtiers : ∀ g, g < m → h'.gtiers g = h.gtiers g
  nT : h.nT ≤ h'.nT
  nG : h.nG ≤ h'.nG
  nA : h'.nA = h.nA
  agroups : h'.agroups = h.agroups
  acloned : h'.acloned = h.acloned

namespace Older
variable {n m : Nat}
theorem refl (h : Heap) : Older n m h h :=
  ⟨rfl, fun _ _ => rfl, fun _ _ => rfl, fun _ _ => rfl, fun _ _ => rfl, Nat.le_refl _, Nat.le_refl _, rfl, rfl, rfl⟩
theorem trans {a b c : Heap} (h1 : Older n m a b) (h2 : Older n m b c) : Older n m a c :=
  ⟨h2.ct.trans h1.ct, fun t q => (h2.tcls t q).trans (h1.tcls t q), fun t q => (h2.tname t q).trans (h1.tname t q),
    fun t q => (h2.gpoint t q).trans (h1.gpoint t q), fun t q => (h2.gtiers t q).trans (h1.gtiers t q),
    Nat.le_trans h1.nT h2.nT, Nat.le_trans h1.nG h2.nG, h2.nA.trans h1.nA, h2.agroups.trans h1.agroups,
    h2.acloned.trans h1.acloned⟩
theorem less {n' m' : Nat} {h h' : Heap} (o : Older n m h h') (hn : n' ≤ n) (hm : m' ≤ m) : Older n' m' h h' :=
  ⟨o.ct, fun t q => o.tcls t (Nat.lt_of_lt_of_le q hn), fun t q => o.tname t (Nat.lt_of_lt_of_le q hn),
    fun t q => o.gpoint t (Nat.lt_of_lt_of_le q hm), fun t q => o.gtiers t (Nat.lt_of_lt_of_le q hm), o.nT, o.nG, o.nA,
    o.agroups, o.acloned⟩
theorem pre : IsPre (Older n m) := ⟨refl, fun _ _ _ => trans⟩
theorem of_skel' {h h' : Heap} (e : Skel h h') : Older n m h h' := by
  unfold Skel at e
  rw [e]
  exact ⟨rfl, fun _ _ => rfl, fun _ _ => rfl, fun _ _ => rfl, fun _ _ => rfl, Nat.le_refl _, Nat.le_refl _, rfl, rfl, rfl⟩
theorem of_skel {α} {m0 : M α} (hm : Keeps Skel m0) : Keeps (Older n m) m0 := hm.mono fun _ _ => of_skel'
theorem setContainsGroup (g : GRef) (l : List TRef) : Keeps (Older n m) (setContainsGroup g l) := by
  unfold ATG.setContainsGroup
  refine Keeps.bind pre ?_ fun _ => Keeps.forL pre _ fun _ _ => ?_
  · exact fun _ => ⟨rfl, fun _ _ => rfl, fun _ _ => rfl, fun _ _ => rfl, fun _ _ => rfl, Nat.le_refl _, Nat.le_refl _, rfl,
      rfl, rfl⟩
  · exact fun _ => ⟨rfl, fun _ _ => rfl, fun _ _ => rfl, fun _ _ => rfl, fun _ _ => rfl, Nat.le_refl _, Nat.le_refl _, rfl,
      rfl, rfl⟩
end Older

/-- a step that makes one tier -/
structure OneTier (h : Heap) (c : CRef) (name : String) (t : TRef) (h' : Heap) : Prop where
  eq : t = h.nT
  old : ∀ n m, n ≤ h.nT → Older n m h h'
  nT : h'.nT = h.nT + 1
  nG : h'.nG = h.nG
  tcls : h'.tcls t = c
  tname : h'.tname t = name

theorem Skel.newEntries (c : CRef) : ∀ l, Keeps Skel (newEntries c l)
  | [] => Skel.pure _
  | (_, _, _) :: l => Skel.bind (Skel.newEntry _ _ _ _) fun _ => Skel.bind (Skel.newEntries c l) fun _ => Skel.pure _

/-- after `h0`, a heap with a new tier `t` of class `c` -/
theorem OneTier.mk' {h k h' : Heap} {c : CRef} {name : String} (e : Skel k h') (hk : k = { h with
      nE := k.nE, cls := k.cls, start := k.start, stop := k.stop, label := k.label,
      fol := k.fol, prev := k.prev, subs := k.subs, sup := k.sup, intier := k.intier,
      within := k.within, cont := k.cont, tseq := k.tseq, tcont := k.tcont, twithin := k.twithin,
      nT := h.nT + 1, tcls := upd h.tcls h.nT c, tname := upd h.tname h.nT name, tsup := k.tsup, tsub := k.tsub }) :
    OneTier h c name h.nT h' := by
  unfold Skel at e
  refine ⟨rfl, ?_, ?_, ?_, ?_, ?_⟩
  · intro n m hn
    rw [e, hk]
    refine ⟨rfl, ?_, ?_, fun _ _ => rfl, fun _ _ => rfl, Nat.le_succ _, Nat.le_refl _, rfl, rfl, rfl⟩
    · exact fun t ht => upd_ne _ _ _ _ (Nat.ne_of_lt (Nat.lt_of_lt_of_le ht hn))
    · exact fun t ht => upd_ne _ _ _ _ (Nat.ne_of_lt (Nat.lt_of_lt_of_le ht hn))
  · rw [e, hk]
  · rw [e, hk]
  · rw [e, hk]; exact upd_same _ _ _
  · rw [e, hk]; exact upd_same _ _ _

theorem newTierFrom_one {es : List (Time × Time × String)} {c : CRef} {name : String} {h h' : Heap} {t : TRef}
    (e : newTierFrom es c name h = .ok t h') : OneTier h c name t h' := by
  unfold newTierFrom at e
  rw [M.bind_ok (show newTierObj h = .ok h.nT _ from rfl)] at e
  rw [M.bind_apply] at e
  have hs := Skel.newEntries c es { h with
    nT := h.nT + 1
    tseq := upd h.tseq h.nT SL.empty
    tcont := upd h.tcont h.nT .unset
    twithin := upd h.twithin h.nT none }
  cases e1 : newEntries c es { h with
      nT := h.nT + 1
      tseq := upd h.tseq h.nT SL.empty
      tcont := upd h.tcont h.nT .unset
      twithin := upd h.twithin h.nT none } with
  | err x k => rw [e1] at e; cases e
  | ok rs k =>
    rw [e1] at e hs
    replace hs : Skel _ k := hs
    unfold Skel at hs
    simp only [] at e
    have key : ∀ (u : Unit) (z : Heap), tierInit h.nT rs c name k = .ok u z → OneTier h c name h.nT z := by
      intro u z ez
      have hsk : Keeps Skel (do
          M.forL rs (fun x => castTo c x)
          let sl ← slMk rs
          tierSetSeq h.nT sl
          tierPrecedence h.nT : M Unit) :=
        Skel.bind (Skel.forL _ fun _ => Skel.castTo _ _) fun _ => Skel.bind (Skel.slMk _) fun _ =>
          Skel.bind (Skel.tierSetSeq _ _) fun _ => Skel.tierPrecedence _
      have hsk' : ∀ (k0 z0 : Heap), (do
          M.forL rs (fun x => castTo c x)
          let sl ← slMk rs
          tierSetSeq h.nT sl
          tierPrecedence h.nT : M Unit) k0 = .ok u z0 → Skel k0 z0 := fun k0 z0 e0 => by
        have := hsk k0
        rw [e0] at this
        exact this
      unfold tierInit at ez
      rw [M.bind_ok (M.modify_apply _ _)] at ez
      unfold replaceSeq at ez
      rw [M.bind_ok (M.modify_apply _ _)] at ez
      rw [M.bind_ok (M.modify_apply _ _)] at ez
      have h3 := hsk' _ _ ez
      refine OneTier.mk' h3 ?_
      rw [hs]
    rw [M.bind_apply] at e
    cases e2 : tierInit h.nT rs c name k with
    | err x z => rw [e2] at e; cases e
    | ok u z =>
      rw [e2] at e
      cases e
      exact key u _ e2

theorem newPointTier_one {rs : List Ref} {c : CRef} {name : String} {h h' : Heap} {t : TRef}
    (e : newPointTier rs c name h = .ok t h') : OneTier h c name t h' := by
  unfold newPointTier at e
  rw [M.bind_ok (show newTierObj h = .ok h.nT _ from rfl)] at e
  rw [M.bind_apply] at e
  revert e
  generalize ek : ({ h with
      nT := h.nT + 1
      tseq := upd h.tseq h.nT SL.empty
      tcont := upd h.tcont h.nT .unset
      twithin := upd h.twithin h.nT none } : Heap) = k
  intro e
  have key : ∀ (u : Unit) (z : Heap), pointTierInit h.nT rs c name k = .ok u z → OneTier h c name h.nT z := by
    intro u z ez
    have hsk : ∀ k0 : Heap, Keeps Skel (if rs.all k0.isPoint then do
        replaceSeq h.nT SL.empty
        M.forL (sortBy k0.start rs) (fun x => do
          castTo c x
          let h' ← M.get
          let sl ← slAppend (h'.tseq h.nT) x
          putSeq h.nT sl)
        tierPrecedence h.nT
      else M.throw .attributeError : M Unit) := fun k0 =>
      Keeps.ite (Skel.bind (Skel.replaceSeq _ _) fun _ => Skel.bind (Skel.forL _ fun _ => Skel.bind (Skel.castTo _ _) fun _ =>
        Keeps.get_bind fun _ => Skel.bind (Skel.slAppend _ _) fun _ => Skel.putSeq _ _) fun _ => Skel.tierPrecedence _)
        (Skel.throw _)
    unfold pointTierInit at ez
    rw [M.bind_ok (M.modify_apply _ _)] at ez
    rw [M.bind_ok (M.get_apply _)] at ez
    have h3 := hsk { k with tcls := upd k.tcls h.nT c, tname := upd k.tname h.nT name } { k with
        tcls := upd k.tcls h.nT c, tname := upd k.tname h.nT name }
    rw [ez] at h3
    refine OneTier.mk' h3 ?_
    rw [← ek]
  cases e2 : pointTierInit h.nT rs c name k with
  | err x z => rw [e2] at e; cases e
  | ok u z =>
    rw [e2] at e
    cases e
    exact key u _ e2

theorem buildTiers_kinds : ∀ (l : List (PTier × CRef)) (h h' : Heap) (is ps : List TRef),
    buildTiers l h = .ok (is, ps) h' → (∀ n m, n ≤ h.nT → Older n m h h') ∧ h'.nG = h.nG ∧
      is.map (tag h') = tagsOf h.ct false l ∧ ps.map (tag h') = tagsOf h.ct true l ∧
      (∀ t ∈ is ++ ps, h.nT ≤ t ∧ t < h'.nT) ∧
      ∀ q ∈ l, ∀ p ∈ q.1.2, p.1 = p.2.1 ↔ h.ct.isSub q.2 cPoint = true := by
  intro l
  induction l with
  | nil =>
    intro h h' is ps e
    cases e
    exact ⟨fun _ _ _ => Older.refl _, rfl, rfl, rfl, by simp, by simp⟩
  | cons q rest ih =>
    obtain ⟨⟨name, es⟩, c⟩ := q
    intro h h' is ps e
    unfold buildTiers at e
    rw [M.bind_ok (M.get_apply h)] at e
    -- the tail after a tier was made
    have tail : ∀ (k : Heap) (t : TRef) (is' ps' : List TRef), OneTier h c name t k → buildTiers rest k = .ok (is', ps') h' →
        (∀ n m, n ≤ h.nT → Older n m h h') ∧ h'.nG = h.nG ∧ tag h' t = (name, c) ∧
        is'.map (tag h') = tagsOf h.ct false rest ∧ ps'.map (tag h') = tagsOf h.ct true rest ∧ (h.nT ≤ t ∧ t < h'.nT) ∧
        (∀ u ∈ is' ++ ps', h.nT ≤ u ∧ u < h'.nT) ∧ ∀ q ∈ rest, ∀ p ∈ q.1.2, p.1 = p.2.1 ↔ h.ct.isSub q.2 cPoint = true := by
      intro k t is' ps' ot e'
      obtain ⟨o, g1, i1, p1, b1, f1⟩ := ih k h' is' ps' e'
      have hk : k.ct = h.ct := (ot.old 0 0 (Nat.zero_le _)).ct
      have ht : t < k.nT := by rw [ot.eq, ot.nT]; exact Nat.lt_succ_self _
      have o1 := o k.nT 0 (Nat.le_refl _)
      refine ⟨fun n m hn => (ot.old n m hn).trans (o n m (by rw [ot.nT]; exact Nat.le_succ_of_le hn)), g1.trans ot.nG, ?_,
        by rw [← hk]; exact i1, by rw [← hk]; exact p1, ⟨by rw [ot.eq]; exact Nat.le_refl _, Nat.lt_of_lt_of_le ht o1.nT⟩, ?_,
        by rw [← hk]; exact f1⟩
      · unfold tag
        rw [o1.tname t ht, o1.tcls t ht, ot.tname, ot.tcls]
      · intro u hu
        obtain ⟨q1, q2⟩ := b1 u hu
        rw [ot.nT] at q1
        exact ⟨Nat.le_of_succ_le q1, q2⟩
    have kindOf : ∀ b, h.ct.isSub c cPoint = b → ofKind b es = true →
        (∀ q ∈ rest, ∀ p ∈ q.1.2, p.1 = p.2.1 ↔ h.ct.isSub q.2 cPoint = true) →
        ∀ q ∈ ((name, es), c) :: rest, ∀ p ∈ q.1.2, p.1 = p.2.1 ↔ h.ct.isSub q.2 cPoint = true := by
      intro b hb hk hr q hq p hp
      rcases List.mem_cons.mp hq with rfl | hq
      · have := List.all_eq_true.mp hk p hp
        simp only [hb]
        have q : (p.1 == p.2.1) = b := by simpa using this
        rw [← q]
        simp
      · exact hr q hq p hp
    by_cases hp : h.ct.isSub c cPoint = true
    · rw [if_pos hp] at e
      by_cases hk : ofKind true es = true
      case neg => rw [if_neg hk] at e; cases e
      rw [if_pos hk, M.bind_apply] at e
      have hs := Skel.newEntries c es h
      cases e1 : newEntries c es h with
      | err x k => rw [e1] at e; cases e
      | ok rs k =>
        rw [e1] at e hs
        replace hs : Skel h k := hs
        simp only [] at e
        rw [M.bind_apply] at e
        cases e2 : newPointTier rs c name k with
        | err x z => rw [e2] at e; cases e
        | ok t z =>
          rw [e2] at e
          simp only [] at e
          rw [M.bind_apply] at e
          cases e3 : buildTiers rest z with
          | err x y => rw [e3] at e; cases e
          | ok q y =>
            obtain ⟨is', ps'⟩ := q
            rw [e3] at e
            cases e
            have o1 := newPointTier_one e2
            have hkT : k.nT = h.nT := by unfold Skel at hs; rw [hs]
            have hkG : k.nG = h.nG := by unfold Skel at hs; rw [hs]
            have ot : OneTier h c name t z := ⟨o1.eq.trans hkT, fun n m hn =>
              (Older.of_skel' hs).trans (o1.old n m (by rw [hkT]; exact hn)), by rw [o1.nT, hkT], by rw [o1.nG, hkG], o1.tcls, o1.tname⟩
            obtain ⟨r1, r2, r3, r4, r5, r6, r7, r8⟩ := tail z t _ _ ot e3
            refine ⟨r1, r2, ?_, ?_, ?_, kindOf true hp hk r8⟩
            · rw [r4]; simp [tagsOf, hp]
            · rw [List.map_cons, r3, r5]; simp [tagsOf, hp]
            · intro u hu
              rcases List.mem_append.mp hu with hu | hu
              · exact r7 u (List.mem_append_left _ hu)
              · rcases List.mem_cons.mp hu with hu | hu
                · rw [hu]; exact r6
                · exact r7 u (List.mem_append_right _ hu)
    · rw [if_neg hp] at e
      by_cases hk : ofKind false es = true
      case neg => rw [if_neg hk] at e; cases e
      rw [if_pos hk, M.bind_apply] at e
      cases e2 : newTierFrom es c name h with
      | err x z => rw [e2] at e; cases e
      | ok t z =>
        rw [e2] at e
        simp only [] at e
        rw [M.bind_apply] at e
        cases e3 : buildTiers rest z with
        | err x y => rw [e3] at e; cases e
        | ok q y =>
          obtain ⟨is', ps'⟩ := q
          rw [e3] at e
          cases e
          obtain ⟨r1, r2, r3, r4, r5, r6, r7, r8⟩ := tail z t _ _ (newTierFrom_one e2) e3
          have hp' : h.ct.isSub c cPoint = false := by simpa using hp
          refine ⟨r1, r2, ?_, ?_, ?_, kindOf false hp' hk r8⟩
          · rw [List.map_cons, r3, r4]; simp [tagsOf, hp']
          · rw [r5]; simp [tagsOf, hp']
          · intro u hu
            rcases List.mem_append.mp hu with hu | hu
            · rcases List.mem_cons.mp hu with hu | hu
              · rw [hu]; exact r6
              · exact r7 u (List.mem_append_left _ hu)
            · exact r7 u (List.mem_append_right _ hu)

/-- a step that makes one group -/
structure OneGroup (h : Heap) (pt : Bool) (l : List TRef) (g : GRef) (h' : Heap) : Prop where
  eq : g = h.nG
  old : ∀ n m, m ≤ h.nG → Older n m h h'
  nG : h'.nG = h.nG + 1
  nT : h'.nT = h.nT
  tcls : h'.tcls = h.tcls
  tname : h'.tname = h.tname
  gpoint : h'.gpoint g = pt
  sub : ∀ t ∈ h'.gtiers g, t ∈ l

/-- `Older`, and the number of groups, the tiers and the kinds are the same -/
structure Older' (m : Nat) (h h' : Heap) : Prop where
  old : ∀ n, Older n m h h'
  nG : h'.nG = h.nG
  nT : h'.nT = h.nT
  tcls : h'.tcls = h.tcls
  tname : h'.tname = h.tname
  gpoint : h'.gpoint = h.gpoint

theorem Older'.pre {m : Nat} : IsPre (Older' m) :=
  ⟨fun h => ⟨fun _ => Older.refl h, rfl, rfl, rfl, rfl, rfl⟩, fun _ _ _ a b => ⟨fun n => (a.old n).trans (b.old n), b.nG.trans a.nG,
    b.nT.trans a.nT, b.tcls.trans a.tcls, b.tname.trans a.tname, b.gpoint.trans a.gpoint⟩⟩

theorem Older'.of_skel {m : Nat} {α} {m0 : M α} (hm : Keeps Skel m0) : Keeps (Older' m) m0 := hm.mono fun h h' e =>
  ⟨fun _ => Older.of_skel' e, by unfold Skel at e; rw [e], by unfold Skel at e; rw [e], by unfold Skel at e; rw [e],
    by unfold Skel at e; rw [e], by unfold Skel at e; rw [e]⟩
theorem Older'.setContainsGroup {m : Nat} (g : GRef) (l : List TRef) : Keeps (Older' m) (setContainsGroup g l) := by
  unfold ATG.setContainsGroup
  refine Keeps.bind pre ?_ fun _ => Keeps.forL pre _ fun _ _ => ?_
  · exact fun _ => ⟨fun _ => ⟨rfl, fun _ _ => rfl, fun _ _ => rfl, fun _ _ => rfl, fun _ _ => rfl, Nat.le_refl _,
      Nat.le_refl _, rfl, rfl, rfl⟩, rfl, rfl, rfl, rfl, rfl⟩
  · exact fun _ => ⟨fun _ => ⟨rfl, fun _ _ => rfl, fun _ _ => rfl, fun _ _ => rfl, fun _ _ => rfl, Nat.le_refl _,
      Nat.le_refl _, rfl, rfl, rfl⟩, rfl, rfl, rfl, rfl, rfl⟩

theorem Older'.put {m : Nat} {h k : Heap} (o : Older' m h k) (g : GRef) (hg : m ≤ g) (l : List TRef) :
    Older' m h { k with gtiers := upd k.gtiers g l } := by
  refine ⟨fun n => ?_, o.nG, o.nT, o.tcls, o.tname, o.gpoint⟩
  have := o.old n
  exact ⟨this.ct, this.tcls, this.tname, this.gpoint, fun g' q => (upd_ne _ _ _ _ (Nat.ne_of_lt (Nat.lt_of_lt_of_le q hg))).trans
    (this.gtiers g' q), this.nT, this.nG, this.nA, this.agroups, this.acloned⟩

/-- after a new group object -/
theorem OneGroup.of {h h' : Heap} {pt : Bool} {l : List TRef}
    (o : Older' h.nG { h with
      nG := h.nG + 1
      gtiers := upd h.gtiers h.nG []
      gcont := upd h.gcont h.nG none
      gpoint := upd h.gpoint h.nG pt
      gwithin := upd h.gwithin h.nG none } h')
    (sub : ∀ t ∈ h'.gtiers h.nG, t ∈ l) : OneGroup h pt l h.nG h' := by
  refine ⟨rfl, ?_, o.nG, o.nT, o.tcls, o.tname, ?_, sub⟩
  · intro n m hm
    have := o.old n
    refine ⟨this.ct, this.tcls, this.tname, ?_, ?_, this.nT, Nat.le_of_succ_le this.nG, this.nA, this.agroups, this.acloned⟩
    · exact fun g hg => (this.gpoint g (Nat.lt_of_lt_of_le hg hm)).trans
        (upd_ne _ _ _ _ (Nat.ne_of_lt (Nat.lt_of_lt_of_le hg hm)))
    · exact fun g hg => (this.gtiers g (Nat.lt_of_lt_of_le hg hm)).trans
        (upd_ne _ _ _ _ (Nat.ne_of_lt (Nat.lt_of_lt_of_le hg hm)))
  · rw [o.gpoint]; exact upd_same _ _ _

theorem newGroup_one {l : List TRef} {h h' : Heap} {g : GRef} (e : newGroup l h = .ok g h') : OneGroup h false l g h' := by
  unfold newGroup at e
  rw [M.bind_ok (show newGroupObj false h = .ok h.nG _ from rfl)] at e
  revert e
  generalize ek : ({ h with
      nG := h.nG + 1
      gtiers := upd h.gtiers h.nG []
      gcont := upd h.gcont h.nG none
      gpoint := upd h.gpoint h.nG false
      gwithin := upd h.gwithin h.nG none } : Heap) = k
  intro e
  rw [M.bind_apply] at e
  have h1 := Trims.groupInit_any (R := Older' h.nG) Older'.pre Older'.of_skel h.nG l false (Older'.setContainsGroup h.nG) k
    (fun arr b _ z hz => hz.put h.nG (Nat.le_refl _) arr)
  have h2 := Trims.groupInit_any (R := fun a b => (∀ t ∈ a.gtiers h.nG, t ∈ l) → ∀ t ∈ b.gtiers h.nG, t ∈ l)
    ⟨fun _ q => q, fun _ _ _ a b q => b (a q)⟩ (fun hm => hm.mono fun a b q => by unfold Skel at q; rw [q]; exact id) h.nG l false
    (fun arr => by
      unfold ATG.setContainsGroup
      exact Keeps.bind ⟨fun _ q => q, fun _ _ _ a b q => b (a q)⟩ (fun _ q => q) fun _ =>
        Keeps.forL ⟨fun _ q => q, fun _ _ _ a b q => b (a q)⟩ _ fun _ _ _ q => q) k
    (fun arr b ea z _ _ t ht => arrange_sub ea t (by simpa using ht))
  cases e2 : groupInit h.nG l false k with
  | err x z => rw [e2] at e; cases e
  | ok u z =>
    rw [e2] at e h1 h2
    cases e
    refine OneGroup.of (by rw [ek]; exact h1) (h2 ?_)
    rw [← ek]
    intro t ht
    simp at ht

theorem newPointsGroup_one {l : List TRef} {h h' : Heap} {g : GRef} (e : newPointsGroup l h = .ok g h') :
    OneGroup h true l g h' ∧ h'.gtiers g = l := by
  unfold newPointsGroup at e
  rw [M.bind_ok (show newGroupObj true h = .ok h.nG _ from rfl)] at e
  revert e
  generalize ek : ({ h with
      nG := h.nG + 1
      gtiers := upd h.gtiers h.nG []
      gcont := upd h.gcont h.nG none
      gpoint := upd h.gpoint h.nG true
      gwithin := upd h.gwithin h.nG none } : Heap) = k
  intro e
  rw [M.bind_apply] at e
  have hg : Keeps (fun a b : Heap => b.gtiers = a.gtiers) (setContainsGroup h.nG l) := by
    unfold ATG.setContainsGroup
    have hR : IsPre fun a b : Heap => b.gtiers = a.gtiers := ⟨fun _ => rfl, fun _ _ _ a b => b.trans a⟩
    exact Keeps.bind hR (fun _ => rfl) fun _ => Keeps.forL hR _ fun _ _ _ => rfl
  have h1 := Older'.setContainsGroup (m := h.nG) h.nG l { k with gtiers := upd k.gtiers h.nG l }
  have h2 := hg { k with gtiers := upd k.gtiers h.nG l }
  have e0 : pointsGroupInit h.nG l k = setContainsGroup h.nG l { k with gtiers := upd k.gtiers h.nG l } :=
    M.bind_ok (M.modify_apply _ _)
  cases e2 : pointsGroupInit h.nG l k with
  | err x z => rw [e2] at e; cases e
  | ok u z =>
    rw [← e0, e2] at h1 h2
    rw [e2] at e
    cases e
    have hl : h'.gtiers h.nG = l := (congrFun h2 h.nG).trans (upd_same _ _ _)
    refine ⟨OneGroup.of (by
      rw [ek]
      exact Older'.pre.trans _ _ _ ((Older'.pre.refl k).put h.nG (Nat.le_refl _) l) h1) (by rw [hl]; exact fun _ q => q), hl⟩

theorem MadeOf.older {h h' : Heap} {ct : ClassTab} {l : List (PTier × CRef)} {gs : List GRef} (md : MadeOf h ct l gs)
    (o : Older h.nT h.nG h h') : MadeOf h' ct l gs := by
  have hp : ∀ g ∈ gs, h'.gpoint g = h.gpoint g := fun g hg => o.gpoint g (md.groups g hg)
  have ht : ∀ g ∈ gs, h'.gtiers g = h.gtiers g := fun g hg => o.gtiers g (md.groups g hg)
  have hq : ∀ g ∈ gs, ∀ t ∈ h.gtiers g, tag h' t = tag h t := by
    intro g hg t q
    have := md.tiers g hg t q
    unfold tag
    rw [o.tname t this, o.tcls t this]
  refine ⟨?_, ?_, ?_, ?_, ?_, md.fit⟩
  · rw [← md.kinds]; exact List.map_congr_left hp
  · intro g hg q
    rw [ht g hg, ← md.points g hg (by rw [← hp g hg]; exact q)]
    exact List.map_congr_left (hq g hg)
  · intro g hg q t q'
    rw [ht g hg] at q'
    rw [hq g hg t q']
    exact md.intervals g hg (by rw [← hp g hg]; exact q) t q'
  · intro g hg t q
    rw [ht g hg] at q
    exact Nat.lt_of_lt_of_le (md.tiers g hg t q) o.nT
  · exact fun g hg => Nat.lt_of_lt_of_le (md.groups g hg) o.nG

theorem tagsOf_length {ct : ClassTab} {pt : Bool} {l : List (PTier × CRef)} {ts : List TRef} {h : Heap}
    (e : ts.map (tag h) = tagsOf ct pt l) : (ts.length > 0) ↔ tagsOf ct pt l ≠ [] := by
  rw [← e]
  cases ts <;> simp

theorem buildGroup_kinds {ts : List PTier} {cs : List CRef} {h h' : Heap} {gs : List GRef}
    (e : buildGroup ts cs h = .ok gs h') :
    (∀ n m, n ≤ h.nT → m ≤ h.nG → Older n m h h') ∧ (∀ g ∈ gs, h.nG ≤ g) ∧ MadeOf h' h.ct (ts.zip cs) gs := by
  unfold buildGroup at e
  rw [M.bind_apply] at e
  cases e1 : buildTiers (ts.zip cs) h with
  | err x k => rw [e1] at e; cases e
  | ok q k =>
    obtain ⟨is, ps⟩ := q
    rw [e1] at e
    simp only [] at e
    obtain ⟨o1, g1, i1, p1, b1, f1⟩ := buildTiers_kinds _ h k is ps e1
    rw [M.bind_apply] at e
    -- the interval group
    have A : ∀ (r : List GRef) (k' : Heap), ((if is.length > 0 then do
        let g ← newGroup is
        pure [g]
      else pure []) : M (List GRef)) k = .ok r k' → (∀ n m, m ≤ k.nG → Older n m k k') ∧
        (∀ g ∈ r, k.nG ≤ g ∧ g < k'.nG) ∧ r.map k'.gpoint = (if tagsOf h.ct false (ts.zip cs) = [] then [] else [false]) ∧
        (k'.tcls = k.tcls ∧ k'.tname = k.tname ∧ k'.nT = k.nT) ∧ ∀ g ∈ r, ∀ t ∈ k'.gtiers g, t ∈ is := by
      intro r k' er
      by_cases hl : is.length > 0
      · rw [if_pos hl, M.bind_apply] at er
        cases e2 : newGroup is k with
        | err x z => rw [e2] at er; cases er
        | ok g z =>
          rw [e2] at er
          cases er
          have og := newGroup_one e2
          rw [if_neg ((tagsOf_length i1).mp hl)]
          refine ⟨og.old, ?_, by simp [og.gpoint], ⟨og.tcls, og.tname, og.nT⟩, ?_⟩
          · intro g' hg'
            rw [List.mem_singleton.mp hg', og.nG, og.eq]
            exact ⟨Nat.le_refl _, Nat.lt_succ_self _⟩
          · intro g' hg' t ht
            rw [List.mem_singleton.mp hg'] at ht
            exact og.sub t ht
      · rw [if_neg hl] at er
        cases er
        have h0 : tagsOf h.ct false (ts.zip cs) = [] := by
          by_cases q : tagsOf h.ct false (ts.zip cs) = []
          · exact q
          · exact absurd ((tagsOf_length i1).mpr q) hl
        rw [if_pos h0]
        exact ⟨fun _ _ _ => Older.refl _, by simp, rfl, ⟨rfl, rfl, rfl⟩, by simp⟩
    have B : ∀ (k' : Heap) (r : List GRef) (z : Heap), ((if ps.length > 0 then do
        let g ← newPointsGroup ps
        pure [g]
      else pure []) : M (List GRef)) k' = .ok r z → (∀ n m, m ≤ k'.nG → Older n m k' z) ∧
        (∀ g ∈ r, k'.nG ≤ g ∧ g < z.nG) ∧ r.map z.gpoint = (if tagsOf h.ct true (ts.zip cs) = [] then [] else [true]) ∧
        (z.tcls = k'.tcls ∧ z.tname = k'.tname ∧ z.nT = k'.nT) ∧ ∀ g ∈ r, z.gtiers g = ps := by
      intro k' r z er
      by_cases hl : ps.length > 0
      · rw [if_pos hl, M.bind_apply] at er
        cases e2 : newPointsGroup ps k' with
        | err x z => rw [e2] at er; cases er
        | ok g z =>
          rw [e2] at er
          cases er
          obtain ⟨og, og'⟩ := newPointsGroup_one e2
          rw [if_neg ((tagsOf_length p1).mp hl)]
          refine ⟨og.old, ?_, by simp [og.gpoint], ⟨og.tcls, og.tname, og.nT⟩, ?_⟩
          · intro g' hg'
            rw [List.mem_singleton.mp hg', og.nG, og.eq]
            exact ⟨Nat.le_refl _, Nat.lt_succ_self _⟩
          · intro g' hg'
            rw [List.mem_singleton.mp hg']
            exact og'
      · rw [if_neg hl] at er
        cases er
        have h0 : tagsOf h.ct true (ts.zip cs) = [] := by
          by_cases q : tagsOf h.ct true (ts.zip cs) = []
          · exact q
          · exact absurd ((tagsOf_length p1).mpr q) hl
        rw [if_pos h0]
        exact ⟨fun _ _ _ => Older.refl _, by simp, rfl, ⟨rfl, rfl, rfl⟩, by simp⟩
    generalize ((if is.length > 0 then do
        let g ← newGroup is
        pure [g]
      else pure []) : M (List GRef)) = mA at e A
    generalize ((if ps.length > 0 then do
        let g ← newPointsGroup ps
        pure [g]
      else pure []) : M (List GRef)) = mB at e B
    cases eA : mA k with
    | err x z => rw [eA] at e; cases e
    | ok rA k' =>
      rw [eA] at e
      simp only [] at e
      rw [M.bind_apply] at e
      cases eB : mB k' with
      | err x z => rw [eB] at e; cases e
      | ok rB z =>
        rw [eB] at e
        cases e
        obtain ⟨a1, a2, a3, ⟨a4, a5, a6⟩, a7⟩ := A rA k' eA
        obtain ⟨c1, c2, c3, ⟨c4, c5, c6⟩, c7⟩ := B k' rB h' eB
        have oA := a1 0 k.nG (Nat.le_refl _)
        have oB := c1 0 k'.nG (Nat.le_refl _)
        have htag : ∀ t, tag h' t = tag k t := by
          intro t; unfold tag; rw [c5, c4, a5, a4]
        have hA : ∀ g ∈ rA, h'.gpoint g = k'.gpoint g := fun g hg => oB.gpoint g (a2 g hg).2
        have kindA : ∀ g ∈ rA, h'.gpoint g = false := by
          intro g hg
          have : k'.gpoint g ∈ rA.map k'.gpoint := List.mem_map_of_mem hg
          rw [a3] at this
          rw [hA g hg]
          split at this <;> simp_all
        have kindB : ∀ g ∈ rB, h'.gpoint g = true := by
          intro g hg
          have : h'.gpoint g ∈ rB.map h'.gpoint := List.mem_map_of_mem hg
          rw [c3] at this
          split at this <;> simp_all
        have tA : ∀ g ∈ rA, ∀ t ∈ h'.gtiers g, t ∈ is := by
          intro g hg t ht
          rw [oB.gtiers g (a2 g hg).2] at ht
          exact a7 g hg t ht
        refine ⟨?_, ?_, ?_, ?_, ?_, ?_, ?_, f1⟩
        · intro n m hn hm
          refine ((o1 n m hn).trans (a1 n m (by rw [g1]; exact hm))).trans (c1 n m ?_)
          exact Nat.le_trans hm (by rw [← g1]; exact oA.nG)
        · intro g hg
          rcases List.mem_append.mp hg with hg | hg
          · rw [← g1]; exact (a2 g hg).1
          · rw [← g1]; exact Nat.le_trans oA.nG (c2 g hg).1
        · rw [List.map_append, c3, ← a3]
          exact congrArg (· ++ _) (List.map_congr_left hA)
        · intro g hg hq
          rcases List.mem_append.mp hg with hg | hg
          · rw [kindA g hg] at hq; cases hq
          · rw [c7 g hg, ← p1]
            exact List.map_congr_left fun t _ => htag t
        · intro g hg hq t ht
          rcases List.mem_append.mp hg with hg | hg
          · rw [htag, ← i1]
            exact List.mem_map_of_mem (tA g hg t ht)
          · rw [kindB g hg] at hq; cases hq
        · intro g hg t ht
          rw [c6, a6]
          rcases List.mem_append.mp hg with hg | hg
          · exact (b1 t (List.mem_append_left _ (tA g hg t ht))).2
          · rw [c7 g hg] at ht
            exact (b1 t (List.mem_append_right _ ht)).2
        · intro g hg
          rcases List.mem_append.mp hg with hg | hg
          · exact Nat.lt_of_lt_of_le (a2 g hg).2 oB.nG
          · exact (c2 g hg).2

theorem buildGroups_kinds : ∀ (l : List (List PTier × List CRef)) (h h' : Heap) (gs : List GRef),
    buildGroups l h = .ok gs h' → (∀ n m, n ≤ h.nT → m ≤ h.nG → Older n m h h') ∧
      ∃ gss : List (List GRef), gs = gss.flatten ∧ gss.length = l.length ∧
        ∀ (i : Nat) (q : List PTier × List CRef) (g : List GRef), l[i]? = some q → gss[i]? = some g →
          MadeOf h' h.ct (q.1.zip q.2) g := by
  intro l
  induction l with
  | nil =>
    intro h h' gs e
    cases e
    exact ⟨fun _ _ _ _ => Older.refl _, [], rfl, rfl, by simp⟩
  | cons q rest ih =>
    obtain ⟨ts, cs⟩ := q
    intro h h' gs e
    unfold buildGroups at e
    rw [M.bind_apply] at e
    cases e1 : buildGroup ts cs h with
    | err x k => rw [e1] at e; cases e
    | ok g k =>
      rw [e1] at e
      simp only [] at e
      rw [M.bind_apply] at e
      cases e2 : buildGroups rest k with
      | err x z => rw [e2] at e; cases e
      | ok gs' z =>
        rw [e2] at e
        cases e
        obtain ⟨o1, -, m1⟩ := buildGroup_kinds e1
        obtain ⟨o2, gss, f2, l2, m2⟩ := ih k h' gs' e2
        have o0 := o1 0 0 (Nat.zero_le _) (Nat.zero_le _)
        refine ⟨fun n m hn hm => (o1 n m hn hm).trans (o2 n m (Nat.le_trans hn o0.nT) (Nat.le_trans hm o0.nG)), g :: gss,
          by simp [f2], by simp [l2], ?_⟩
        intro i q g' h1 h2
        cases i with
        | zero =>
          cases h1; cases h2
          exact m1.older (o2 _ _ (Nat.le_refl _) (Nat.le_refl _))
        | succ i =>
          have := m2 i q g' (by simpa using h1) (by simpa using h2)
          rw [o0.ct] at this
          exact this

theorem MadeOf.trims {h h' : Heap} {ct : ClassTab} {l : List (PTier × CRef)} {gs : List GRef} (md : MadeOf h ct l gs)
    (o : Trims h h') : MadeOf h' ct l gs := by
  have hq : tag h' = tag h := by funext t; unfold tag; rw [o.tname, o.tcls]
  refine ⟨by rw [o.gpoint]; exact md.kinds, ?_, ?_, ?_, by rw [o.nG]; exact md.groups, md.fit⟩
  · intro g hg q
    rw [o.gpoint] at q
    rw [hq, o.points g q]
    exact md.points g hg q
  · intro g hg q t q'
    rw [o.gpoint] at q
    rw [hq]
    exact md.intervals g hg q t (o.sub g t q')
  · intro g hg t q
    rw [o.nT]
    exact md.tiers g hg t (o.sub g t q)

end ATG
