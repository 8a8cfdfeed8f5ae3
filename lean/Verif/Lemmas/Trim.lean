import Verif.Lemmas.CtFrame
import Verif.Lemmas.Arrange
/-!
# What cleaning up a textgrid keeps in any case

Whatever the tiers hold, and also when it raises: the classes, the tiers' names and classes, the kinds of the groups, the
groups of the textgrids, the tiers of the groups of points. A group of interval tiers may lose tiers, but never gets
one.
-/
namespace ATG

theorem arrange_sub {h : Heap} {tiers l : List TRef} {b : Bool} (e : arrange h tiers = .ok (l, b)) : ∀ t ∈ l, t ∈ tiers := by
  unfold arrange at e
  cases tiers with
  | nil => simp at e
  | cons t0 rest =>
    simp only [] at e
    cases hu : arrangeUp h (t0 :: rest) ((t0 :: rest).length + 1) t0 with
    | error x => rw [hu] at e; simp at e
    | ok top =>
      rw [hu] at e
      have h1 := (arrangeUp_spec h _ _ _ _ hu).1
      have h2 := (arrangeDown_spec h _ _ _ _ _ e).2.1
      intro t ht
      rcases h2 t ht with q | q
      · subst q
        rcases h1 with q | q
        · rw [q]; simp
        · exact q
      · exact q

/-- what cleaning up may do to groups -/
structure Trims (h h' : Heap) : Prop where
  ct : h'.ct = h.ct
  tcls : h'.tcls = h.tcls
  tname : h'.tname = h.tname
  gpoint : h'.gpoint = h.gpoint
  nG : h'.nG = h.nG
  nT : h'.nT = h.nT
  nA : h'.nA = h.nA
  agroups : h'.agroups = h.agroups
  acloned : h'.acloned = h.acloned
  points : ∀ g, h.gpoint g = true → h'.gtiers g = h.gtiers g
  sub : ∀ g t, t ∈ h'.gtiers g → t ∈ h.gtiers g

namespace Trims
theorem refl (h : Heap) : Trims h h := ⟨rfl, rfl, rfl, rfl, rfl, rfl, rfl, rfl, rfl, fun _ _ => rfl, fun _ _ q => q⟩
theorem trans {a b c : Heap} (h1 : Trims a b) (h2 : Trims b c) : Trims a c :=
  ⟨h2.ct.trans h1.ct, h2.tcls.trans h1.tcls, h2.tname.trans h1.tname, h2.gpoint.trans h1.gpoint, h2.nG.trans h1.nG,
    h2.nT.trans h1.nT, h2.nA.trans h1.nA, h2.agroups.trans h1.agroups, h2.acloned.trans h1.acloned,
    fun g hg => (h2.points g (by rw [h1.gpoint]; exact hg)).trans (h1.points g hg), fun g t ht => h1.sub g t (h2.sub g t ht)⟩
theorem pre : IsPre Trims := ⟨refl, fun _ _ _ => trans⟩
theorem of_skel {α} {m : M α} (hm : Keeps Skel m) : Keeps Trims m := hm.mono fun h h' e => by
  unfold Skel at e
  rw [e]
  exact ⟨rfl, rfl, rfl, rfl, rfl, rfl, rfl, rfl, rfl, fun _ _ => rfl, fun _ _ q => q⟩
theorem throw {α} (e : Err) : Keeps Trims (M.throw e : M α) := Keeps.throw pre e
theorem pure {α} (a : α) : Keeps Trims (Pure.pure a : M α) := Keeps.pure pre a
theorem bind {α β} {m : M α} {f : α → M β} (hm : Keeps Trims m) (hf : ∀ a, Keeps Trims (f a)) : Keeps Trims (m >>= f) :=
  Keeps.bind pre hm hf
theorem forL {α} (l : List α) {f : α → M Unit} (hf : ∀ a, Keeps Trims (f a)) : Keeps Trims (M.forL l f) :=
  Keeps.forL pre l fun a _ => hf a
theorem setContainsGroup (g : GRef) (l : List TRef) : Keeps Trims (setContainsGroup g l) := by
  unfold ATG.setContainsGroup
  exact bind (fun _ => ⟨rfl, rfl, rfl, rfl, rfl, rfl, rfl, rfl, rfl, fun _ _ => rfl, fun _ _ q => q⟩) fun _ =>
    forL _ fun _ _ => ⟨rfl, rfl, rfl, rfl, rfl, rfl, rfl, rfl, rfl, fun _ _ => rfl, fun _ _ q => q⟩
theorem liftE {α} (r : Except Err α) : Keeps Trims (liftE r) := by
  unfold ATG.liftE
  split
  · exact pure _
  · exact throw _

/-- initialising a group again: the new list of tiers is made of `l` -/
theorem groupInit_any {R : Heap → Heap → Prop} (hR : IsPre R) (sk : ∀ {α} {m : M α}, Keeps Skel m → Keeps R m) (g : GRef)
    (l : List TRef) (d : Bool) (sc : ∀ arr, Keeps R (ATG.setContainsGroup g arr)) (h : Heap)
    (put : ∀ arr b, arrange h l = .ok (arr, b) → ∀ k, R h k → R h { k with gtiers := upd k.gtiers g arr }) :
    R h (groupInit g l d h).heap := by
  unfold ATG.groupInit
  rw [show (M.get >>= _ : M Unit) h = _ from M.bind_ok (M.get_apply h)]
  cases e : arrange h l with
  | error x => exact hR.refl h
  | ok q =>
    obtain ⟨arr, b⟩ := q
    have key : ∀ (m : M Unit), Keeps R m → ∀ (rest : M Unit), Keeps R rest →
        R h ((do m; M.modify (fun h => { h with gtiers := upd h.gtiers g arr }); rest : M Unit) h).heap := by
      intro m hm rest hr
      have h1 := hm h
      rw [M.bind_apply]
      cases em : m h with
      | err x k => rw [em] at h1; exact h1
      | ok a k =>
        rw [em] at h1
        have h2 := put arr b e k h1
        show R h ((M.modify (fun h => { h with gtiers := upd h.gtiers g arr }) >>= fun _ => rest) k).heap
        rw [M.bind_ok (M.modify_apply _ _)]
        exact hR.trans _ _ _ h2 (hr _)
    exact key _ (Keeps.ite (sc _) (Keeps.pure hR _)) _ (Keeps.bind hR
      (Keeps.forL hR _ fun _ _ => Keeps.get_bind fun _ => Keeps.forL hR _ fun _ _ => sk (Skel.removeSuperset _)) fun _ =>
      sk (Skel.relateChain _ _))

theorem reRelate (g : GRef) : Keeps Trims (reRelate g) := by
  unfold ATG.reRelate
  apply Keeps.get_bind'
  intro h
  by_cases hp : h.gpoint g = true
  · rw [if_pos hp]
    unfold ATG.pointsGroupInit
    rw [M.bind_ok (M.modify_apply _ _)]
    have e : upd h.gtiers g (h.gtiers g) = h.gtiers := upd_eq_self _ _ _ rfl
    rw [show ({ h with gtiers := upd h.gtiers g (h.gtiers g) } : Heap) = h by rw [e]]
    exact setContainsGroup g _ h
  · rw [if_neg hp]
    refine groupInit_any pre of_skel g _ false (setContainsGroup g) h ?_
    intro arr b e k hk
    refine ⟨hk.ct, hk.tcls, hk.tname, hk.gpoint, hk.nG, hk.nT, hk.nA, hk.agroups, hk.acloned, ?_, ?_⟩
    · intro g' hg'
      have hne : g' ≠ g := fun q => hp (q ▸ hg')
      exact (upd_ne _ _ _ _ hne).trans (hk.points g' hg')
    · intro g' t ht
      by_cases q : g' = g
      · subst q
        simp only [upd_same] at ht
        exact arrange_sub e t ht
      · exact hk.sub g' t (by simpa [upd_ne _ _ _ _ q] using ht)

theorem tierFill (t : TRef) : ∀ l, Keeps Trims (tierFill t l)
  | [] => pure _
  | (_, _) :: l => Keeps.get_bind fun _ => bind (of_skel (Skel.newEntry _ _ _ _)) fun _ => Keeps.get_bind fun _ =>
      bind (of_skel (Skel.slAppend _ _)) fun _ => bind (of_skel (Skel.putSeq _ _)) fun _ => tierFill t l
theorem tierCleanupN (n : Nat) : ∀ t, Keeps Trims (tierCleanupN n t) := by
  induction n with
  | zero => intro t; exact throw _
  | succ n ih =>
    intro t
    unfold ATG.tierCleanupN
    refine Keeps.get_bind fun _ => Keeps.ite (pure _) (bind (tierFill _ _) fun _ => Keeps.get_bind fun _ =>
      bind (of_skel (Skel.isSubO _ _)) fun _ => ?_)
    split
    · exact reRelate _
    · exact pure _
    · exact bind (of_skel (Skel.siblingTier _ _ _)) fun _ => ih _
theorem tierCleanup (t : TRef) : Keeps Trims (tierCleanup t) := fun h => tierCleanupN _ t h
theorem projectUp (x : Ref) : Keeps Trims (projectUp x) := by
  unfold ATG.projectUp
  refine Keeps.get_bind fun _ => bind (of_skel (Skel.isSubO _ _)) fun _ => Keeps.ite (pure _) ?_
  split
  · exact throw _
  · split
    · exact throw _
    · refine bind (of_skel (Skel.siblingTier _ _ _)) fun _ => Keeps.get_bind fun _ => ?_
      dsimp only
      split
      · exact throw _
      · exact pure _
      · exact bind (of_skel (Skel.newEntry _ _ _ _)) fun _ => of_skel (Skel.tierAppendNR _ _)
theorem cleanupScan (g : GRef) (t : TRef) : Keeps Trims (cleanupScan g t) := by
  unfold ATG.cleanupScan
  exact Keeps.get_bind fun _ => Keeps.ite (pure _) (Keeps.ite
    (bind (forL _ fun _ => Keeps.get_bind fun _ => Keeps.ite (pure _) (projectUp _)) fun _ =>
      bind (reRelate _) fun _ => pure _) (pure _))
theorem cleanupScanAll (g : GRef) : ∀ l b, Keeps Trims (cleanupScanAll g l b)
  | [], _ => pure _
  | _ :: l, _ => bind (cleanupScan g _) fun _ => cleanupScanAll g l _
theorem groupCleanup (g : GRef) : Keeps Trims (groupCleanup g) := by
  unfold ATG.groupCleanup
  exact Keeps.get_bind fun _ => bind (cleanupScanAll _ _ _) fun _ => Keeps.ite
    (Keeps.get_bind fun _ => bind (forL _ fun _ => tierCleanup _) fun _ => reRelate _) (pure _)
theorem newBlanks (s e : Time) : ∀ l, Keeps Trims (newBlanks s e l)
  | [] => pure _
  | c :: l => by
    refine bind ?_ fun _ => bind (newBlanks s e l) fun _ => pure _
    unfold ATG.newBlank
    exact Keeps.get_bind fun _ => Keeps.ite (throw _) (of_skel (Skel.newEntry _ _ _ _))
theorem padGroup (g : GRef) (s e : Time) : Keeps Trims (padGroup g s e) := by
  unfold ATG.padGroup
  exact Keeps.get_bind fun _ => bind (newBlanks _ _ _) fun _ => forL _ fun _ => of_skel (Skel.tierAppendNR _ _)

/-- cleaning up keeps all this, whatever the textgrid is and also when it raises -/
theorem atgCleanup (a : ARef) : Keeps Trims (atgCleanup a) := by
  unfold ATG.atgCleanup
  refine Keeps.get_bind fun _ => bind (forL _ fun _ => Keeps.get_bind fun _ => Keeps.ite (pure _) (groupCleanup _)) fun _ =>
    Keeps.get_bind fun _ => bind (liftE _) fun _ => bind (liftE _) fun _ => ?_
  split
  · exact Keeps.ite (pure _) (bind
      (forL _ fun _ => Keeps.get_bind fun _ => bind (liftE _) fun _ => Keeps.ite (pure _) (padGroup _ _ _)) fun _ =>
      forL _ fun _ => Keeps.get_bind fun _ => bind (liftE _) fun _ => Keeps.ite (pure _) (padGroup _ _ _))
  · exact throw _
end Trims

end ATG
