import Verif.Lemmas.Skeleton
import Verif.Model.Textgrid
/-!
# What building tiers and groups leaves alone: the classes
-/
namespace ATG

/-- the class table is unchanged -/
def CtSame (h h' : Heap) : Prop := h'.ct = h.ct

theorem CtSame.pre : IsPre CtSame := ⟨fun _ => rfl, fun _ _ _ h1 h2 => h2.trans h1⟩
theorem Skel.ctSame {h h' : Heap} (e : Skel h h') : CtSame h h' := by
  unfold Skel at e; unfold CtSame; rw [e]

namespace CtSame
theorem of_skel {α} {m : M α} (hm : Keeps Skel m) : Keeps CtSame m := hm.mono fun _ _ => Skel.ctSame
theorem throw {α} (e : Err) : Keeps CtSame (M.throw e : M α) := Keeps.throw pre e
theorem pure {α} (a : α) : Keeps CtSame (Pure.pure a : M α) := Keeps.pure pre a
theorem bind {α β} {m : M α} {f : α → M β} (hm : Keeps CtSame m) (hf : ∀ a, Keeps CtSame (f a)) :
    Keeps CtSame (m >>= f) := Keeps.bind pre hm hf
theorem forL {α} (l : List α) {f : α → M Unit} (hf : ∀ a, Keeps CtSame (f a)) :
    Keeps CtSame (M.forL l f) := Keeps.forL pre l fun a _ => hf a
theorem modify {f : Heap → Heap} (hf : ∀ h, (f h).ct = h.ct) : Keeps CtSame (M.modify f) := hf

theorem newEntries (c : CRef) : ∀ l, Keeps CtSame (newEntries c l)
  | [] => pure _
  | (_, _, _) :: l => bind (of_skel (Skel.newEntry _ _ _ _)) fun _ => bind (newEntries c l) fun _ => pure _
theorem tierInit (t : TRef) (l : List Ref) (c : CRef) (n : String) : Keeps CtSame (tierInit t l c n) := by
  unfold ATG.tierInit
  exact bind (modify fun _ => rfl) fun _ => bind (of_skel (Skel.replaceSeq _ _)) fun _ =>
    bind (modify fun _ => rfl) fun _ => bind (forL _ fun _ => of_skel (Skel.castTo _ _)) fun _ =>
    bind (of_skel (Skel.slMk _)) fun _ => bind (of_skel (Skel.tierSetSeq _ _)) fun _ =>
    of_skel (Skel.tierPrecedence _)
theorem newTier (l : List Ref) (c : Option CRef) : Keeps CtSame (newTier l c) := by
  unfold ATG.newTier
  exact bind (fun _ => rfl) fun _ => Keeps.get_bind fun _ => bind (tierInit _ _ _ _) fun _ => pure _
theorem setContainsGroup (g : GRef) (l : List TRef) : Keeps CtSame (setContainsGroup g l) := by
  unfold ATG.setContainsGroup
  exact bind (modify fun _ => rfl) fun _ => forL _ fun _ => modify fun _ => rfl
theorem groupInit (g : GRef) (l : List TRef) (d : Bool) : Keeps CtSame (groupInit g l d) := by
  unfold ATG.groupInit
  apply Keeps.get_bind; intro h0
  split
  · exact throw _
  · exact bind (Keeps.ite (setContainsGroup _ _) (pure _)) fun _ => bind (modify fun _ => rfl) fun _ =>
      bind (forL _ fun _ => Keeps.get_bind fun _ => forL _ fun _ => of_skel (Skel.removeSuperset _)) fun _ =>
      of_skel (Skel.relateChain _ _)
theorem newGroup (l : List TRef) : Keeps CtSame (newGroup l) := by
  unfold ATG.newGroup
  exact bind (fun _ => rfl) fun _ => bind (groupInit _ _ _) fun _ => pure _
theorem refreshTier (t : TRef) : Keeps CtSame (refreshTier t) := modify fun _ => rfl
theorem interleaveGroup (g : GRef) (new : CRef) (down copy : Option CRef) (b : Bool) :
    Keeps CtSame (interleaveGroup g new down copy b) := by
  unfold ATG.interleaveGroup
  apply Keeps.get_bind; intro h0
  split
  · exact throw _
  · exact bind (newEntries _ _) fun _ => bind (newTier _ _) fun _ =>
      bind (Keeps.ite (pure _) (forL _ fun _ => modify fun _ => rfl)) fun _ => Keeps.get_bind fun _ =>
      bind (modify fun _ => rfl) fun _ => bind (forL _ fun _ => refreshTier _) fun _ => newGroup _
theorem interleaveGroups (s new : CRef) (down copy : Option CRef) (b : Bool) :
    ∀ gs, Keeps CtSame (interleaveGroups s new down copy b gs)
  | [] => pure _
  | _ :: gs => Keeps.get_bind fun _ => bind (Keeps.ite (interleaveGroup _ _ _ _ _) (pure _)) fun _ =>
      bind (interleaveGroups s new down copy b gs) fun _ => pure _
theorem setContainsA (a : ARef) : Keeps CtSame (setContainsA a) := by
  unfold ATG.setContainsA
  exact Keeps.get_bind fun _ => bind (modify fun _ => rfl) fun _ => forL _ fun _ => modify fun _ => rfl
theorem setGroups (a : ARef) (gs : List GRef) : Keeps CtSame (setGroups a gs) := by
  unfold ATG.setGroups
  split
  · exact pure _
  · exact bind (modify fun _ => rfl) fun _ => setContainsA a
end CtSame

/-- classes, the tiers' classes and the first `n` groups' tiers are unchanged -/
structure OldGroups (n : Nat) (h h' : Heap) : Prop where
  ct : h'.ct = h.ct
  tcls : h'.tcls = h.tcls
  gtiers : ∀ g, g < n → h'.gtiers g = h.gtiers g
  nG : h.nG ≤ h'.nG

namespace OldGroups
theorem refl (n : Nat) (h : Heap) : OldGroups n h h := ⟨rfl, rfl, fun _ _ => rfl, Nat.le_refl _⟩
theorem trans {n : Nat} {a b c : Heap} (h1 : OldGroups n a b) (h2 : OldGroups n b c) : OldGroups n a c :=
  ⟨h2.ct.trans h1.ct, h2.tcls.trans h1.tcls, fun g hg => (h2.gtiers g hg).trans (h1.gtiers g hg),
    Nat.le_trans h1.nG h2.nG⟩
theorem pre (n : Nat) : IsPre (OldGroups n) := ⟨refl n, fun _ _ _ => trans⟩
theorem of_skel {n : Nat} {α} {m : M α} (hm : Keeps Skel m) : Keeps (OldGroups n) m := hm.mono fun h h' e => by
  unfold Skel at e
  rw [e]
  exact ⟨rfl, rfl, fun _ _ => rfl, Nat.le_refl _⟩
theorem throw {n : Nat} {α} (e : Err) : Keeps (OldGroups n) (M.throw e : M α) := Keeps.throw (pre n) e
theorem pure {n : Nat} {α} (a : α) : Keeps (OldGroups n) (Pure.pure a : M α) := Keeps.pure (pre n) a
theorem bind {n : Nat} {α β} {m : M α} {f : α → M β} (hm : Keeps (OldGroups n) m)
    (hf : ∀ a, Keeps (OldGroups n) (f a)) : Keeps (OldGroups n) (m >>= f) := Keeps.bind (pre n) hm hf
theorem forL {n : Nat} {α} (l : List α) {f : α → M Unit} (hf : ∀ a, Keeps (OldGroups n) (f a)) :
    Keeps (OldGroups n) (M.forL l f) := Keeps.forL (pre n) l fun a _ => hf a
theorem modify {n : Nat} {f : Heap → Heap} (hf : ∀ h, (f h).ct = h.ct ∧ (f h).tcls = h.tcls ∧ (f h).gtiers = h.gtiers ∧
    (f h).nG = h.nG) : Keeps (OldGroups n) (M.modify f) := fun h =>
  ⟨(hf h).1, (hf h).2.1, fun _ _ => congrFun (hf h).2.2.1 _, Nat.le_of_eq (hf h).2.2.2.symm⟩

theorem groupInit {n : Nat} (g : GRef) (hg : n ≤ g) (l : List TRef) (d : Bool) :
    Keeps (OldGroups n) (groupInit g l d) := by
  unfold ATG.groupInit
  apply Keeps.get_bind; intro h0
  split
  · exact throw _
  · refine bind (Keeps.ite ?_ (pure _)) fun _ => bind ?_ fun _ =>
      bind (forL _ fun _ => Keeps.get_bind fun _ => forL _ fun _ => of_skel (Skel.removeSuperset _)) fun _ =>
      of_skel (Skel.relateChain _ _)
    · unfold ATG.setContainsGroup
      exact bind (modify fun _ => ⟨rfl, rfl, rfl, rfl⟩) fun _ => forL _ fun _ => modify fun _ => ⟨rfl, rfl, rfl, rfl⟩
    · exact fun h => ⟨rfl, rfl, fun g' hg' => upd_ne _ _ _ _ (Nat.ne_of_lt (Nat.lt_of_lt_of_le hg' hg)), Nat.le_refl _⟩

theorem newGroup {n : Nat} (l : List TRef) (h : Heap) (hn : n ≤ h.nG) : OldGroups n h (newGroup l h).heap := by
  unfold ATG.newGroup
  rw [M.bind_ok (show newGroupObj false h = .ok h.nG _ from rfl)]
  refine trans ?_ (bind (groupInit h.nG hn l false) (fun _ => pure _) _)
  exact ⟨rfl, rfl, fun g' hg' => upd_ne _ _ _ _ (Nat.ne_of_lt (Nat.lt_of_lt_of_le hg' hn)), Nat.le_succ _⟩

theorem refreshTier {n : Nat} (t : TRef) : Keeps (OldGroups n) (refreshTier t) :=
  modify fun _ => ⟨rfl, rfl, rfl, rfl⟩
end OldGroups

end ATG
