import Verif.Lemmas.Frame
import Verif.Model.Group
/-!
# Operations on entries leave the classes, the tiers' classes and the groups alone
-/
namespace ATG

/-- only entries and the tiers' lists may differ -/
def Skel (h h' : Heap) : Prop :=
  h' = { h with nE := h'.nE, cls := h'.cls, start := h'.start, stop := h'.stop, label := h'.label,
                fol := h'.fol, prev := h'.prev, subs := h'.subs, sup := h'.sup, intier := h'.intier,
                within := h'.within, cont := h'.cont, tseq := h'.tseq, tcont := h'.tcont }

theorem Skel.pre : IsPre Skel := by
  constructor
  · intro h; rfl
  · intro a b c h1 h2; unfold Skel at *; rw [h2, h1]

theorem LinkFrame.skel {h h' : Heap} (e : LinkFrame h h') : Skel h h' := by
  unfold LinkFrame Skel at *; rw [e]
theorem RemFrame.skel {h h' : Heap} (e : RemFrame h h') : Skel h h' := by
  unfold RemFrame Skel at *; rw [e]

namespace Skel

theorem of_modify {f : Heap → Heap} (hf : ∀ h, Skel h (f h)) : Keeps Skel (M.modify f) := hf
theorem throw {α} (e : Err) : Keeps Skel (M.throw e : M α) := Keeps.throw pre e
theorem pure {α} (a : α) : Keeps Skel (Pure.pure a : M α) := Keeps.pure pre a
theorem bind {α β} {m : M α} {f : α → M β} (hm : Keeps Skel m) (hf : ∀ a, Keeps Skel (f a)) :
    Keeps Skel (m >>= f) := Keeps.bind pre hm hf
theorem forL {α} (l : List α) {f : α → M Unit} (hf : ∀ a, Keeps Skel (f a)) :
    Keeps Skel (M.forL l f) := Keeps.forL pre l fun a _ => hf a

/-- decompose a program -/
macro "skel1" : tactic => `(tactic| first
  | with_reducible exact Skel.pure _
  | with_reducible exact Skel.throw _
  | with_reducible assumption
  | with_reducible apply Keeps.get_bind
  | with_reducible apply Skel.bind
  | with_reducible apply Skel.forL
  | with_reducible apply Keeps.ite
  | exact Skel.of_modify fun _ => rfl
  | intro _)
macro "skel" : tactic => `(tactic| repeat' skel1)

theorem castTo (c : CRef) (r : Ref) : Keeps Skel (castTo c r) := by
  intro h; unfold ATG.castTo; split <;> rfl
theorem newEntry (c : CRef) (s e : Time) (l : String) : Keeps Skel (newEntry c s e l) := by
  intro h; rfl
theorem isSubO (c : Option CRef) (d : CRef) : Keeps Skel (isSubO c d) := by
  intro h; unfold ATG.isSubO; cases c <;> rfl
theorem slMk (l : List Ref) : Keeps Skel (slMk l) := by
  intro h; unfold ATG.slMk
  cases l with
  | nil => rfl
  | cons x xs => simp only []; split <;> rfl
theorem removeSuperset (x : Ref) : Keeps Skel (removeSuperset x) :=
  (removeSuperset_frame x).mono fun _ _ => RemFrame.skel
theorem putSubs (w : Ref) (s : SL) : Keeps Skel (putSubs w s) := of_modify fun _ => rfl
theorem putSeq (w : TRef) (s : SL) : Keeps Skel (putSeq w s) := of_modify fun _ => rfl
theorem replaceSeq (w : TRef) (s : SL) : Keeps Skel (replaceSeq w s) := of_modify fun _ => rfl
theorem setPrecedence (l : List Ref) : Keeps Skel (setPrecedence l) :=
  (setPrecedence_frame l).mono fun _ _ => LinkFrame.skel
theorem setContainsSubs (w : Ref) : Keeps Skel (setContainsSubs w) := by
  unfold ATG.setContainsSubs; skel
theorem setContainsSeq (w : TRef) : Keeps Skel (setContainsSeq w) := by
  unfold ATG.setContainsSeq; skel
theorem tierPrecedence (t : TRef) : Keeps Skel (tierPrecedence t) := by
  unfold ATG.tierPrecedence
  apply Keeps.get_bind; intro h0
  refine bind (precLoop_frame pre (fun _ _ => LinkFrame.skel) _ (fun x => (show Keeps Skel (setIntier t x) from fun _ => rfl)) _ _) fun _ => ?_
  refine Keeps.ite (setContainsSeq t) (bind (isSubO _ _) fun _ => Keeps.ite (setContainsSeq t) (pure _))
theorem allInst (w : Ref) (l : List Ref) : Keeps Skel (allInst w l) := by
  unfold ATG.allInst
  apply Keeps.get_bind; intro h0
  cases l with
  | nil => exact pure _
  | cons x xs =>
    simp only []
    cases h0.ct.sub (h0.cls w) with
    | none => exact throw _
    | some c => exact pure _
theorem adoptAll (w : Ref) (l : List Ref) : Keeps Skel (adoptAll w l) := by
  unfold ATG.adoptAll
  refine forL _ fun x => Keeps.get_bind fun h0 => Keeps.ite (pure _) (bind (removeSuperset x) fun _ => ?_)
  exact of_modify fun _ => rfl
theorem setSubsetList (w : Ref) (l : List Ref) : Keeps Skel (setSubsetList w l) := by
  unfold ATG.setSubsetList
  refine bind (allInst w l) fun _ => Keeps.ite ?_ (throw _)
  exact bind (slMk l) fun _ => bind (putSubs _ _) fun _ => bind (adoptAll w l) fun _ =>
    bind (setContainsSubs w) fun _ => Keeps.get_bind fun _ => setPrecedence _
theorem setSubs (w : Ref) (l : List Ref) : Keeps Skel (setSubs w l) := by
  unfold ATG.setSubs
  exact Keeps.get_bind fun _ => bind (slMk l) fun _ => bind (setSubsetList _ _) fun _ =>
    forL _ fun _ => Keeps.get_bind fun _ => Keeps.ite (pure _) (removeSuperset _)
theorem slAdd {put : SL → M Unit} (hp : ∀ s, Keeps Skel (put s)) (a : SL) (b : List Ref) :
    Keeps Skel (slAdd put a b) := by
  unfold ATG.slAdd
  apply Keeps.get_bind; intro h0
  cases b.filter (fun x => !slContains h0 a.vals x) with
  | nil => exact pure _
  | cons x xs =>
    simp only []
    refine Keeps.ite (bind ?_ fun _ => bind (forL _ fun _ => Keeps.get_bind fun _ =>
      Keeps.ite (pure _) (castTo _ _)) fun _ => slMk _) (throw _)
    cases a.ecls with
    | none => exact bind (hp _) fun _ => pure _
    | some c => exact Keeps.ite (pure _) (throw _)
theorem slAppend (a : SL) (x : Ref) : Keeps Skel (slAppend a x) := by
  unfold ATG.slAppend
  apply Keeps.get_bind; intro h0
  refine Keeps.ite (pure _) (bind ?_ fun _ => bind (castTo _ _) fun _ => ?_)
  · cases a.ecls with
    | none => exact pure _
    | some c => exact Keeps.ite (pure _) (throw _)
  · exact Keeps.ite (pure _) (pure _)
theorem subsIAdd (w : Ref) (l : List Ref) : Keeps Skel (subsIAdd w l) := by
  unfold ATG.subsIAdd
  exact Keeps.get_bind fun _ => bind (slAdd (putSubs w) _ _) fun _ => setSubs _ _
theorem tierSetSeq (t : TRef) (s : SL) : Keeps Skel (tierSetSeq t s) := by
  unfold ATG.tierSetSeq
  exact Keeps.get_bind fun _ => Keeps.ite (replaceSeq _ _)
    (bind (slMk _) fun _ => bind (replaceSeq _ _) fun _ => tierPrecedence t)
theorem siblingTier (g : GRef) (t : TRef) (d : Int) : Keeps Skel (siblingTier g t d) := by
  unfold ATG.siblingTier
  apply Keeps.get_bind; intro h0
  split
  · exact throw _
  · exact throw _
  · split
    · exact throw _
    · exact pure _
theorem tierAppendN (n : Nat) : ∀ t x, Keeps Skel (tierAppendN n t x) := by
  induction n with
  | zero => intro t x; exact throw _
  | succ n ih =>
    intro t x
    unfold ATG.tierAppendN
    apply Keeps.get_bind; intro h0
    refine Keeps.ite (Keeps.ite (pure _) ?_) (throw _)
    refine bind (slAdd (putSeq t) _ _) fun sl => bind (tierSetSeq _ _) fun _ => Keeps.get_bind fun h1 =>
      bind (Keeps.ite ?_ (pure _)) fun _ => Keeps.get_bind fun h2 => ?_
    · split
      · exact pure _
      · exact forL _ fun _ => bind (siblingTier _ _ _) fun _ => ih _ _
    · split
      · exact pure _
      · refine Keeps.ite ?_ (pure _)
        split
        · exact pure _
        · exact bind (siblingTier _ _ _) fun _ => ih _ _
theorem tierAppendNR (t : TRef) (x : Ref) : Keeps Skel (tierAppendNR t x) := tierAppendN _ t x
theorem ivalAppend (w x : Ref) : Keeps Skel (ivalAppend w x) := by
  unfold ATG.ivalAppend
  refine Keeps.get_bind fun _ => bind (isSubO _ _) fun _ => Keeps.ite (bind (subsIAdd _ _) fun _ =>
    Keeps.get_bind fun h1 => ?_) (throw _)
  split
  · exact pure _
  · refine Keeps.ite ?_ (pure _)
    split
    · exact pure _
    · exact bind (siblingTier _ _ _) fun _ => tierAppendNR _ _
theorem buildToAdd (c : CRef) (l : List (Time × Time)) : ∀ acc, Keeps Skel (buildToAdd c l acc) := by
  induction l with
  | nil => intro acc; exact pure _
  | cons p l ih =>
    intro acc
    exact bind (newEntry _ _ _ _) fun _ => bind (slAdd (fun _ => pure _) _ _) fun _ => ih _
theorem ivalCleanupN (n : Nat) : ∀ w i, Keeps Skel (ivalCleanupN n w i) := by
  induction n with
  | zero => intro w i; exact throw _
  | succ n ih =>
    intro w i
    unfold ATG.ivalCleanupN
    refine Keeps.get_bind fun h0 => bind (isSubO _ _) fun _ => Keeps.ite (pure _) ?_
    split
    · exact throw _
    · refine Keeps.ite (bind (newEntry _ _ _ _) fun _ => bind (ivalAppend _ _) fun _ => ih _ _)
        (Keeps.ite (pure _) (bind (buildToAdd _ _ _) fun _ => forL _ fun _ => ivalAppend _ _))
theorem ivalCleanup (w : Ref) : Keeps Skel (ivalCleanup w) := ivalCleanupN _ w true
theorem mkSlices (l : List (List Ref)) : Keeps Skel (mkSlices l) := by
  induction l with
  | nil => exact pure _
  | cons x xs ih => exact bind (slMk x) fun _ => bind ih fun _ => pure _
theorem fillGaps (c : CRef) (l : List (Time × Time)) : ∀ acc, Keeps Skel (fillGaps c l acc) := by
  induction l with
  | nil => intro acc; exact pure _
  | cons p l ih =>
    intro acc
    exact bind (newEntry _ _ _ _) fun _ => bind (slAppend _ _) fun _ => ih _
theorem closeGaps (s : SL) : Keeps Skel (closeGaps s) := by
  unfold ATG.closeGaps
  apply Keeps.get_bind; intro h0
  cases s.vals with
  | nil => exact pure _
  | cons x xs => exact Keeps.ite (pure _) (fillGaps _ _ _)
theorem closeAllGaps (l : List SL) : Keeps Skel (closeAllGaps l) := by
  induction l with
  | nil => exact pure _
  | cons x xs ih => exact bind (closeGaps x) fun _ => bind ih fun _ => pure _
theorem relateOne (t : TRef) (a b c : Bool) (u : Ref) (l : SL) : Keeps Skel (relateOne t a b c u l) := by
  unfold ATG.relateOne
  refine bind (setSubsetList _ _) fun _ => Keeps.get_bind fun h0 => bind (Keeps.ite ?_ (pure _)) fun _ =>
    bind (Keeps.ite ?_ (pure _)) fun _ => Keeps.ite (ivalCleanup _) (pure _)
  · split
    · exact throw _
    · exact bind (newEntry _ _ _ _) fun _ => bind (ivalAppend _ _) fun _ => tierAppendNR _ _
  · apply Keeps.get_bind; intro h1
    split
    · exact throw _
    · exact bind (of_modify fun _ => rfl) fun _ => bind (of_modify fun _ => rfl) fun _ =>
        bind (of_modify fun _ => rfl) fun _ => of_modify fun _ => rfl
theorem relatePair (u l : TRef) (d : Bool) : Keeps Skel (relatePair u l d) := by
  unfold ATG.relatePair
  apply Keeps.get_bind; intro h0
  refine Keeps.ite (pure _) (bind (mkSlices _) fun _ => bind (closeAllGaps _) fun _ => Keeps.get_bind fun h1 =>
    forL _ fun _ => relateOne _ _ _ _ _ _)
theorem relateChain (d : Bool) : ∀ ts, Keeps Skel (relateChain d ts)
  | [] => pure _
  | [_] => pure _
  | _ :: b :: ts => bind (relatePair _ _ d) fun _ => relateChain d (b :: ts)

end Skel

end ATG
