import Verif.Lemmas.Frame
import Verif.Model.Compose
import Verif.Model.Sum
/-!
# What every operation keeps

A relation between heaps that is kept by the elementary steps (allocating, casting and linking entries, and
anything that leaves the entries' classes, times, labels and links alone) is kept by every operation made of
them, also when it raises.
-/
namespace ATG

/-- kept by the elementary steps that move no boundary -/
class Stable (R : Heap → Heap → Prop) : Prop where
  pre : IsPre R
  same : ∀ {h h' : Heap}, h'.nE = h.nE → h'.cls = h.cls → h'.start = h.start → h'.stop = h.stop →
    h'.label = h.label → h'.fol = h.fol → h'.prev = h.prev → R h h'
  entry : ∀ c s e l, Keeps R (newEntry c s e l)
  cast : ∀ c r, Keeps R (castTo c r)
  fol : ∀ (h : Heap) (x : Ref) (l : Link), l ≠ .obj x → h.label x ≠ "#" →
    (∀ y, l = .obj y → h.cls y = h.cls x) → R h { h with fol := upd h.fol x (some l) }
  prev : ∀ (h : Heap) (x : Ref) (l : Link), l ≠ .obj x → h.label x ≠ "#" →
    (∀ y, l = .obj y → h.cls y = h.cls x) → R h { h with prev := upd h.prev x (some l) }

/-- kept also by the adjustment of the boundaries of `u` and of its first and last parts `x`, `y` -/
class Snappable (R : Heap → Heap → Prop) : Prop extends Stable R where
  snap : ∀ (h : Heap) (u x y : Ref), R h { h with
    start := upd (upd h.start u (max (h.start u) (h.start x))) x (max (h.start u) (h.start x))
    stop := upd (upd h.stop u (min (h.stop u) (h.stop y))) y (min (h.stop u) (h.stop y)) }

namespace Prog
section
variable {R : Heap → Heap → Prop} [Stable R]

omit [Stable R] in
theorem of_modify {f : Heap → Heap} (hf : ∀ h, R h (f h)) : Keeps R (M.modify f) := hf
theorem throw {α} (e : Err) : Keeps R (M.throw e : M α) := Keeps.throw Stable.pre e
theorem pure {α} (a : α) : Keeps R (Pure.pure a : M α) := Keeps.pure Stable.pre a
theorem bind {α β} {m : M α} {f : α → M β} (hm : Keeps R m) (hf : ∀ a, Keeps R (f a)) :
    Keeps R (m >>= f) := Keeps.bind Stable.pre hm hf
theorem forL {α} (l : List α) {f : α → M Unit} (hf : ∀ a, Keeps R (f a)) :
    Keeps R (M.forL l f) := Keeps.forL Stable.pre l fun a _ => hf a

/-- decompose a program -/
macro "prog1" : tactic => `(tactic| first
  | with_reducible exact Prog.pure _
  | with_reducible exact Prog.throw _
  | with_reducible assumption
  | with_reducible apply Keeps.get_bind
  | with_reducible apply Prog.bind
  | with_reducible apply Prog.forL
  | with_reducible apply Keeps.ite
  | exact Prog.of_modify fun _ => Stable.same rfl rfl rfl rfl rfl rfl rfl
  | intro _)
macro "prog" : tactic => `(tactic| repeat' prog1)

theorem castTo (c : CRef) (r : Ref) : Keeps R (castTo c r) := Stable.cast c r
theorem newEntry (c : CRef) (s e : Time) (l : String) : Keeps R (newEntry c s e l) := Stable.entry c s e l
theorem isSubO (c : Option CRef) (d : CRef) : Keeps R (isSubO c d) := by
  intro h; unfold ATG.isSubO; cases c <;> exact Stable.same rfl rfl rfl rfl rfl rfl rfl
theorem slMk (l : List Ref) : Keeps R (slMk l) := by
  intro h; unfold ATG.slMk
  cases l with
  | nil => exact Stable.same rfl rfl rfl rfl rfl rfl rfl
  | cons x xs => simp only []; split <;> exact Stable.same rfl rfl rfl rfl rfl rfl rfl
theorem setFolPrev (n : Nat) : ∀ x l, Keeps R (setFolN n x l) ∧ Keeps R (setPrevN n x l) := by
  induction n with
  | zero => intro x l; exact ⟨throw _, throw _⟩
  | succ n ih =>
    intro x l
    constructor
    · unfold setFolN
      apply Keeps.get_bind'; intro h
      by_cases e : l = .obj x
      · rw [if_pos e]; exact Stable.pre.refl h
      rw [if_neg e]
      by_cases el : h.label x = "#"
      · rw [if_pos el]; exact Stable.pre.refl h
      rw [if_neg el]
      by_cases ef : h.fol x = some l
      · rw [if_pos ef]; exact Stable.pre.refl h
      rw [if_neg ef]
      cases l with
      | bumper => exact Stable.fol h x .bumper e el (fun y q => by cases q)
      | obj y =>
        dsimp only
        by_cases ec : h.cls y = h.cls x
        · rw [if_pos ec]
          exact Stable.pre.trans _ _ _ (Stable.fol h x (.obj y) e el (fun z q => by cases q; exact ec)) ((ih y (.obj x)).2 _)
        · rw [if_neg ec]; exact Stable.pre.refl h
    · unfold setPrevN
      apply Keeps.get_bind'; intro h
      by_cases e : l = .obj x
      · rw [if_pos e]; exact Stable.pre.refl h
      rw [if_neg e]
      by_cases el : h.label x = "#"
      · rw [if_pos el]; exact Stable.pre.refl h
      rw [if_neg el]
      by_cases ef : h.prev x = some l
      · rw [if_pos ef]; exact Stable.pre.refl h
      rw [if_neg ef]
      cases l with
      | bumper => exact Stable.prev h x .bumper e el (fun y q => by cases q)
      | obj y =>
        dsimp only
        by_cases ec : h.cls y = h.cls x
        · rw [if_pos ec]
          exact Stable.pre.trans _ _ _ (Stable.prev h x (.obj y) e el (fun z q => by cases q; exact ec)) ((ih y (.obj x)).1 _)
        · rw [if_neg ec]; exact Stable.pre.refl h
theorem setFol (x : Ref) (l : Link) : Keeps R (setFol x l) := (setFolPrev _ x l).1
theorem setPrev (x : Ref) (l : Link) : Keeps R (setPrev x l) := (setFolPrev _ x l).2
theorem setFinal (x : Ref) : Keeps R (setFinal x) := setFol x _
theorem setInitial (x : Ref) : Keeps R (setInitial x) := setPrev x _
theorem precLoop {pre : Ref → M Unit} (hpre : ∀ x, Keeps R (pre x)) :
    ∀ (l : List Ref) (p : Option Ref), Keeps R (precLoop pre p l)
  | [], _ => pure _
  | x :: rest, p => by
    unfold ATG.precLoop
    refine bind (hpre x) fun _ => bind ?_ fun _ => bind ?_ fun _ => precLoop hpre rest _
    · cases p with
      | none => exact setInitial _
      | some q => exact setPrev _ _
    · cases rest with
      | nil => exact setFinal _
      | cons y ys => exact setFol _ _
theorem setPrecedence (l : List Ref) : Keeps R (setPrecedence l) := precLoop (fun _ => pure _) l none
theorem putSubs (w : Ref) (s : SL) : Keeps R (putSubs w s) := of_modify fun _ => Stable.same rfl rfl rfl rfl rfl rfl rfl
theorem removeN (n : Nat) : (∀ x, Keeps R (removeSupersetN n x)) ∧ (∀ w x, Keeps R (removeFromSubsetN n w x)) := by
  induction n with
  | zero => exact ⟨fun x => throw _, fun w x => throw _⟩
  | succ n ih =>
    constructor
    · intro x
      unfold removeSupersetN
      apply Keeps.get_bind; intro h0
      split
      · exact pure _
      · exact bind (Keeps.ite (ih.2 _ x) (pure _)) fun _ => of_modify fun _ => Stable.same rfl rfl rfl rfl rfl rfl rfl
    · intro w x
      unfold removeFromSubsetN
      apply Keeps.get_bind; intro h0
      refine Keeps.ite ?_ (pure _)
      split
      · exact throw _
      · exact bind (putSubs _ _) fun _ => bind (ih.1 x) fun _ => bind (of_modify fun _ => Stable.same rfl rfl rfl rfl rfl rfl rfl) fun _ =>
          Keeps.get_bind fun h1 => setPrecedence _
theorem removeSuperset (x : Ref) : Keeps R (removeSuperset x) := by
  intro h; unfold ATG.removeSuperset; exact (removeN _).1 x h
theorem removeFromSubset (w x : Ref) : Keeps R (removeFromSubset w x) := by
  intro h; unfold ATG.removeFromSubset; exact (removeN _).2 w x h
theorem putSeq (w : TRef) (s : SL) : Keeps R (putSeq w s) := of_modify fun _ => Stable.same rfl rfl rfl rfl rfl rfl rfl
theorem replaceSeq (w : TRef) (s : SL) : Keeps R (replaceSeq w s) := of_modify fun _ => Stable.same rfl rfl rfl rfl rfl rfl rfl
theorem setContainsSubs (w : Ref) : Keeps R (setContainsSubs w) := by
  unfold ATG.setContainsSubs; prog
theorem setContainsSeq (w : TRef) : Keeps R (setContainsSeq w) := by
  unfold ATG.setContainsSeq; prog
theorem tierPrecedence (t : TRef) : Keeps R (tierPrecedence t) := by
  unfold ATG.tierPrecedence
  apply Keeps.get_bind; intro h0
  refine bind (precLoop (fun x => (show Keeps R (setIntier t x) from fun _ => Stable.same rfl rfl rfl rfl rfl rfl rfl)) _ _) fun _ => ?_
  refine Keeps.ite (setContainsSeq t) (bind (isSubO _ _) fun _ => Keeps.ite (setContainsSeq t) (pure _))
theorem allInst (w : Ref) (l : List Ref) : Keeps R (allInst w l) := by
  unfold ATG.allInst
  apply Keeps.get_bind; intro h0
  cases l with
  | nil => exact pure _
  | cons x xs =>
    simp only []
    cases h0.ct.sub (h0.cls w) with
    | none => exact throw _
    | some c => exact pure _
theorem adoptAll (w : Ref) (l : List Ref) : Keeps R (adoptAll w l) := by
  unfold ATG.adoptAll
  refine forL _ fun x => Keeps.get_bind fun h0 => Keeps.ite (pure _) (bind (removeSuperset x) fun _ => ?_)
  exact of_modify fun _ => Stable.same rfl rfl rfl rfl rfl rfl rfl
theorem setSubsetList (w : Ref) (l : List Ref) : Keeps R (setSubsetList w l) := by
  unfold ATG.setSubsetList
  refine bind (allInst w l) fun _ => Keeps.ite ?_ (throw _)
  exact bind (slMk l) fun _ => bind (putSubs _ _) fun _ => bind (adoptAll w l) fun _ =>
    bind (setContainsSubs w) fun _ => Keeps.get_bind fun _ => setPrecedence _
theorem setSubs (w : Ref) (l : List Ref) : Keeps R (setSubs w l) := by
  unfold ATG.setSubs
  exact Keeps.get_bind fun _ => bind (slMk l) fun _ => bind (setSubsetList _ _) fun _ =>
    forL _ fun _ => Keeps.get_bind fun _ => Keeps.ite (pure _) (removeSuperset _)
theorem slAdd {put : SL → M Unit} (hp : ∀ s, Keeps R (put s)) (a : SL) (b : List Ref) :
    Keeps R (slAdd put a b) := by
  unfold ATG.slAdd
  apply Keeps.get_bind; intro h0
  cases b.filter (fun x => !slContains h0 a.vals x) with
  | nil => exact pure _
  | cons x xs =>
    simp only []
    refine Keeps.ite (bind ?_ fun _ => bind (forL _ fun _ => Keeps.get_bind fun _ =>
      Keeps.ite (pure _) (castTo _ _)) fun _ => slMk _) (throw _)
    cases a.ecls with
    | none => exact bind (hp _) fun _ => pure _
    | some c => exact Keeps.ite (pure _) (throw _)
theorem slAppend (a : SL) (x : Ref) : Keeps R (slAppend a x) := by
  unfold ATG.slAppend
  apply Keeps.get_bind; intro h0
  refine Keeps.ite (pure _) (bind ?_ fun _ => bind (castTo _ _) fun _ => ?_)
  · cases a.ecls with
    | none => exact pure _
    | some c => exact Keeps.ite (pure _) (throw _)
  · exact Keeps.ite (pure _) (pure _)
theorem subsIAdd (w : Ref) (l : List Ref) : Keeps R (subsIAdd w l) := by
  unfold ATG.subsIAdd
  exact Keeps.get_bind fun _ => bind (slAdd (putSubs w) _ _) fun _ => setSubs _ _
theorem subsIAddCopy (w x : Ref) : Keeps R (subsIAddCopy w x) := by
  unfold ATG.subsIAddCopy
  refine Keeps.get_bind fun _ => bind (slAdd (putSubs w) _ _) fun _ => ?_
  unfold ATG.setSubsCopy
  refine Keeps.get_bind fun _ => bind (slMk _) fun _ => bind ?_ fun _ =>
    forL _ fun _ => Keeps.get_bind fun _ => Keeps.ite (pure _) (removeSuperset _)
  unfold ATG.setSubsetListCopy
  refine bind (allInst w _) fun _ => Keeps.ite ?_ (throw _)
  refine bind (slMk _) fun _ => bind (putSubs _ _) fun _ => bind ?_ fun _ =>
    bind (setContainsSubs w) fun _ => Keeps.get_bind fun _ => setPrecedence _
  unfold ATG.adoptCopy
  exact forL _ fun x => bind (removeSuperset x) fun _ =>
    of_modify fun _ => Stable.same rfl rfl rfl rfl rfl rfl rfl
theorem ivalAdd (a b : Ref) : Keeps R (ivalAdd a b) := by
  unfold ATG.ivalAdd
  apply Keeps.get_bind; intro h0
  split
  · exact throw _
  · refine Keeps.ite (bind (subsIAddCopy _ _) fun _ => pure _) ?_
    split
    · exact throw _
    · exact Keeps.ite (bind (subsIAdd _ _) fun _ => pure _) (throw _)
theorem tierSetSeq (t : TRef) (s : SL) : Keeps R (tierSetSeq t s) := by
  unfold ATG.tierSetSeq
  exact Keeps.get_bind fun _ => Keeps.ite (replaceSeq _ _)
    (bind (slMk _) fun _ => bind (replaceSeq _ _) fun _ => tierPrecedence t)
theorem siblingTier (g : GRef) (t : TRef) (d : Int) : Keeps R (siblingTier g t d) := by
  unfold ATG.siblingTier
  apply Keeps.get_bind; intro h0
  split
  · exact throw _
  · exact throw _
  · split
    · exact throw _
    · exact pure _
theorem tierAppendN (n : Nat) : ∀ t x, Keeps R (tierAppendN n t x) := by
  induction n with
  | zero => intro t x; exact throw _
  | succ n ih =>
    intro t x
    unfold ATG.tierAppendN
    apply Keeps.get_bind; intro h0
    refine Keeps.ite (Keeps.ite (pure _) ?_) (throw _)
    refine bind (slAdd (putSeq t) _ _) fun sl => bind (tierSetSeq _ _) fun _ => Keeps.get_bind fun h1 =>
      bind (Keeps.ite ?_ (pure _)) fun _ => Keeps.get_bind fun h2 => ?_
    · split
      · exact pure _
      · exact forL _ fun _ => bind (siblingTier _ _ _) fun _ => ih _ _
    · split
      · exact pure _
      · refine Keeps.ite ?_ (pure _)
        split
        · exact pure _
        · exact bind (siblingTier _ _ _) fun _ => ih _ _
theorem tierAppendNR (t : TRef) (x : Ref) : Keeps R (tierAppendNR t x) := tierAppendN _ t x
theorem ivalAppend (w x : Ref) : Keeps R (ivalAppend w x) := by
  unfold ATG.ivalAppend
  refine Keeps.get_bind fun _ => bind (isSubO _ _) fun _ => Keeps.ite (bind (subsIAdd _ _) fun _ =>
    Keeps.get_bind fun h1 => ?_) (throw _)
  split
  · exact pure _
  · refine Keeps.ite ?_ (pure _)
    split
    · exact pure _
    · exact bind (siblingTier _ _ _) fun _ => tierAppendNR _ _
theorem buildToAdd (c : CRef) (l : List (Time × Time)) : ∀ acc, Keeps R (buildToAdd c l acc) := by
  induction l with
  | nil => intro acc; exact pure _
  | cons p l ih =>
    intro acc
    exact bind (newEntry _ _ _ _) fun _ => bind (slAdd (fun _ => pure _) _ _) fun _ => ih _
theorem ivalCleanupN (n : Nat) : ∀ w i, Keeps R (ivalCleanupN n w i) := by
  induction n with
  | zero => intro w i; exact throw _
  | succ n ih =>
    intro w i
    unfold ATG.ivalCleanupN
    refine Keeps.get_bind fun h0 => bind (isSubO _ _) fun _ => Keeps.ite (pure _) ?_
    split
    · exact throw _
    · refine Keeps.ite (bind (newEntry _ _ _ _) fun _ => bind (ivalAppend _ _) fun _ => ih _ _)
        (Keeps.ite (pure _) (bind (buildToAdd _ _ _) fun _ => forL _ fun _ => ivalAppend _ _))
theorem ivalCleanup (w : Ref) : Keeps R (ivalCleanup w) := ivalCleanupN _ w true
theorem mkSlices (l : List (List Ref)) : Keeps R (mkSlices l) := by
  induction l with
  | nil => exact pure _
  | cons x xs ih => exact bind (slMk x) fun _ => bind ih fun _ => pure _
theorem fillGaps (c : CRef) (l : List (Time × Time)) : ∀ acc, Keeps R (fillGaps c l acc) := by
  induction l with
  | nil => intro acc; exact pure _
  | cons p l ih =>
    intro acc
    exact bind (newEntry _ _ _ _) fun _ => bind (slAppend _ _) fun _ => ih _
theorem closeGaps (s : SL) : Keeps R (closeGaps s) := by
  unfold ATG.closeGaps
  apply Keeps.get_bind; intro h0
  cases s.vals with
  | nil => exact pure _
  | cons x xs => exact Keeps.ite (pure _) (fillGaps _ _ _)
theorem closeAllGaps (l : List SL) : Keeps R (closeAllGaps l) := by
  induction l with
  | nil => exact pure _
  | cons x xs ih => exact bind (closeGaps x) fun _ => bind ih fun _ => pure _
theorem slRemoveAt (get : Heap → SL) {put : SL → M Unit} (hp : ∀ s, Keeps R (put s)) (x : Ref) :
    Keeps R (slRemoveAt get put x) := by
  unfold ATG.slRemoveAt
  apply Keeps.get_bind; intro h0
  split
  · exact throw _
  · exact bind (hp _) fun _ => removeSuperset _
theorem ivalPop (w x : Ref) : Keeps R (ivalPop w x) := by
  unfold ATG.ivalPop
  exact Keeps.get_bind fun _ => bind (Keeps.ite (slRemoveAt _ (putSubs w) _) (pure _)) fun _ =>
    Keeps.get_bind fun _ => setPrecedence _
theorem isInst (x : Ref) (c : Option CRef) : Keeps R (isInst x c) := by
  unfold ATG.isInst
  apply Keeps.get_bind; intro h0
  split
  · exact throw _
  · exact pure _
theorem adoptLive (w v : Ref) (n : Nat) : ∀ i, Keeps R (adoptLive w v n i) := by
  induction n with
  | zero => intro i; exact pure _
  | succ n ih =>
    intro i
    unfold ATG.adoptLive
    apply Keeps.get_bind; intro h0
    split
    · exact pure _
    · exact bind (Keeps.ite (pure _) (bind (removeSuperset _) fun _ => of_modify fun _ => Stable.same rfl rfl rfl rfl rfl rfl rfl))
        fun _ => ih _
theorem setSubsetListLive (w v : Ref) : Keeps R (setSubsetListLive w v) := by
  unfold ATG.setSubsetListLive
  refine Keeps.get_bind fun _ => bind (allInst _ _) fun _ => Keeps.ite ?_ (throw _)
  exact bind (slMk _) fun _ => bind (putSubs _ _) fun _ => bind (adoptLive _ _ _ _) fun _ =>
    bind (setContainsSubs w) fun _ => Keeps.get_bind fun _ => setPrecedence _
theorem superAppend (n : Nat) : (∀ x s, Keeps R (setSuperN n x s)) ∧ ∀ w x, Keeps R (appendSubsetN n w x) := by
  induction n with
  | zero => exact ⟨fun _ _ => throw _, fun _ _ => throw _⟩
  | succ n ih =>
    constructor
    · intro x s
      unfold setSuperN
      exact Keeps.get_bind fun _ => bind (isInst _ _) fun _ => Keeps.ite
        (bind (of_modify fun _ => Stable.same rfl rfl rfl rfl rfl rfl rfl) fun _ => ih.2 _ _) (throw _)
    · intro w x
      unfold appendSubsetN
      refine Keeps.get_bind fun h0 => bind (isInst _ _) fun _ => Keeps.ite (Keeps.ite (pure _) (bind ?_ fun _ =>
        Keeps.get_bind fun _ => bind (slAppend _ _) fun _ => bind (putSubs _ _) fun _ => Keeps.get_bind fun _ =>
        bind (setPrecedence _) fun _ => Keeps.get_bind fun _ => Keeps.ite (pure _) (ih.1 _ _))) (throw _)
      split
      · exact pure _
      · exact Keeps.ite (removeSuperset _) (pure _)
theorem setSuper (x s : Ref) : Keeps R (setSuper x s) := (superAppend 4).1 x s
theorem appendSubset (w x : Ref) : Keeps R (appendSubset w x) := (superAppend 4).2 w x
theorem tierPop (t : TRef) (x : Ref) : Keeps R (tierPop t x) := by
  unfold ATG.tierPop
  exact Keeps.get_bind fun _ => Keeps.ite (bind (slRemoveAt _ (putSeq t) _) fun _ =>
    Keeps.ite (tierPrecedence t) (pure _)) (throw _)
theorem newEntries (c : CRef) : ∀ l, Keeps R (newEntries c l)
  | [] => pure _
  | (_, _, _) :: l => bind (newEntry _ _ _ _) fun _ => bind (newEntries c l) fun _ => pure _
theorem tierInit (t : TRef) (l : List Ref) (c : CRef) (n : String) : Keeps R (tierInit t l c n) := by
  unfold ATG.tierInit
  exact bind (of_modify fun _ => Stable.same rfl rfl rfl rfl rfl rfl rfl) fun _ => bind (replaceSeq _ _) fun _ =>
    bind (of_modify fun _ => Stable.same rfl rfl rfl rfl rfl rfl rfl) fun _ => bind (forL _ fun _ => castTo _ _) fun _ =>
    bind (slMk _) fun _ => bind (tierSetSeq _ _) fun _ => tierPrecedence _
theorem newTierObj : Keeps R newTierObj := fun _ => Stable.same rfl rfl rfl rfl rfl rfl rfl
theorem newTier (l : List Ref) (c : Option CRef) : Keeps R (newTier l c) := by
  unfold ATG.newTier
  exact bind newTierObj fun _ => Keeps.get_bind fun _ => bind (tierInit _ _ _ _) fun _ => pure _
theorem newTierFrom (l : List (Time × Time × String)) (c : CRef) (n : String) : Keeps R (newTierFrom l c n) := by
  unfold ATG.newTierFrom
  exact bind newTierObj fun _ => bind (newEntries _ _) fun _ => bind (tierInit _ _ _ _) fun _ => pure _
theorem pointTierInit (t : TRef) (l : List Ref) (c : CRef) (n : String) : Keeps R (pointTierInit t l c n) := by
  unfold ATG.pointTierInit
  refine bind (of_modify fun _ => Stable.same rfl rfl rfl rfl rfl rfl rfl) fun _ => Keeps.get_bind fun _ => Keeps.ite
    (bind (replaceSeq _ _) fun _ => bind (forL _ fun _ => bind (castTo _ _) fun _ => Keeps.get_bind fun _ =>
      bind (slAppend _ _) fun _ => putSeq _ _) fun _ => tierPrecedence _) (throw _)
theorem newPointTier (l : List Ref) (c : CRef) (n : String) : Keeps R (newPointTier l c n) := by
  unfold ATG.newPointTier
  exact bind newTierObj fun _ => bind (pointTierInit _ _ _ _) fun _ => pure _
theorem tierAdd (t u : TRef) : Keeps R (tierAdd t u) := by
  unfold ATG.tierAdd
  exact Keeps.get_bind fun _ => Keeps.ite (throw _) (Keeps.ite (bind (slAdd (putSeq t) _ _) fun _ => Keeps.ite
    (Keeps.get_bind fun _ => newPointTier _ _ _) (newTier _ _)) (throw _))
theorem addTiers : ∀ l, Keeps R (addTiers l)
  | [] => pure _
  | _ :: l => bind (tierAdd _ _) fun _ => bind (addTiers l) fun _ => pure _
theorem tierReclass (t : TRef) (c : CRef) : Keeps R (tierReclass t c) := by
  unfold ATG.tierReclass
  exact Keeps.get_bind fun _ => tierInit _ _ _ _
theorem pointTierReclass (t : TRef) (c : CRef) (l : List Ref) : Keeps R (pointTierReclass t c l) := by
  unfold ATG.pointTierReclass
  exact Keeps.get_bind fun _ => pointTierInit _ _ _ _
theorem tierFill (t : TRef) : ∀ l, Keeps R (tierFill t l)
  | [] => pure _
  | (_, _) :: l => Keeps.get_bind fun _ => bind (newEntry _ _ _ _) fun _ => Keeps.get_bind fun _ =>
      bind (slAppend _ _) fun _ => bind (putSeq _ _) fun _ => tierFill t l
theorem projectUp (x : Ref) : Keeps R (projectUp x) := by
  unfold ATG.projectUp
  refine Keeps.get_bind fun _ => bind (isSubO _ _) fun _ => Keeps.ite (pure _) ?_
  split
  · exact throw _
  · split
    · exact throw _
    · refine bind (siblingTier _ _ _) fun _ => Keeps.get_bind fun _ => ?_
      dsimp only
      split
      · exact throw _
      · exact pure _
      · exact bind (newEntry _ _ _ _) fun _ => tierAppendNR _ _
theorem setContainsGroup (g : GRef) (l : List TRef) : Keeps R (setContainsGroup g l) := by
  unfold ATG.setContainsGroup
  exact bind (of_modify fun _ => Stable.same rfl rfl rfl rfl rfl rfl rfl) fun _ => forL _ fun _ => of_modify fun _ => Stable.same rfl rfl rfl rfl rfl rfl rfl
theorem pointsGroupInit (g : GRef) (l : List TRef) : Keeps R (pointsGroupInit g l) := by
  unfold ATG.pointsGroupInit
  exact bind (of_modify fun _ => Stable.same rfl rfl rfl rfl rfl rfl rfl) fun _ => setContainsGroup _ _
theorem newGroupObj (b : Bool) : Keeps R (newGroupObj b) := fun _ => Stable.same rfl rfl rfl rfl rfl rfl rfl
theorem newPointsGroup (l : List TRef) : Keeps R (newPointsGroup l) := by
  unfold ATG.newPointsGroup
  exact bind (newGroupObj _) fun _ => bind (pointsGroupInit _ _) fun _ => pure _
/-- without mismatch, or with the cleanup delayed, relating moves no boundary -/
theorem relateOneDelayed (t : TRef) (a b c : Bool) (hc : (a && !c) = false) (u : Ref) (l : SL) :
    Keeps R (relateOne t a b c u l) := by
  unfold ATG.relateOne
  rw [hc]
  refine bind (setSubsetList _ _) fun _ => Keeps.get_bind fun h0 => bind (Keeps.ite ?_ (pure _)) fun _ =>
    bind (pure _) fun _ => Keeps.ite (ivalCleanup _) (pure _)
  split
  · exact throw _
  · exact bind (newEntry _ _ _ _) fun _ => bind (ivalAppend _ _) fun _ => tierAppendNR _ _
theorem relatePairDelayed (u l : TRef) : Keeps R (relatePair u l true) := by
  unfold ATG.relatePair
  apply Keeps.get_bind; intro h0
  refine Keeps.ite (pure _) (bind (mkSlices _) fun _ => bind (closeAllGaps _) fun _ => Keeps.get_bind fun h1 =>
    forL _ fun _ => relateOneDelayed _ _ _ _ (by simp) _ _)
theorem relateChainDelayed : ∀ ts, Keeps R (relateChain true ts)
  | [] => pure _
  | [_] => pure _
  | _ :: b :: ts => bind (relatePairDelayed _ _) fun _ => relateChainDelayed (b :: ts)
theorem groupInitDelayed (g : GRef) (l : List TRef) : Keeps R (groupInit g l true) := by
  unfold ATG.groupInit
  apply Keeps.get_bind; intro h0
  split
  · exact throw _
  · exact bind (Keeps.ite (setContainsGroup _ _) (pure _)) fun _ => bind (of_modify fun _ => Stable.same rfl rfl rfl rfl rfl rfl rfl) fun _ =>
      bind (forL _ fun _ => Keeps.get_bind fun _ => forL _ fun _ => removeSuperset _) fun _ => relateChainDelayed _
theorem liftC {α} (f : ClassTab → CRes α) : Keeps R (liftC f) := by
  intro h; unfold ATG.liftC
  cases f h.ct with
  | mk ct r => cases r <;> exact Stable.same rfl rfl rfl rfl rfl rfl rfl
theorem liftE {α} (r : Except Err α) : Keeps R (liftE r) := by
  cases r with
  | ok a => exact pure _
  | error e => exact throw _
theorem recloneA (a : ARef) (cs : List CRef) : Keeps R (recloneA a cs) := by
  unfold ATG.recloneA
  exact Keeps.get_bind fun _ => bind (liftC _) fun _ => of_modify fun _ => Stable.same rfl rfl rfl rfl rfl rfl rfl
theorem buildTiers : ∀ l, Keeps R (buildTiers l)
  | [] => pure _
  | ((_, _), _) :: l => Keeps.get_bind fun _ => Keeps.ite
      (Keeps.ite (bind (newEntries _ _) fun _ => bind (newPointTier _ _ _) fun _ => bind (buildTiers l) fun _ => pure _) (throw _))
      (Keeps.ite (bind (newTierFrom _ _ _) fun _ => bind (buildTiers l) fun _ => pure _) (throw _))
theorem setContainsA (a : ARef) : Keeps R (setContainsA a) := by
  unfold ATG.setContainsA
  exact Keeps.get_bind fun _ => bind (of_modify fun _ => Stable.same rfl rfl rfl rfl rfl rfl rfl) fun _ =>
    forL _ fun _ => of_modify fun _ => Stable.same rfl rfl rfl rfl rfl rfl rfl
theorem setGroups (a : ARef) (gs : List GRef) : Keeps R (setGroups a gs) := by
  unfold ATG.setGroups
  split
  · exact pure _
  · exact bind (of_modify fun _ => Stable.same rfl rfl rfl rfl rfl rfl rfl) fun _ => setContainsA a
theorem newBlanks (s e : Time) : ∀ l, Keeps R (newBlanks s e l)
  | [] => pure _
  | _ :: l => bind (Keeps.get_bind fun _ => Keeps.ite (throw _) (newEntry _ _ _ _)) fun _ =>
      bind (newBlanks s e l) fun _ => pure _
theorem padGroup (g : GRef) (s e : Time) : Keeps R (padGroup g s e) := by
  unfold ATG.padGroup
  exact Keeps.get_bind fun _ => bind (newBlanks _ _ _) fun _ => forL _ fun _ => tierAppendNR _ _
theorem refreshTier (t : TRef) : Keeps R (refreshTier t) := of_modify fun _ => Stable.same rfl rfl rfl rfl rfl rfl rfl
end

section
variable {R : Heap → Heap → Prop} [Snappable R]

theorem relateOne (t : TRef) (a b c : Bool) (u : Ref) (l : SL) : Keeps R (relateOne t a b c u l) := by
  unfold ATG.relateOne
  refine bind ((setSubsetList _ _)) fun _ => Keeps.get_bind fun h0 =>
    bind (Keeps.ite ?_ (pure _)) fun _ =>
    bind (Keeps.ite ?_ (pure _)) fun _ => Keeps.ite ((ivalCleanup _)) (pure _)
  · split
    · exact throw _
    · exact bind ((newEntry _ _ _ _)) fun _ => bind ((ivalAppend _ _)) fun _ =>
        (tierAppendNR _ _)
  · apply Keeps.get_bind'
    intro h
    generalize hv : (h.subs u).vals = v
    cases v with
    | nil => exact Stable.pre.refl h
    | cons x xs => exact Snappable.snap h u x ((x :: xs).getLast (List.cons_ne_nil x xs))
theorem relatePair (u l : TRef) (d : Bool) : Keeps R (relatePair u l d) := by
  unfold ATG.relatePair
  apply Keeps.get_bind; intro h0
  refine Keeps.ite (pure _) (bind ((mkSlices _)) fun _ => bind ((closeAllGaps _)) fun _ =>
    Keeps.get_bind fun h1 => forL _ fun _ => relateOne _ _ _ _ _ _)
theorem relateChain (d : Bool) : ∀ ts, Keeps R (relateChain d ts)
  | [] => pure _
  | [_] => pure _
  | _ :: b :: ts => bind (relatePair _ _ d) fun _ => relateChain d (b :: ts)
theorem groupInit (g : GRef) (l : List TRef) (d : Bool) : Keeps R (groupInit g l d) := by
  unfold ATG.groupInit
  apply Keeps.get_bind; intro h0
  split
  · exact throw _
  · exact bind (Keeps.ite ((setContainsGroup _ _)) (pure _)) fun _ =>
      bind ((of_modify fun _ => Stable.same rfl rfl rfl rfl rfl rfl rfl)) fun _ =>
      bind (forL _ fun _ => Keeps.get_bind fun _ => forL _ fun _ => (removeSuperset _)) fun _ =>
      relateChain _ _
theorem newGroup (l : List TRef) : Keeps R (newGroup l) := by
  unfold ATG.newGroup
  exact bind ((newGroupObj _)) fun _ => bind (groupInit _ _ _) fun _ => pure _
theorem reRelate (g : GRef) : Keeps R (reRelate g) := by
  unfold ATG.reRelate
  exact Keeps.get_bind fun _ => Keeps.ite ((pointsGroupInit _ _)) (groupInit _ _ _)
theorem groupAdd (g g' : GRef) : Keeps R (groupAdd g g') := by
  unfold ATG.groupAdd
  exact Keeps.get_bind fun _ => Keeps.ite (bind (addTiers _) fun _ => Keeps.ite (newPointsGroup _) (newGroup _)) (throw _)
theorem groupAppend (g : GRef) (t : TRef) (l : List Ref) : Keeps R (groupAppend g t l) := by
  unfold ATG.groupAppend
  refine Keeps.get_bind fun h => Keeps.ite (throw _) (bind ?_ fun _ => Keeps.get_bind fun _ => bind (liftE _) fun _ =>
    bind (of_modify fun _ => Stable.same rfl rfl rfl rfl rfl rfl rfl) fun _ => Keeps.ite (pointsGroupInit _ _) (groupInit _ _ _))
  cases ATG.textgridOf h g with
  | none => exact pure _
  | some a =>
    refine bind (recloneA _ _) fun _ => Keeps.get_bind fun _ => bind (liftE _) fun cs => ?_
    split
    · exact Keeps.ite (pointTierReclass _ _ _) (tierReclass _ _)
    · exact throw _
theorem tierAppend (t : TRef) (x : Ref) : Keeps R (tierAppend t x) := by
  unfold ATG.tierAppend
  refine Keeps.get_bind fun _ => bind ((tierAppendNR _ _)) fun _ => Keeps.ite (pure _)
    (Keeps.get_bind fun _ => ?_)
  split
  · exact pure _
  · exact reRelate _
theorem tierCleanupN (n : Nat) : ∀ t, Keeps R (tierCleanupN n t) := by
  induction n with
  | zero => intro t; exact throw _
  | succ n ih =>
    intro t
    unfold ATG.tierCleanupN
    refine Keeps.get_bind fun _ => Keeps.ite (pure _) (bind ((tierFill _ _)) fun _ =>
      Keeps.get_bind fun _ => bind ((isSubO _ _)) fun _ => ?_)
    split
    · exact reRelate _
    · exact pure _
    · exact bind ((siblingTier _ _ _)) fun _ => ih _
theorem tierCleanup (t : TRef) : Keeps R (tierCleanup t) := by
  intro h; unfold ATG.tierCleanup; exact tierCleanupN _ t h
theorem cleanupScan (g : GRef) (t : TRef) : Keeps R (cleanupScan g t) := by
  unfold ATG.cleanupScan
  exact Keeps.get_bind fun _ => Keeps.ite (pure _) (Keeps.ite
    (bind (forL _ fun _ => Keeps.get_bind fun _ => Keeps.ite (pure _) ((projectUp _))) fun _ =>
      bind (reRelate _) fun _ => pure _) (pure _))
theorem cleanupScanAll (g : GRef) : ∀ ts b, Keeps R (cleanupScanAll g ts b)
  | [], _ => pure _
  | _ :: ts, _ => bind (cleanupScan _ _) fun _ => cleanupScanAll g ts _
theorem groupCleanup (g : GRef) : Keeps R (groupCleanup g) := by
  unfold ATG.groupCleanup
  exact Keeps.get_bind fun _ => bind (cleanupScanAll _ _ _) fun _ => Keeps.ite
    (Keeps.get_bind fun _ => bind (forL _ fun _ => tierCleanup _) fun _ => reRelate _) (pure _)
theorem atgCleanup (a : ARef) : Keeps R (atgCleanup a) := by
  unfold ATG.atgCleanup
  refine Keeps.get_bind fun _ => bind (forL _ fun _ => Keeps.get_bind fun _ => Keeps.ite (pure _) (groupCleanup _))
    fun _ => Keeps.get_bind fun _ => bind ((liftE _)) fun _ => bind ((liftE _)) fun _ => ?_
  split
  · exact Keeps.ite (pure _) (bind (forL _ fun _ => Keeps.get_bind fun _ => bind ((liftE _)) fun _ =>
      Keeps.ite (pure _) ((padGroup _ _ _))) fun _ => forL _ fun _ => Keeps.get_bind fun _ =>
      bind ((liftE _)) fun _ => Keeps.ite (pure _) ((padGroup _ _ _)))
  · exact throw _
theorem buildGroup (ts : List PTier) (cs : List CRef) : Keeps R (buildGroup ts cs) := by
  unfold ATG.buildGroup
  exact bind ((buildTiers _)) fun _ => bind (Keeps.ite (bind (newGroup _) fun _ => pure _) (pure _)) fun _ =>
    bind (Keeps.ite (bind ((newPointsGroup _)) fun _ => pure _) (pure _)) fun _ => pure _
theorem buildGroups : ∀ l, Keeps R (buildGroups l)
  | [] => pure _
  | (_, _) :: l => bind (buildGroup _ _) fun _ => bind (buildGroups l) fun _ => pure _
theorem newAtg (tiers : List PTier) (arg : ClassArg) : Keeps R (newAtg tiers arg) := by
  unfold ATG.newAtg ATG.relateTiers
  exact bind (fun _ => Stable.same rfl rfl rfl rfl rfl rfl rfl) fun _ => Keeps.get_bind fun _ => bind ((liftE _)) fun _ =>
    bind (bind ((recloneA _ _)) fun _ => Keeps.get_bind fun _ => bind ((liftE _)) fun _ =>
      buildGroups _) fun _ => bind ((setGroups _ _)) fun _ => bind (atgCleanup _) fun _ =>
    bind ((setContainsA _)) fun _ => pure _
theorem atgAppend (a : ARef) (g : GRef) : Keeps R (atgAppend a g) := by
  unfold ATG.atgAppend
  exact Keeps.get_bind fun _ => bind (Keeps.ite (throw _) (pure _)) fun _ => bind ((recloneA _ _)) fun _ =>
    Keeps.get_bind fun _ => bind ((liftE _)) fun _ => bind (forL _ fun _ => Keeps.get_bind fun _ =>
      bind (forL _ fun _ => (castTo _ _)) fun _ => Keeps.ite ((pointTierInit _ _ _ _))
        ((tierInit _ _ _ _))) fun _ => bind (reRelate _) fun _ => Keeps.get_bind fun _ =>
    (setGroups _ _)
theorem newAtgOf (gs : List GRef) : Keeps R (newAtgOf gs) := by
  unfold ATG.newAtgOf
  exact bind (fun _ => Stable.same rfl rfl rfl rfl rfl rfl rfl) fun _ => bind (forL _ fun _ => atgAppend _ _) fun _ =>
    bind ((setContainsA _)) fun _ => pure _
theorem popGroup (g : GRef) (n : String) : Keeps R (popGroup g n) := by
  unfold ATG.popGroup
  apply Keeps.get_bind; intro h0
  split
  · split
    · exact throw _
    · refine bind ((liftC _)) fun _ => ?_
      split
      · exact throw _
      · refine bind ((liftC _)) fun _ => bind (forL _ fun _ => (refreshTier _)) fun _ =>
          bind (newGroup _) fun _ => Keeps.get_bind fun _ => ?_
        split
        · exact throw _
        · exact bind (forL _ fun _ => bind ((setSubs _ _)) fun _ =>
            (of_modify fun _ => Stable.same rfl rfl rfl rfl rfl rfl rfl)) fun _ => pure _
  · exact throw _
theorem popGroups (n : String) : ∀ gs, Keeps R (popGroups n gs)
  | [] => pure _
  | _ :: gs => Keeps.get_bind fun _ => Keeps.ite (bind (popGroups n gs) fun _ => pure _)
      (Keeps.ite (popGroups n gs) (bind (popGroup _ _) fun _ => bind (popGroups n gs) fun _ => pure _))
theorem popClass (a : ARef) (n : String) : Keeps R (popClass a n) := by
  unfold ATG.popClass
  exact Keeps.get_bind fun _ => bind (popGroups _ _) fun _ => bind ((setGroups _ _)) fun _ =>
    (setContainsA _)
theorem interleave_of (hg : ∀ g new down copy labels, Keeps R (interleaveGroup g new down copy labels))
    (a : ARef) (n : String) (above : Bool) (cn : String) (fb labels : Bool) :
    Keeps R (interleave a n above cn fb labels) := by
  have hgs : ∀ (c new : CRef) (down copy : Option CRef) (labels : Bool) gs,
      Keeps R (interleaveGroups c new down copy labels gs) := by
    intro c new down copy labels gs
    induction gs with
    | nil => exact pure _
    | cons g gs ih =>
      exact Keeps.get_bind fun _ => bind (Keeps.ite (hg _ _ _ _ _) (pure _)) fun _ => bind ih fun _ => pure _
  unfold ATG.interleave
  refine Keeps.ite (throw _) (bind (liftC _) fun cs => ?_)
  split
  · exact throw _
  · exact Keeps.get_bind fun _ => bind (liftE _) fun _ => bind (liftC _) fun _ =>
      bind (liftC _) fun _ => Keeps.get_bind fun _ => bind (hgs _ _ _ _ _ _) fun _ =>
      bind (setGroups _ _) fun _ => setContainsA _

/-- for a relation that does not mind labels being blanked -/
theorem interleaveGroup_of (hl : ∀ (h : Heap) (x : Ref), R h { h with label := upd h.label x "" })
    (g : GRef) (new : CRef) (down copy : Option CRef) (labels : Bool) :
    Keeps R (interleaveGroup g new down copy labels) := by
  unfold ATG.interleaveGroup
  apply Keeps.get_bind; intro h0
  split
  · exact throw _
  · exact bind (newEntries _ _) fun _ => bind (newTier _ _) fun _ =>
      bind (Keeps.ite (pure _) (forL _ fun _ => of_modify fun _ => hl _ _)) fun _ => Keeps.get_bind fun _ =>
      bind (of_modify fun _ => Stable.same rfl rfl rfl rfl rfl rfl rfl) fun _ =>
      bind (forL _ fun _ => refreshTier _) fun _ => newGroup _
end
end Prog
end ATG
