import Verif.Lemmas.TimeFrame
/-!
# What client programs keep
-/
namespace ATG

/-- kept by anything that leaves the entries' classes, labels and links alone -/
class Movable (R : Heap → Heap → Prop) : Prop extends Snappable R where
  move : ∀ {h h' : Heap}, h'.nE = h.nE → h'.cls = h.cls → h'.label = h.label → h'.fol = h.fol → h'.prev = h.prev →
    R h h'

namespace Prog
section
variable {R : Heap → Heap → Prop} [Stable R]

theorem void {α} {m : M α} (hm : Keeps R m) : Keeps R m.void := bind hm fun _ => pure _

theorem opStill (o : Call) (h1 : o.moves = false) (h2 : o.relabels = false) (h3 : o.relates = false) :
    Keeps R o.run := by
  cases o <;> simp only [Call.moves, Call.relabels, Call.relates, Bool.true_eq_false] at h1 h2 h3
  case entry => exact void (newEntry _ _ _ _)
  case tier => exact void (newTier _ _)
  case tierFrom => exact void (newTierFrom _ _ _)
  case pointTier => exact void (newPointTier _ _ _)
  case pointsGroup => exact void (newPointsGroup _)
  case setFol => exact setFol _ _
  case setPrev => exact setPrev _ _
  case setSubsetList => exact setSubsetList _ _
  case setSubsetListLive => exact setSubsetListLive _ _
  case assignSubsetList => exact setSubs _ _
  case addToSubsetList => exact subsIAdd _ _
  case setSuper => exact setSuper _ _
  case appendSubset => exact appendSubset _ _
  case removeSuperset => exact removeSuperset _
  case removeFromSubset => exact removeFromSubset _ _
  case append => exact ivalAppend _ _
  case add => exact void (ivalAdd _ _)
  case pop => exact ivalPop _ _
  case cleanup => exact ivalCleanup _
  case tierPop => exact tierPop _ _
  case tierAdd => exact void (tierAdd _ _)
  case superClass c s => exact liftC (R := R) fun ct => setSupClass ct c s
  case subClass c s => exact liftC (R := R) fun ct => setSubClass ct c s
  case customClasses => exact void (liftC _)
end

theorem opSnap {R : Heap → Heap → Prop} [Snappable R]
    (hg : ∀ g new down copy labels, Keeps R (interleaveGroup g new down copy labels))
    (o : Call) (h1 : o.moves = false) (h2 : o.relabels = false) : Keeps R o.run := by
  cases h3 : o.relates with
  | false => exact opStill o h1 h2 h3
  | true =>
    cases o <;> simp only [Call.relates, Bool.false_eq_true] at h3
    case group => exact void (newGroup _)
    case textgrid => exact void (newAtg _ _)
    case textgridOf => exact void (newAtgOf _)
    case tierAppend => exact tierAppend _ _
    case tierCleanup => exact tierCleanup _
    case groupCleanup => exact groupCleanup _
    case groupAdd => exact void (groupAdd _ _)
    case groupAppend => exact groupAppend _ _ _
    case reRelate => exact reRelate _
    case textgridCleanup => exact atgCleanup _
    case textgridAppend => exact atgAppend _ _
    case interleave => exact interleave_of hg _ _ _ _ _ _
    case popClass => exact popClass _ _

section
variable {R : Heap → Heap → Prop} [Movable R]

theorem setStart (x : Ref) (t : Time) : Keeps R (setStart x t) := fun _ => Movable.move rfl rfl rfl rfl rfl
theorem setStop (x : Ref) (t : Time) : Keeps R (setStop x t) := fun _ => Movable.move rfl rfl rfl rfl rfl
theorem setStarts (t : TRef) (l : List Time) : Keeps R (setStarts t l) := by
  unfold ATG.setStarts
  exact Keeps.get_bind fun _ => Keeps.ite (forL _ fun _ => setStart _ _) (throw _)
theorem setEnds (t : TRef) (l : List Time) : Keeps R (setEnds t l) := by
  unfold ATG.setEnds
  exact Keeps.get_bind fun _ => Keeps.ite (forL _ fun _ => setStop _ _) (throw _)
theorem tierShift (t : TRef) (d : Time) : Keeps R (tierShift t d) := by
  unfold ATG.tierShift
  exact Keeps.get_bind fun _ => bind (setStarts _ _) fun _ => Keeps.get_bind fun _ => setEnds _ _
theorem groupShift (g : GRef) (d : Time) : Keeps R (groupShift g d) := by
  unfold ATG.groupShift
  exact Keeps.get_bind fun _ => forL _ fun _ => tierShift _ _
theorem atgShift (a : ARef) (d : Time) : Keeps R (atgShift a d) := by
  unfold ATG.atgShift
  exact Keeps.get_bind fun _ => forL _ fun _ => groupShift _ _
theorem ivalShiftN (n : Nat) : ∀ x d, Keeps R (ivalShiftN n x d) := by
  induction n with
  | zero => intro x d; exact throw _
  | succ n ih =>
    intro x d
    unfold ATG.ivalShiftN
    exact bind (of_modify fun _ => Movable.move rfl rfl rfl rfl rfl) fun _ =>
      bind (of_modify fun _ => Movable.move rfl rfl rfl rfl rfl) fun _ => Keeps.get_bind fun _ => forL _ fun _ => ih _ _
theorem clConcat (a : CL) (b : List Ref) : Keeps R (clConcat a b) := by
  unfold ATG.clConcat ATG.shiftList
  exact bind (slMk _) fun _ => Keeps.ite (throw _) (Keeps.get_bind fun _ => bind (forL _ fun _ => ivalShiftN _ _ _) fun _ =>
    Keeps.get_bind fun _ => Keeps.ite (pure _) (bind (slAdd (fun _ => pure _) _ _) fun _ => pure _))
theorem tierConcat (t u : TRef) : Keeps R (tierConcat t u) := by
  unfold ATG.tierConcat
  exact Keeps.get_bind fun _ => Keeps.ite (bind (clConcat _ _) fun _ => Keeps.ite (throw _) (tierSetSeq _ _)) (throw _)
theorem groupConcat (g g' : GRef) : Keeps R (groupConcat g g') := by
  unfold ATG.groupConcat
  refine Keeps.get_bind fun _ => Keeps.ite ?_ (throw _)
  split
  · exact throw _
  · exact forL _ fun _ => Keeps.get_bind fun _ => forL _ fun _ => Keeps.get_bind fun _ => Keeps.ite (pure _)
      (Keeps.ite (pure _) (bind (ivalShiftN _ _ _) fun _ => tierAppend _ _))
theorem pointsConcat (g g' : GRef) : Keeps R (pointsConcat g g') := by
  unfold ATG.pointsConcat
  refine Keeps.get_bind fun _ => Keeps.ite ?_ (throw _)
  split
  · exact throw _
  · exact forL _ fun _ => Keeps.get_bind fun _ => forL _ fun _ => throw _

theorem opMove (hg : ∀ g new down copy labels, Keeps R (interleaveGroup g new down copy labels))
    (o : Call) (h2 : o.relabels = false) : Keeps R o.run := by
  cases h1 : o.moves with
  | false => exact opSnap hg o h1 h2
  | true =>
    cases o <;> simp only [Call.moves, Bool.false_eq_true] at h1
    case shift => exact ivalShiftN _ _ _
    case start => exact setStart _ _
    case stop => exact setStop _ _
    case starts => exact setStarts _ _
    case ends => exact setEnds _ _
    case tierShift => exact tierShift _ _
    case groupShift => exact groupShift _ _
    case textgridShift => exact atgShift _ _
    case tierConcat => exact tierConcat _ _
    case groupConcat => exact groupConcat _ _
    case pointsConcat => exact pointsConcat _ _
end

theorem all {R : Heap → Heap → Prop} (hR : IsPre R) : ∀ (os : List Call), (∀ o ∈ os, Keeps R o.run) → ∀ h, R h (execute os h)
  | [], _, h => hR.refl h
  | o :: os, ho, h => hR.trans _ _ _ (ho o (by simp) h) (all hR os (fun o' m => ho o' (by simp [m])) _)
end Prog

theorem Pre.le : Pre (fun a b : Time => a ≤ b) := ⟨fun _ => Rat.le_refl, fun _ _ _ => Rat.le_trans⟩
theorem Pre.ge : Pre (fun a b : Time => b ≤ a) := ⟨fun _ => Rat.le_refl, fun _ _ _ p q => Rat.le_trans q p⟩
theorem Pre.all : Pre (fun _ _ : Time => True) := ⟨fun _ => trivial, fun _ _ _ _ _ => trivial⟩

instance inwardSnap : Snappable (Moved (fun a b => a ≤ b) (fun a b => b ≤ a)) :=
  Moved.snappable .le .ge (fun _ _ p => p) (fun _ _ p => p)

instance anySnap : Snappable (Moved (fun _ _ => True) (fun _ _ => True)) :=
  Moved.snappable .all .all (fun _ _ _ => trivial) (fun _ _ _ => trivial)

instance anyMove : Movable (Moved (fun _ _ => True) (fun _ _ => True)) where
  move e0 _ e3 _ _ := ⟨by rw [e0]; exact Nat.le_refl _, fun x _ => ⟨trivial, trivial, by rw [e3]⟩⟩

/-- an invariant of single heaps as a relation -/
def Kept (P : Heap → Prop) (h h' : Heap) : Prop := P h → P h'

theorem Kept.pre (P : Heap → Prop) : IsPre (Kept P) := ⟨fun _ p => p, fun _ _ _ p q r => q (p r)⟩

instance noSelfMove : Movable (Kept NotOwnNeighbour) where
  pre := Kept.pre _
  same _ _ _ _ _ e f p x := by rw [e, f]; exact p x
  entry c s e l h p x := by
    show upd h.fol h.nE _ x ≠ _ ∧ upd h.prev h.nE _ x ≠ _
    unfold upd
    split
    · split <;> simp
    · exact p x
  cast c r h p := by
    unfold castTo
    split <;> exact p
  fol h x l e _ _ p y := by
    refine ⟨?_, (p y).2⟩
    show upd h.fol x (some l) y ≠ _
    unfold upd
    split
    · rename_i q; subst q; simpa using e
    · exact (p y).1
  prev h x l e _ _ p y := by
    refine ⟨(p y).1, ?_⟩
    show upd h.prev x (some l) y ≠ _
    unfold upd
    split
    · rename_i q; subst q; simpa using e
    · exact (p y).2
  snap h u x y p := p
  move _ _ _ e f p x := by rw [e, f]; exact p x

instance hashMove : Movable (Kept HashLoose) where
  pre := Kept.pre _
  same _ _ _ _ el e f p x hx := by rw [el] at hx; rw [e, f]; exact p x hx
  entry c s e l h p x hx := by
    change upd h.label h.nE l x = "#" at hx
    show upd h.fol h.nE _ x = none ∧ upd h.prev h.nE _ x = none
    unfold upd at hx ⊢
    split at hx
    · rename_i q; simp [q, hx]
    · rename_i q; simp only [q, if_false]; exact p x hx
  cast c r h p := by
    unfold castTo
    split <;> exact p
  fol h x l _ el _ p y hy := by
    refine ⟨?_, (p y hy).2⟩
    show upd h.fol x (some l) y = _
    rw [upd_ne _ _ _ _ (fun q => el (by rw [← q]; exact hy))]
    exact (p y hy).1
  prev h x l _ el _ p y hy := by
    refine ⟨(p y hy).1, ?_⟩
    show upd h.prev x (some l) y = _
    rw [upd_ne _ _ _ _ (fun q => el (by rw [← q]; exact hy))]
    exact (p y hy).2
  snap h u x y p := p
  move _ _ el e f p x hx := by rw [el] at hx; rw [e, f]; exact p x hx

end ATG
