import Verif.Model.Base
import Verif.Spec.Basic
/-!
# Histories of superset / subset operations on free intervals

A history is a list of calls; a call that raises leaves the heap it had reached and the history goes on.
-/
namespace ATG

/-- The public calls of a history. -/
inductive Op
  /-- `C((s, e, lab))` -/
  | create (c : CRef) (s e : Time) (lab : String)
  /-- `w.append(x)` -/
  | append (w x : Ref)
  /-- `w.append_subset_list(x)` -/
  | appendSubset (w x : Ref)
  /-- `w.subset_list = l` -/
  | assign (w : Ref) (l : List Ref)
  /-- `x.remove_superset()` -/
  | removeSuperset (x : Ref)
  /-- `w.remove_from_subset_list(x)` -/
  | removeFrom (w x : Ref)
  /-- `w.pop(x)` -/
  | pop (w x : Ref)
  /-- `w.subset_list.remove(x)` -/
  | listRemove (w x : Ref)

/-- the heap after the call, also when it raises -/
def Op.run : Op → Heap → Heap
  | .create c s e lab, h => (newEntry c s e lab h).heap
  | .append w x, h => (ivalAppend w x h).heap
  | .appendSubset w x, h => (ATG.appendSubset w x h).heap
  | .assign w l, h => (setSubs w l h).heap
  | .removeSuperset x, h => (ATG.removeSuperset x h).heap
  | .removeFrom w x, h => (removeFromSubset w x h).heap
  | .pop w x, h => (ivalPop w x h).heap
  | .listRemove w x, h => (subsRemove w x h).heap

/-- the heap after a history -/
def runAll : List Op → Heap → Heap
  | [], h => h
  | o :: os, h => runAll os (o.run h)

/-- A well-behaved set of classes `V`: no class of `V` is a proper subclass or superclass of a subset class
    of `V` (as for classes made by `custom_classes`, and for `Word`, `Phone`; not when `SequenceInterval`
    itself is used besides them), and the class links inside `V` are mutual. -/
structure Flat (ct : ClassTab) (V : List CRef) : Prop where
  related : ∀ c ∈ V, ∀ x ∈ V, ∀ d, ct.sub c = some d → (ct.isSub d x || ct.isSub x d) = true → d = x
  mutual_ : ∀ c ∈ V, ∀ d ∈ V, ct.sub c = some d → ct.sup d = some c

/-- The call is admissible: its arguments exist; a new object has a class of `V`, an ordinary label, and
    differs in value from all objects so far; an assigned list has no repetition. -/
def Op.valid (V : List CRef) (h : Heap) : Op → Prop
  | .create c s e lab => c ∈ V ∧ lab ≠ "#" ∧
      ∀ y < h.nE, ¬ (h.isPoint y = h.ct.isSub c cPoint ∧ h.start y = s ∧ h.stop y = e ∧ h.label y = lab)
  | .append w x => w < h.nE ∧ x < h.nE
  | .appendSubset w x => w < h.nE ∧ x < h.nE
  | .assign w l => w < h.nE ∧ (∀ x ∈ l, x < h.nE) ∧ l.Nodup
  | .removeSuperset x => x < h.nE
  | .removeFrom w x => w < h.nE ∧ x < h.nE
  | .pop w x => w < h.nE ∧ x < h.nE
  | .listRemove w x => w < h.nE ∧ x < h.nE

/-- all calls of the history are admissible when they are made -/
def Valid (V : List CRef) : List Op → Heap → Prop
  | [], _ => True
  | o :: os, h => o.valid V h ∧ Valid V os (o.run h)

instance (V : List CRef) (h : Heap) (o : Op) : Decidable (o.valid V h) := by
  cases o <;> unfold Op.valid <;> infer_instance
instance decValid (V : List CRef) : (os : List Op) → (h : Heap) → Decidable (Valid V os h)
  | [], _ => inferInstanceAs (Decidable True)
  | o :: os, h => @instDecidableAnd _ _ _ (decValid V os (o.run h))

/-- no object yet, with the given classes -/
def emptyHeap (ct : ClassTab) : Heap := { heap0 with ct := ct }

/-- no call of the history is `subset_list.remove` -/
def NoListRemove (os : List Op) : Prop := ∀ o ∈ os, ∀ w x, o ≠ .listRemove w x

end ATG
