import Verif.Spec.Basic
/-!
# Gaps and fillers
-/
namespace ATG

/-- the span of an entry -/
def Heap.span (h : Heap) (x : Ref) : Time × Time := (h.start x, h.stop x)

/-- positive spans, each ending before the next begins -/
def Laid (l : List (Time × Time)) : Prop := (∀ p ∈ l, p.1 < p.2) ∧ l.Pairwise fun p q => p.2 ≤ q.1

instance (l : List (Time × Time)) : Decidable (Laid l) := by unfold Laid; infer_instance

/-- the gaps between consecutive spans -/
def gapsOf : List (Time × Time) → List (Time × Time)
  | [] => []
  | [_] => []
  | p :: q :: r => if p.2 = q.1 then gapsOf (q :: r) else (p.2, q.1) :: gapsOf (q :: r)

/-- the two heaps hold the same about the given entry -/
structure SameEntry (h h' : Heap) (x : Ref) : Prop where
  cls : h'.cls x = h.cls x
  start : h'.start x = h.start x
  stop : h'.stop x = h.stop x
  label : h'.label x = h.label x
  fol : h'.fol x = h.fol x
  prev : h'.prev x = h.prev x
  subs : h'.subs x = h.subs x
  sup : h'.sup x = h.sup x
  intier : h'.intier x = h.intier x
  within : h'.within x = h.within x

/-- what is known about a filler -/
structure IsBlank (h : Heap) (c : CRef) (s e : Time) (x : Ref) : Prop where
  cls : h.cls x = c
  start : h.start x = s
  stop : h.stop x = e
  label : h.label x = ""
  fol : h.fol x = some .bumper
  prev : h.prev x = some .bumper
  subs : h.subs x = SL.empty
  sup : h.sup x = none
  intier : h.intier x = none

end ATG
