import Verif.Spec.Group
import Verif.Spec.Gaps
/-!
# Vocabulary for fusing intervals
-/
namespace ATG

/-- each entry starts and ends before the next one does -/
def InOrder (h : Heap) (l : List Ref) : Prop :=
  l.Pairwise fun a b => h.start a < h.start b ∧ h.stop a < h.stop b

/-- `a` and, right of it, `b` are intervals of the same class in the same superset (or in none), and their
    subset intervals, all of class `d`, follow each other; their subset lists and the one they are in are in order. Both are
    among the intervals `L`, which are listed by their supersets. -/
structure Neighbours (L : Ref → Prop) (h : Heap) (a b : Ref) (d : CRef) : Prop where
  tidy : TidyOn L h
  listed : L a ∧ L b
  ordered : ∀ v, v = a ∨ v = b ∨ h.sup a = some v → InOrder h (h.subs v).vals
  ne : a ≠ b
  spans : h.start a < h.start b ∧ h.stop a < h.stop b
  cls : h.cls a = h.cls b
  sub : h.ct.sub (h.cls a) = some d
  clsA : ∀ z ∈ (h.subs a).vals, h.cls z = d
  clsB : ∀ z ∈ (h.subs b).vals, h.cls z = d
  ecls : (h.subs a).ecls = some d ∨ h.subs a = SL.empty ∨ (h.subs b).vals = []
  follow : ∀ u ∈ (h.subs a).vals, ∀ v ∈ (h.subs b).vals, h.start u < h.start v ∧ h.stop u < h.stop v
  sup : h.sup a = h.sup b
  notUnder : h.sup a ≠ some a ∧ h.sup a ≠ some b

/-- the two are neighbours on the interval tier `t`, whose intervals are in order, of one class and not below
    either of them; on a tier whose superset class is `Top` they have no superset. -/
structure TierNeighbours (h : Heap) (t : TRef) (A : List Ref) (a b : Ref) (B : List Ref) : Prop where
  list : (h.tseq t).vals = A ++ a :: b :: B
  ordered : InOrder h (h.tseq t).vals
  cls : ∀ u ∈ (h.tseq t).vals, ∀ v ∈ (h.tseq t).vals, h.cls u = h.cls v
  label : ∀ u ∈ (h.tseq t).vals, h.label u ≠ "#"
  intierA : h.intier a = some t
  intierB : h.intier b = some t
  notUnder : ∀ z ∈ (h.tseq t).vals, h.sup z ≠ some a ∧ h.sup z ≠ some b
  interval : h.ct.isSub (h.tcls t) cPoint = false
  top : h.tsup t = some cTop → h.sup a = none

/-- `x`, one of the neighbours `a`, `b`, took over the other one, `y`: it spans both, has the label `lab` and
    both subset lists; `y` has no subset intervals and no superset, and no list has it. Nothing else
    changed. -/
structure Fused (L : Ref → Prop) (h h' : Heap) (x y a b : Ref) (lab : String) : Prop where
  start : h'.start x = h.start a
  stop : h'.stop x = h.stop b
  label : h'.label x = lab
  subs : (h'.subs x).vals = (h.subs a).vals ++ (h.subs b).vals
  ecls : h'.subs x = SL.empty ∨ (h'.subs x).ecls = h.ct.sub (h.cls a)
  linked : DoublyLinked h' (h'.subs x).vals
  sup : ∀ z ∈ (h'.subs x).vals, h'.sup z = some x
  within : ∀ z ∈ (h'.subs x).vals, h'.within z = some (.ival x)
  emptied : (h'.subs y).vals = []
  out : h'.sup y = none
  keepsSup : h'.sup x = h.sup x
  super : ∀ s, h.sup x = some s → (h'.subs s).vals = (h.subs s).vals.erase y
  others : ∀ v, v ≠ x → v ≠ y → h.sup x ≠ some v → (h'.subs v).vals = (h.subs v).vals
  values : ∀ r, r ≠ x → h'.start r = h.start r ∧ h'.stop r = h.stop r ∧ h'.label r = h.label r
  classes : h'.cls = h.cls ∧ h'.ct = h.ct
  sups : ∀ r, r ≠ y → r ∉ (h'.subs x).vals → h'.sup r = h.sup r
  tidy : TidyOn L h'

/-- `x` and the intervals `l` right of it are the end of the tier `t`, linked rightwards, without a superset
    and in order, and so are the intervals below them, which are of class `d` -/
structure RightRun (h : Heap) (t : TRef) (A : List Ref) (x : Ref) (l : List Ref) (d : CRef) : Prop where
  tidy : Tidy h
  ordered : ∀ v, InOrder h (h.subs v).vals
  list : (h.tseq t).vals = A ++ x :: l
  tordered : InOrder h (A ++ x :: l)
  cls : ∀ u ∈ A ++ x :: l, h.cls u = h.cls x
  label : ∀ u ∈ A ++ x :: l, h.label u ≠ "#"
  intier : ∀ u ∈ A ++ x :: l, h.intier u = some t
  sup : ∀ u ∈ A ++ x :: l, h.sup u = none
  interval : h.ct.isSub (h.tcls t) cPoint = false
  sub : h.ct.sub (h.cls x) = some d
  subcls : ∀ u ∈ x :: l, ∀ z ∈ (h.subs u).vals, h.cls z = d
  ecls : (h.subs x).ecls = some d ∨ h.subs x = SL.empty
  follow : (x :: l).Pairwise fun u v => ∀ p ∈ (h.subs u).vals, ∀ q ∈ (h.subs v).vals,
    h.start p < h.start q ∧ h.stop p < h.stop q
  linked : ∀ i u v, (x :: l)[i]? = some u → (x :: l)[i + 1]? = some v → h.fol u = some (.obj v)

end ATG
