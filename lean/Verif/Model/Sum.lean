import Verif.Model.Interval
/-!
# The sum of two intervals (`InstanceMixins.__add__`, `sequences/sequences.py:96-107`)

`a + b` makes a second object for `a` that *shares its attribute dictionary* (`self_copy.__dict__ =
self.__dict__`), so that whatever is read from or written to one of the two is read from or written to the
other as well.  The model has one reference for the pair: every attribute is the same anyway, and
`SequenceList.__contains__` and `remove` go by value.  During the call the code tells the two apart in one
place, the identity test `not self is element.super_instance` of `set_subset_list`
(`sequences/sequences.py:154`): no element can have the new object as its superset, so the test is true for
every element (`adoptCopy`).
SIMPLIFICATION: what a client sees of the two objects later (`a + b is a` is false, and so is
`b.super_instance is a`) is not modelled; nor is a cast of the copy alone, which needs a subset class that
has subclasses among the entries.
-/
namespace ATG

/-- The loop of `set_subset_list` (`sequences/sequences.py:153-156`) called on the copy: each element leaves
    its superset, the original of the copy included, before it gets the copy as its superset. -/
def adoptCopy (w : Ref) (l : List Ref) : M Unit :=
  M.forL l (fun el => do
    removeSuperset el
    M.modify fun h => { h with sup := upd h.sup el (some w) })

/-- `set_subset_list` (`sequences/sequences.py:138-164`) called on the copy -/
def setSubsetListCopy (w : Ref) (l : List Ref) : M Unit := do
  if (← allInst w l) then do
    let sl ← slMk l
    putSubs w sl
    adoptCopy w l
    setContainsSubs w
    let h ← M.get
    setPrecedence (h.subs w).vals
  else M.throw .exc

/-- the `subset_list` setter (`sequences/sequences.py:484-492`) called on the copy -/
def setSubsCopy (w : Ref) (l : List Ref) : M Unit := do
  let h ← M.get
  let orig := (h.subs w).vals
  let sl ← slMk l
  setSubsetListCopy w sl.vals
  M.forL orig (fun o => do
    let h ← M.get
    if slContains h (h.subs w).vals o then pure () else removeSuperset o)

/-- `self_copy.subset_list += [x]` (`sequences/sequences.py:101`) -/
def subsIAddCopy (w x : Ref) : M Unit := do
  let h ← M.get
  let r ← slAdd (putSubs w) (h.subs w) [x]
  setSubsCopy w r.vals

/-- `a + b` for two intervals (`sequences/sequences.py:96-107`).  The class of `a` is compared with the
    superset class of `b` first, then with its subset class (`None` there is a `TypeError`). -/
def ivalAdd (a b : Ref) : M Ref := do
  let h ← M.get
  match h.ct.sup (h.cls b) with
  | none => M.throw .typeError
  | some c =>
    if h.ct.isSub (h.cls a) c then do
      subsIAddCopy a b
      pure a
    else match h.ct.sub (h.cls b) with
      | none => M.throw .typeError
      | some c =>
        if h.ct.isSub (h.cls a) c then do
          subsIAdd b [a]
          pure a
        else M.throw .valueError

end ATG
