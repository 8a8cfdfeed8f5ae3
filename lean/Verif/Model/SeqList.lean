import Verif.Model.Num
/-!
# `SequenceList` (`sequence_list.py`) and precedence links (`mixins/mixins.py`)
-/
namespace ATG

/-! ## Creating and casting entries -/

/-- Allocate a new entry (`SequenceInterval.__init__`, `sequences/sequences.py:369-411`;
    `SequencePoint.__init__`, `points/points.py:68-99`).  Unless the label is `"#"`, `set_final` and
    `set_initial` give it boundary neighbours.  SIMPLIFICATION: `None` times and labels, and tuples of
    the wrong length, are not modelled. A point has `start = stop = time`. -/
def newEntry (c : CRef) (s e : Time) (lab : String) : M Ref := fun h =>
  let r := h.nE
  let link := if lab = "#" then none else some Link.bumper
  .ok r { h with
    nE := h.nE + 1
    cls := upd h.cls r c
    start := upd h.start r s
    stop := upd h.stop r e
    label := upd h.label r lab
    fol := upd h.fol r link
    prev := upd h.prev r link
    subs := upd h.subs r SL.empty
    sup := upd h.sup r none
    intier := upd h.intier r none
    within := upd h.within r none
    cont := upd h.cont r Contains.unset }

/-- `SequenceBaseClass._cast` on an existing entry (`mixins/mixins.py:20-33`): the assertion that a
    point stays a point and an interval an interval, then `obj.__class__ = cls`. -/
def castTo (c : CRef) (r : Ref) : M Unit := fun h =>
  if h.ct.isSub c cPoint = h.isPoint r then .ok () { h with cls := upd h.cls r c }
  else .err .assertionError h

/-! ## `SequenceList` -/

/-- insertion used by the sort: before the first element whose key is not smaller -/
def insBy (key : Ref → Time) (x : Ref) : List Ref → List Ref
  | [] => [x]
  | y :: ys => if key x ≤ key y then x :: y :: ys else y :: insBy key x ys

/-- sorting by key. `np.argsort` (`sequence_list.py:111`) may order equal keys in any way;
    SIMPLIFICATION: a stable sort is used here. -/
def sortBy (key : Ref → Time) (l : List Ref) : List Ref := l.foldr (insBy key) []

/-- `np.all(starts[:-1] <= starts[1:])` (`sequence_list.py:108`). -/
def adjLe : List Time → Bool
  | [] => true
  | [_] => true
  | a :: b :: l => decide (a ≤ b) && adjLe (b :: l)

/-- `SequenceList._sort` (`sequence_list.py:104-112`). -/
def slSort (h : Heap) (l : List Ref) : List Ref :=
  if adjLe (l.map h.start) then l else sortBy h.start l

/-- `SequenceList.__contains__` (`sequence_list.py:55-67`): identity first, then equality of
    `(start, end, label)`. -/
def slContains (h : Heap) (l : List Ref) (x : Ref) : Bool :=
  l.contains x || l.any (fun y => h.tup y == h.tup x)

/-- Do all entries have the same class? (`sequence_list.py:40-43`, `79-82`) -/
def sameClass (h : Heap) : List Ref → Bool
  | [] => true
  | x :: xs => xs.all fun y => h.cls y == h.cls x

/-- `SequenceList(*args)` (`sequence_list.py:33-47`). -/
def slMk (l : List Ref) : M SL := fun h =>
  match l with
  | [] => .ok SL.empty h
  | x :: _ =>
    if sameClass h l then .ok ⟨slSort h l, some (h.cls x)⟩ h else .err .valueError h

/-- `a + b` (`sequence_list.py:69-99`).  `putSelf` writes the left operand back to where it lives: when
    it had no `entry_class`, the addition sets it (`sequence_list.py:91-92`), also if a later step
    raises.  Only the overlap warning of line 98 is left out. -/
def slAdd (putSelf : SL → M Unit) (a : SL) (b : List Ref) : M SL := do
  let h ← M.get
  match b.filter (fun x => !slContains h a.vals x) with
  | [] => pure a
  | x :: xs =>
    if sameClass h (x :: xs) then do
      let c ← (match a.ecls with
        | none => do
          putSelf ⟨a.vals, some (h.cls x)⟩
          pure (h.cls x)
        | some c =>
          if h.ct.isSub (h.cls x) c || h.ct.isSub c (h.cls x) then pure c
          else M.throw .valueError)
      M.forL (a.vals ++ x :: xs) (fun y => do
        let h ← M.get
        if h.cls y = c then pure () else castTo c y)
      slMk (a.vals ++ x :: xs)
    else M.throw .valueError

/-- `np.searchsorted(starts, t)` on a sorted array: the number of leading elements `< t`
    (`sequence_list.py:205`). -/
def searchsorted (starts : List Time) (t : Time) : Nat := (starts.takeWhile (· < t)).length

/-- `SequenceList.append` (`sequence_list.py:175-209`) with the default `shift = False`,
    `re_init = False`.  Line 204 inserts in order only when *every* start is truthy (non-zero);
    otherwise the value goes to the end. -/
def slAppend (a : SL) (x : Ref) : M SL := do
  let h ← M.get
  if slContains h a.vals x then pure a
  else
    let c ← (match a.ecls with
      | none => pure (h.cls x)
      | some c =>
        if h.ct.isSub c (h.cls x) || h.ct.isSub (h.cls x) c then pure c
        else M.throw .valueError)
    castTo c x
    let starts := a.vals.map h.start
    if a.vals.length > 0 && starts.all (· ≠ 0) then
      pure ⟨a.vals.insertIdx (searchsorted starts (h.start x)) x, some c⟩
    else
      pure ⟨a.vals ++ [x], some c⟩

/-- `self_tuples.index(x_tuple)`: index of the first entry with the same `(start, end, label)`
    (`sequence_list.py:242-244`); `none` models its `ValueError`. -/
def slIndexOf (h : Heap) (l : List Ref) (x : Ref) : Option Nat :=
  l.findIdx? (fun y => h.tup y == h.tup x)

/-! ## Precedence links (`mixins/mixins.py:65-134`) -/

mutual
/-- `set_fol` (`mixins/mixins.py:65-87`) with recursion fuel. -/
def setFolN : Nat → Ref → Link → M Unit
  | 0, _, _ => M.throw .recursionError
  | n + 1, x, l => do
    let h ← M.get
    if l = .obj x then M.throw .exc
    else if h.label x = "#" then pure ()
    else if h.fol x = some l then pure ()
    else match l with
      | .bumper => M.modify fun h => { h with fol := upd h.fol x (some .bumper) }
      | .obj y =>
        if h.cls y = h.cls x then do
          M.modify fun h => { h with fol := upd h.fol x (some (.obj y)) }
          setPrevN n y (.obj x)
        else M.throw .exc
/-- `set_prev` (`mixins/mixins.py:89-111`) with recursion fuel. -/
def setPrevN : Nat → Ref → Link → M Unit
  | 0, _, _ => M.throw .recursionError
  | n + 1, x, l => do
    let h ← M.get
    if l = .obj x then M.throw .exc
    else if h.label x = "#" then pure ()
    else if h.prev x = some l then pure ()
    else match l with
      | .bumper => M.modify fun h => { h with prev := upd h.prev x (some .bumper) }
      | .obj y =>
        if h.cls y = h.cls x then do
          M.modify fun h => { h with prev := upd h.prev x (some (.obj y)) }
          setFolN n y (.obj x)
        else M.throw .exc
end

/-- Python's recursion limit is far above the depth 3 that `set_fol`/`set_prev` need
    (theorem `ATG.C09_fuel`); the model uses this fuel. -/
def linkFuel : Nat := 4

/-- `x.set_fol(y)` -/
def setFol (x : Ref) (l : Link) : M Unit := setFolN linkFuel x l
/-- `x.set_prev(y)` -/
def setPrev (x : Ref) (l : Link) : M Unit := setPrevN linkFuel x l
/-- `set_final` (`mixins/mixins.py:113-123`) -/
def setFinal (x : Ref) : M Unit := setFol x .bumper
/-- `set_initial` (`mixins/mixins.py:125-134`) -/
def setInitial (x : Ref) : M Unit := setPrev x .bumper

/-- The precedence loop (`sequences/sequences.py:221-234`, `sequences/tiers.py:139-148`,
    `points/tiers.py:117-126`) over the rest of the list; `p` is the element before it and `pre` what
    the loop body does first (`__set_intier` in tiers, nothing in subset lists). -/
def precLoop (pre : Ref → M Unit) : Option Ref → List Ref → M Unit
  | _, [] => pure ()
  | p, x :: rest => do
    pre x
    (match p with
      | none => setInitial x
      | some q => setPrev x (.obj q))
    (match rest with
      | [] => setFinal x
      | y :: _ => setFol x (.obj y))
    precLoop pre (some x) rest

/-- `_set_subset_precedence` (`sequences/sequences.py:221-234`) on the content of the subset list. -/
def setPrecedence (l : List Ref) : M Unit := precLoop (fun _ => pure ()) none l

end ATG
