import Verif.Model.SeqList
/-!
# Superset / subset operations of `InstanceMixins` (`sequences/sequences.py:93-240`)
-/
namespace ATG

/-- assignment `w._subset_list = sl` -/
def putSubs (w : Ref) (sl : SL) : M Unit := M.modify fun h => { h with subs := upd h.subs w sl }

mutual
/-- `remove_superset` (`sequences/sequences.py:207-217`) with recursion fuel. -/
def removeSupersetN : Nat → Ref → M Unit
  | 0, _ => M.throw .recursionError
  | n + 1, x => do
    let h ← M.get
    match h.sup x with
    | none => pure ()
    | some w =>
      (if slContains h (h.subs w).vals x then removeFromSubsetN n w x else pure ())
      M.modify fun h => { h with sup := upd h.sup x none, within := upd h.within x none }
/-- `remove_from_subset_list` (`sequences/sequences.py:191-204`) with `SequenceList.remove`
    (`sequence_list.py:235-247`) inlined: the first value-equal entry is removed from the list, then
    `x.remove_superset()` is called. -/
def removeFromSubsetN : Nat → Ref → Ref → M Unit
  | 0, _, _ => M.throw .recursionError
  | n + 1, w, x => do
    let h ← M.get
    if slContains h (h.subs w).vals x then
      match slIndexOf h (h.subs w).vals x with
      | none => M.throw .valueError
      | some i => do
        putSubs w ⟨(h.subs w).vals.eraseIdx i, (h.subs w).ecls⟩
        removeSupersetN n x
        M.modify fun h => { h with sup := upd h.sup x none, within := upd h.within x none }
        let h ← M.get
        setPrecedence (h.subs w).vals
    else pure ()
end

/-- Fuel for the two functions above: every round removes an entry from one list
    (`ATG.removeSuperset_fuel` shows that more fuel changes nothing). -/
def removeFuel (h : Heap) (w : Ref) : Nat := 2 * (h.subs w).vals.length + 3

/-- `x.remove_superset()` -/
def removeSuperset (x : Ref) : M Unit := fun h =>
  removeSupersetN (match h.sup x with | none => 1 | some w => removeFuel h w) x h

/-- `w.remove_from_subset_list(x)`. `x` may belong to another superset, whose list is then emptied of
    it as well. -/
def removeFromSubset (w x : Ref) : M Unit := fun h =>
  removeFromSubsetN
    (removeFuel h w + match h.sup x with | none => 1 | some v => removeFuel h v) w x h

/-- `SequenceList.remove` (`sequence_list.py:235-247`) on the list of the given attribute: `get`/`put`
    read and assign its content. -/
def slRemoveAt (get : Heap → SL) (put : SL → M Unit) (x : Ref) : M Unit := do
  let h ← M.get
  match slIndexOf h (get h).vals x with
  | none => M.throw .valueError
  | some i => do
    put ⟨(get h).vals.eraseIdx i, (get h).ecls⟩
    removeSuperset x

/-- `w.subset_list.remove(x)` -/
def subsRemove (w x : Ref) : M Unit := slRemoveAt (fun h => h.subs w) (putSubs w) x

/-- `SequenceInterval.pop` (`sequences/sequences.py:449-459`) with `SequenceList.pop`
    (`sequence_list.py:249-262`). -/
def ivalPop (w x : Ref) : M Unit := do
  let h ← M.get
  (if slContains h (h.subs w).vals x then subsRemove w x else pure ())
  let h ← M.get
  setPrecedence (h.subs w).vals

/-- `isinstance(x, c)` where `c` may be `None` (`TypeError`). -/
def isInst (x : Ref) (c : Option CRef) : M Bool := do
  let h ← M.get
  match c with
  | none => M.throw .typeError
  | some c => pure (h.ct.isSub (h.cls x) c)

/-- The loop of `set_subset_list` that takes each element over (`sequences/sequences.py:153-156`). -/
def adoptAll (w : Ref) (l : List Ref) : M Unit :=
  M.forL l (fun el => do
    let h ← M.get
    if h.sup el = some w then pure ()
    else do
      removeSuperset el
      M.modify fun h => { h with sup := upd h.sup el (some w) })

/-- The `contains` setter for an interval (`mixins/within.py:46-53`), called with the subset list. -/
def setContainsSubs (w : Ref) : M Unit := do
  M.modify fun h => { h with cont := upd h.cont w .alias }
  let h ← M.get
  M.forL (h.subs w).vals (fun it =>
    M.modify fun h => { h with within := upd h.within it (some (.ival w)) })

/-- `all([isinstance(subint, self.subset_class) for subint in subset_list])`
    (`sequences/sequences.py:151`); raises `TypeError` for a missing subset class and a non-empty
    list. -/
def allInst (w : Ref) (l : List Ref) : M Bool := do
  let h ← M.get
  match l with
  | [] => pure true
  | _ :: _ =>
    match h.ct.sub (h.cls w) with
    | none => M.throw .typeError
    | some c => pure (l.all fun x => h.ct.isSub (h.cls x) c)

/-- `set_subset_list` (`sequences/sequences.py:138-164`) for a list that no interval owns (for the
    case of another interval's live list see `setSubsetListLive`). -/
def setSubsetList (w : Ref) (l : List Ref) : M Unit := do
  if (← allInst w l) then do
    let sl ← slMk l
    putSubs w sl
    adoptAll w l
    setContainsSubs w
    let h ← M.get
    setPrecedence (h.subs w).vals
  else M.throw .exc

/-- The adoption loop over the live subset list of `v`: Python iterates by index over the list object
    while `remove_superset` deletes from it. -/
def adoptLive (w v : Ref) : Nat → Nat → M Unit
  | 0, _ => pure ()
  | n + 1, i => do
    let h ← M.get
    match (h.subs v).vals[i]? with
    | none => pure ()
    | some el => do
      (if h.sup el = some w then pure ()
       else do
        removeSuperset el
        M.modify fun h => { h with sup := upd h.sup el (some w) })
      adoptLive w v n (i + 1)

/-- `w.set_subset_list(v.subset_list)` for `v ≠ w` (`sequences/sequences.py:138-164`): the argument is
    the list object of `v` itself. -/
def setSubsetListLive (w v : Ref) : M Unit := do
  let h ← M.get
  let l := (h.subs v).vals
  if (← allInst w l) then do
    let sl ← slMk l
    putSubs w sl
    adoptLive w v l.length 0
    setContainsSubs w
    let h ← M.get
    setPrecedence (h.subs w).vals
  else M.throw .exc

/-- The `subset_list` setter (`sequences/sequences.py:484-492`). -/
def setSubs (w : Ref) (l : List Ref) : M Unit := do
  let h ← M.get
  let orig := (h.subs w).vals
  let sl ← slMk l
  setSubsetList w sl.vals
  M.forL orig (fun o => do
    let h ← M.get
    if slContains h (h.subs w).vals o then pure () else removeSuperset o)

mutual
/-- `set_super_instance` (`sequences/sequences.py:118-133`) with recursion fuel. -/
def setSuperN : Nat → Ref → Ref → M Unit
  | 0, _, _ => M.throw .recursionError
  | n + 1, x, s => do
    let h ← M.get
    if (← isInst s (h.ct.sup (h.cls x))) && h.sup x ≠ some s then do
      M.modify fun h => { h with sup := upd h.sup x (some s) }
      appendSubsetN n s x
    else M.throw .exc
/-- `append_subset_list` (`sequences/sequences.py:166-189`) with recursion fuel. Note the truthiness
    test in line 178: the old superset is left alone when its subset list is empty. -/
def appendSubsetN : Nat → Ref → Ref → M Unit
  | 0, _, _ => M.throw .recursionError
  | n + 1, w, x => do
    let h ← M.get
    if (← isInst x (h.ct.sub (h.cls w))) then
      if slContains h (h.subs w).vals x then pure ()
      else do
        (match h.sup x with
          | none => pure ()
          | some s => if (h.subs s).vals.length > 0 then removeSuperset x else pure ())
        let h ← M.get
        let sl ← slAppend (h.subs w) x
        putSubs w sl
        let h ← M.get
        setPrecedence (h.subs w).vals
        let h ← M.get
        if h.sup x = some w then pure () else setSuperN n x w
    else M.throw .exc
end

/-- `x.set_super_instance(s)` -/
def setSuper (x s : Ref) : M Unit := setSuperN 4 x s
/-- `w.append_subset_list(x)` -/
def appendSubset (w x : Ref) : M Unit := appendSubsetN 4 w x

/-- `w.subset_list += l` (`sequences/sequences.py:111`, `sequence_list.py:69-99`): the sum is computed
    (which may set the old list's `entry_class`), then assigned through the setter. -/
def subsIAdd (w : Ref) (l : List Ref) : M Unit := do
  let h ← M.get
  let sl := h.subs w
  let r ← slAdd (putSubs w) sl l
  setSubs w r.vals

/-- `w.start = t` -/
def setStart (w : Ref) (t : Time) : M Unit := M.modify fun h => { h with start := upd h.start w t }
/-- `w.end = t` -/
def setStop (w : Ref) (t : Time) : M Unit := M.modify fun h => { h with stop := upd h.stop w t }

/-- `validate` (`sequences/sequences.py:243-297`), without the warnings. -/
def validate (h : Heap) (w : Ref) : Bool :=
  let l := (h.subs w).vals
  match l with
  | [] => true
  | x :: _ =>
    allclose (h.start w) (h.start x) &&
    allclose (h.stop w) (h.stop (l.getLast?.getD x)) &&
    tight (l.map h.start) (l.map h.stop)

end ATG
