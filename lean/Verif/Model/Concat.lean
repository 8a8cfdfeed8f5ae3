import Verif.Model.Group
/-!
# Concatenation (`sequence_list.py:211-233`, `mixins/tiermixins.py:129-148`, `284-305`)
-/
namespace ATG

/-- What a `SequenceList` keeps in `_values`: a Python list, another `SequenceList` (after a `concat`,
    `sequence_list.py:232-233`), or itself (after a `concat` that added nothing: `__add__` then returns
    `self`, lines 76-77). -/
inductive ListKind
  | plain
  | wrapped
  | cyclic
deriving DecidableEq, Repr

/-- a `SequenceList` object together with what its `_values` is -/
structure CL where
  vals : List Ref
  ecls : Option CRef
  kind : ListKind
deriving DecidableEq, Repr

/-- recursion budget for the drill-down of `_shift` -/
def shiftFuel : Nat := 1000

/-- `SequenceList._shift` (`sequence_list.py:124-126`): for each entry `_shift`
    (`sequences/sequences.py:522-526`, `points/points.py:167-168`; a point has no subset list). -/
def shiftList (l : List Ref) (d : Time) : M Unit := M.forL l (fun x => ivalShiftN shiftFuel x d)

/-- `SequenceList.concat` (`sequence_list.py:211-233`).  Every access to a list that contains itself
    recurses without end (`RecursionError`). -/
def clConcat (a : CL) (b : List Ref) : M CL := do
  let b ← slMk b
  if a.kind = .cyclic then M.throw .recursionError
  else do
    let h ← M.get
    let inc := (maxL (a.vals.map h.stop)).getD 0
    shiftList b.vals inc
    let h ← M.get
    if b.vals.all (slContains h a.vals) then pure { a with kind := .cyclic }
    else do
      let s ← slAdd (fun _ => pure ()) ⟨a.vals, a.ecls⟩ b.vals
      pure ⟨s.vals, s.ecls, .wrapped⟩

/-- `len(list)` (`sequence_list.py:52-53`) -/
def clLen (a : CL) : Except Err Nat :=
  if a.kind = .cyclic then .error .recursionError else .ok a.vals.length

/-- `list[i]` (`sequence_list.py:49-50`) -/
def clGet (a : CL) (i : Int) : Except Err Ref :=
  if a.kind = .cyclic then .error .recursionError
  else match pyGet a.vals i with
    | some x => .ok x
    | none => .error .indexError

/-- `SequenceList.append` (`sequence_list.py:175-209`): when all starts are non-zero it calls
    `self._values.insert`, which a wrapped `SequenceList` does not have; otherwise `self._values.append`,
    which it has. -/
def clAppend (a : CL) (x : Ref) : M CL := do
  if a.kind = .cyclic then M.throw .recursionError
  else do
    let h ← M.get
    if slContains h a.vals x then pure a
    else do
      let s ← slAppend ⟨a.vals, a.ecls⟩ x
      if a.kind = .wrapped ∧ a.vals.length > 0 ∧ (a.vals.map h.start).all (· ≠ 0) then
        M.throw .attributeError
      else pure ⟨s.vals, s.ecls, a.kind⟩

/-- `SequenceList.remove` (`sequence_list.py:235-247`) up to the removal from the list: on a wrapped
    list `self._values.pop(pop_idx)` is `SequenceList.pop(int)`, which asks the `int` for
    `return_praatio`.  (The call of `remove_superset` on the removed interval is left out.) -/
def clRemove (h : Heap) (a : CL) (x : Ref) : Except Err CL :=
  match a.kind with
  | .cyclic => .error .recursionError
  | k => match slIndexOf h a.vals x with
    | none => .error .valueError
    | some i => match k with
      | .wrapped => .error .attributeError
      | _ => .ok { a with vals := a.vals.eraseIdx i }

/-- `tier.concat(new)` for interval tiers (`mixins/tiermixins.py:129-148`): the setter of
    `sequence_list` makes a plain list again.  After an error the state of the tier is not
    meaningful here. -/
def tierConcat (t u : TRef) : M Unit := do
  let h ← M.get
  if h.ct.isSub (h.tcls t) (h.tcls u) || h.ct.isSub (h.tcls u) (h.tcls t) then do
    let l ← clConcat ⟨(h.tseq t).vals, (h.tseq t).ecls, .plain⟩ (h.tseq u).vals
    if l.kind = .cyclic then M.throw .recursionError
    else tierSetSeq t ⟨l.vals, l.ecls⟩
  else M.throw .valueError

/-- `_class_check` (`mixins/tiermixins.py:181-190`): the same number of tiers with the same class
    names. -/
def classCheck (h : Heap) (g g' : GRef) : Bool :=
  (h.gtiers g).length == (h.gtiers g').length &&
    ((h.gtiers g).map fun t => h.ct.name (h.tcls t)) == ((h.gtiers g').map fun t => h.ct.name (h.tcls t))

/-- `PointsGroup.concat(new)` (`mixins/tiermixins.py:284-305`): `interval.super_instance` of a point is
    an `AttributeError`. -/
def pointsConcat (g g' : GRef) : M Unit := do
  let h ← M.get
  if classCheck h g g' then
    match groupXmax h g with
    | .error e => M.throw e
    | .ok _ =>
      M.forL ((h.gtiers g).zip (h.gtiers g')) (fun p => do
        let h ← M.get
        M.forL (h.tseq p.2).vals (fun _ => M.throw .attributeError))
  else M.throw .valueError

/-- `TierGroup.concat(new)` (`mixins/tiermixins.py:284-305`): each entry without a superset is shifted
    and appended to the tier at the same position. -/
def groupConcat (g g' : GRef) : M Unit := do
  let h ← M.get
  if classCheck h g g' then
    match groupXmax h g with
    | .error e => M.throw e
    | .ok inc =>
      M.forL ((h.gtiers g).zip (h.gtiers g')) (fun p => do
        let h ← M.get
        M.forL (h.tseq p.2).vals (fun x => do
          let h ← M.get
          if h.sup x ≠ none then pure ()
          else if (h.tseq p.1).vals.contains x then pure ()
          else do
            ivalShiftN shiftFuel x inc
            tierAppend p.1 x))
  else M.throw .valueError

end ATG
