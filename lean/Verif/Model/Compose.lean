import Verif.Model.Concat
import Verif.Model.Textgrid
/-!
# Adding tiers and groups, appending tiers to groups, looking up by time

`mixins/tiermixins.py`, `sequences/tiers.py`, `points/tiers.py`, `aligned_textgrid.py`.
-/
namespace ATG

/-! ## `+` -/

/-- `tier + new` (`mixins/tiermixins.py:41-52`).  `SequenceList.__add__` may set the entry class of the left
    list in place; `self.__class__(entries)` takes the class of the first entry (`sequences/tiers.py:94-98`,
    `points/tiers.py:80-84`). -/
def tierAdd (t u : TRef) : M TRef := do
  let h ← M.get
  if h.isPointTier t ≠ h.isPointTier u then M.throw .valueError
  else if h.ct.isSub (h.tcls t) (h.tcls u) || h.ct.isSub (h.tcls u) (h.tcls t) then do
    let sl ← slAdd (putSeq t) (h.tseq t) (h.tseq u).vals
    if h.isPointTier t then do
      let h ← M.get
      let c := match sl.vals with
        | [] => cPoint
        | x :: _ => h.cls x
      newPointTier sl.vals c (h.ct.name c)
    else newTier sl.vals none
  else M.throw .valueError

/-- `[t1 + t2 for t1, t2 in zip(self, new)]` (`mixins/tiermixins.py:196-198`) -/
def addTiers : List (TRef × TRef) → M (List TRef)
  | [] => pure []
  | p :: rest => do
    let t ← tierAdd p.1 p.2
    let ts ← addTiers rest
    pure (t :: ts)

/-- `group + new` (`mixins/tiermixins.py:192-203`), without the name -/
def groupAdd (g g' : GRef) : M GRef := do
  let h ← M.get
  if classCheck h g g' then do
    let ts ← addTiers ((h.gtiers g).zip (h.gtiers g'))
    if h.gpoint g then newPointsGroup ts else newGroup ts
  else M.throw .valueError

/-! ## Appending a tier to a group (`mixins/tiermixins.py:205-282`) -/

/-- one class is a subclass of the other -/
def related2 (ct : ClassTab) (c d : CRef) : Bool := ct.isSub c d || ct.isSub d c

/-- The two tests of `append` (`mixins/tiermixins.py:241-275`) for the class `c`.  For a group of point
    tiers, or without tiers, every class fits; `issubclass(None, ...)` is a `TypeError`. -/
def groupFits (h : Heap) (g : GRef) (c : CRef) : Except Err Unit :=
  if ((h.gtiers g).map h.tcls).any (fun d => related2 h.ct d c) then .error .valueError
  else if h.gpoint g || (h.gtiers g).isEmpty then .ok ()
  else
    let possible := (h.gtiers g).flatMap fun t => [h.tsub t, h.tsup t]
    if possible.any Option.isNone then .error .typeError
    else if possible.any (fun d => match d with
        | some d => related2 h.ct d c
        | none => false) then .ok ()
    else .error .valueError

/-- `new.__init__(new, entry_class = new_class)` (`mixins/tiermixins.py:238-239`) for an interval tier:
    a name that is not the class name is kept (`sequences/tiers.py:100-109`). -/
def tierReclass (t : TRef) (c : CRef) : M Unit := do
  let h ← M.get
  tierInit t (h.tseq t).vals c (if h.tname t ≠ h.ct.name (h.tcls t) then h.tname t else h.ct.name c)

/-- the same for a point tier, which is built again from `entry_list`, the points `built` that it was built
    from the last time (`points/tiers.py:93-98`) -/
def pointTierReclass (t : TRef) (c : CRef) (built : List Ref) : M Unit := do
  let h ← M.get
  pointTierInit t built c (if h.tname t ≠ h.ct.name (h.tcls t) then h.tname t else h.ct.name c)

/-- `self.within` of a group is true when it is a textgrid with groups (`aligned_textgrid.py:105-106`) -/
def textgridOf (h : Heap) (g : GRef) : Option ARef :=
  match h.gwithin g with
  | none => none
  | some a => if (h.agroups a).length > 0 then some a else none

/-- `group.append(new)` (`mixins/tiermixins.py:205-282`).  `built` is the `entry_list` of a point tier, an
    attribute the heap does not have.  `orig_tiers += [new]` changes the list object, which is also the
    one in `contains`.  SIMPLIFICATION: `tier_list` and `contains` are taken to be one object whenever they
    are equal. -/
def groupAppend (g : GRef) (t : TRef) (built : List Ref) : M Unit := do
  let h ← M.get
  if h.gpoint g ≠ h.isPointTier t then M.throw .valueError
  else do
    (match textgridOf h g with
      | none => pure ()
      | some a => do
        recloneA a [h.tcls t]
        let h ← M.get
        let cs ← liftE (swapClasses h.ct [h.tcls t] (h.acloned a))
        match cs with
        | [c] => if h.gpoint g then pointTierReclass t c built else tierReclass t c
        | _ => M.throw .valueError)
    let h ← M.get
    liftE (groupFits h g (h.tcls t))
    let l := h.gtiers g ++ [t]
    M.modify fun h => { h with
      gcont := upd h.gcont g (if h.gcont g = some (h.gtiers g) then some l else h.gcont g)
      gtiers := upd h.gtiers g l }
    if h.gpoint g then pointsGroupInit g l else groupInit g l false

/-! ## Looking up by time -/

/-- `group.get_intervals_at_time(time)` (`sequences/tiers.py:667-681`); for a group of point tiers these are
    the nearest points (`points/tiers.py:288-305`), and an empty tier raises `ValueError`. -/
def groupAt (h : Heap) (g : GRef) (time : Time) : Except Err (List (Option Nat)) :=
  if h.gpoint g then
    (h.gtiers g).mapM fun t => match nearest (h.tstarts t) time with
      | some i => .ok (some i)
      | none => .error .valueError
  else (h.gtiers g).mapM fun t => tierAt h t time

/-- `atg.get_intervals_at_time(time)` (`aligned_textgrid.py:770-784`) -/
def atgAt (h : Heap) (a : ARef) (time : Time) : Except Err (List (List (Option Nat))) :=
  (h.agroups a).mapM fun g => groupAt h g time

/-- `tier[i]` for an index that may be `None` (`sequences/tiers.py:131-132`, `points/tiers.py:110-111`) -/
def tierGet (h : Heap) (t : TRef) : Option Nat → Except Err Ref
  | none => .error .typeError
  | some i => match (h.tseq t).vals[i]? with
    | some x => .ok x
    | none => .error .indexError

/-- `group[[i, j, ...]]` (`sequences/tiers.py:507-519`, `points/tiers.py:254-266`) -/
def groupGet (h : Heap) (g : GRef) (idx : List (Option Nat)) : Except Err (List Ref) :=
  if idx.length ≠ (h.gtiers g).length then .error .exc
  else (idx.zip (h.gtiers g)).mapM fun p => tierGet h p.2 p.1

/-- `atg[[[i, j, ...], ...]]` (`aligned_textgrid.py:89-103`) -/
def atgGet (h : Heap) (a : ARef) (idx : List (List (Option Nat))) : Except Err (List (List Ref)) :=
  if idx.length ≠ (h.agroups a).length then .error .indexError
  else if idx.length = 0 then .error .indexError
  else (idx.zip (h.agroups a)).mapM fun p => groupGet h p.2 p.1

end ATG
