import Verif.Model.Tier
/-!
# Tier groups (`sequences/tiers.py:343-692`, `points/tiers.py:230-328`,
`mixins/tiermixins.py:171-342`)
-/
namespace ATG

/-! ## Arranging tiers by class -/

/-- First loop of `_arrange_tiers` (`sequences/tiers.py:544-557`): climb from `seed` as long as the
    superset class has a tier. Fuel exhaustion stands for the non-terminating loop. -/
def arrangeUp (h : Heap) (tiers : List TRef) : Nat → TRef → Except Err TRef
  | 0, _ => .error .recursionError
  | n + 1, seed =>
    match h.tsup seed with
    | none => .error .typeError
    | some s =>
      if h.ct.isSub s cTop then .ok seed
      else
        match tiers.find? (fun t => h.tcls t == s) with
        | none => .ok seed
        | some t => arrangeUp h tiers n t

/-- Second loop of `_arrange_tiers` (`sequences/tiers.py:560-575`): descend from `cur` as long as the
    subset class has a tier. The flag tells whether a `Bottom` class was reached (only then `contains`
    is set, line 574; line 571 returns early). -/
def arrangeDown (h : Heap) (tiers : List TRef) : Nat → TRef → Except Err (List TRef × Bool)
  | 0, _ => .error .recursionError
  | n + 1, cur =>
    match h.tsub cur with
    | none => .error .typeError
    | some c =>
      if h.ct.isSub c cBottom then .ok ([cur], true)
      else
        match tiers.find? (fun t => h.tcls t == c) with
        | none => .ok ([cur], false)
        | some t => match arrangeDown h tiers n t with
          | .error e => .error e
          | .ok (l, b) => .ok (cur :: l, b)

/-- `_arrange_tiers` (`sequences/tiers.py:533-575`), without the assignment of `contains`. -/
def arrange (h : Heap) (tiers : List TRef) : Except Err (List TRef × Bool) :=
  match tiers with
  | [] => .error .indexError
  | t0 :: _ =>
    match arrangeUp h tiers (tiers.length + 1) t0 with
    | .error e => .error e
    | .ok top => arrangeDown h tiers (tiers.length + 1) top

/-- `self.contains = top_to_bottom` for a group (`mixins/within.py:46-53`). -/
def setContainsGroup (g : GRef) (l : List TRef) : M Unit := do
  M.modify fun h => { h with gcont := upd h.gcont g (some l) }
  M.forL l (fun t => M.modify fun h => { h with twithin := upd h.twithin t (some g) })

/-! ## Relating two adjacent tiers -/

/-- `SequenceList(*lower_tier[a:b])` for every upper interval (`sequences/tiers.py:455-462`). -/
def mkSlices : List (List Ref) → M (List SL)
  | [] => pure []
  | l :: ls => do
    let s ← slMk l
    let r ← mkSlices ls
    pure (s :: r)

/-- `lowers.append(lowers[0].entry_class((s, e, "")))` for each gap (`sequences/tiers.py:470-473`). -/
def fillGaps (c : CRef) : List (Time × Time) → SL → M SL
  | [], acc => pure acc
  | (s, e) :: rest, acc => do
    let r ← newEntry c s e ""
    let acc' ← slAppend acc r
    fillGaps c rest acc'

/-- "Close internal gaps" (`sequences/tiers.py:464-473`) for one slice. The class is that of
    `lowers[0]`, which is the `entry_class` of the list. -/
def closeGaps (sl : SL) : M SL := do
  let h ← M.get
  let starts := sl.vals.map h.start
  let ends := sl.vals.map h.stop
  match sl.vals with
  | [] => pure sl
  | x :: _ =>
    if firstEndClose starts ends then pure sl
    else fillGaps (h.cls x) (gapPairs starts ends) sl

/-- the loop over all slices (`sequences/tiers.py:465`) -/
def closeAllGaps : List SL → M (List SL)
  | [] => pure []
  | s :: rest => do
    let s' ← closeGaps s
    let rest' ← closeAllGaps rest
    pure (s' :: rest')

/-- `(l.ends - l.starts).sum()` (`sequences/tiers.py:480-483`) -/
def totalDur (h : Heap) (l : List Ref) : Time := (l.map fun x => h.stop x - h.start x).sum

/-- Body of the last loop of the relation (`sequences/tiers.py:487-505`) for one upper interval. -/
def relateOne (lower : TRef) (anyMis squish delay : Bool) (u : Ref) (l : SL) : M Unit := do
  setSubsetList u l.vals
  let h ← M.get
  (if (h.subs u).vals.length = 0 then
    match h.ct.sub (h.cls u) with
    | none => M.throw .typeError
    | some c => do
      let r ← newEntry c (h.start u) (h.stop u) ""
      ivalAppend u r
      tierAppendNR lower r
   else pure ())
  (if anyMis && !delay then do
    let h ← M.get
    match (h.subs u).vals with
    | [] => M.throw .indexError
    | x :: xs => do
      let last := (x :: xs).getLast (by simp)
      let s := max (h.start u) (h.start x)
      let e := min (h.stop u) (h.stop last)
      setStart u s
      setStart x s
      setStop u e
      setStop last e
   else pure ())
  if squish && !delay then ivalCleanup u else pure ()

/-- One iteration of the tier loop of `TierGroup.__init__` (`sequences/tiers.py:397-505`). -/
def relatePair (upper lower : TRef) (delay : Bool) : M Unit := do
  let h ← M.get
  let us := h.tspans upper
  let ls := h.tspans lower
  if us.length = 0 || ls.length = 0 then pure ()
  else do
    let asg := containers us ls
    let anyMis := anyMismatch us ls
    let sls ← mkSlices (slices asg (h.tseq lower).vals us.length)
    let sls ← closeAllGaps sls
    let h ← M.get
    let uDurs := us.map fun p => p.2 - p.1
    let lDurs := sls.map fun s => totalDur h s.vals
    let squish := !allcloseL uDurs lDurs
    M.forL ((h.tseq upper).vals.zip sls) (fun p => relateOne lower anyMis squish delay p.1 p.2)

/-- The loop over adjacent tiers (`sequences/tiers.py:393-398`). -/
def relateChain (delay : Bool) : List TRef → M Unit
  | [] => pure ()
  | [_] => pure ()
  | u :: l :: rest => do
    relatePair u l delay
    relateChain delay (l :: rest)

/-- `TierGroup.__init__` (`sequences/tiers.py:367-505`) on the group object `g`, without the name and
    the named accessors (for those see `setTierNames`). -/
def groupInit (g : GRef) (tiers : List TRef) (delay : Bool) : M Unit := do
  let h ← M.get
  match arrange h tiers with
  | .error e => M.throw e
  | .ok (arr, complete) => do
    (if complete then setContainsGroup g arr else pure ())
    M.modify fun h => { h with gtiers := upd h.gtiers g arr }
    M.forL tiers (fun t => do
      let h ← M.get
      M.forL (h.tseq t).vals (fun x => removeSuperset x))
    relateChain delay arr

/-- Allocate a group object. -/
def newGroupObj (pt : Bool) : M GRef := fun h =>
  .ok h.nG { h with
    nG := h.nG + 1
    gtiers := upd h.gtiers h.nG []
    gcont := upd h.gcont h.nG none
    gpoint := upd h.gpoint h.nG pt
    gwithin := upd h.gwithin h.nG none }

/-- `TierGroup(tiers)` -/
def newGroup (tiers : List TRef) : M GRef := do
  let g ← newGroupObj false
  groupInit g tiers false
  pure g

/-- `PointsGroup.__init__` (`points/tiers.py:243-252`). -/
def pointsGroupInit (g : GRef) (tiers : List TRef) : M Unit := do
  M.modify fun h => { h with gtiers := upd h.gtiers g tiers }
  setContainsGroup g tiers

/-- `PointsGroup(tiers)` -/
def newPointsGroup (tiers : List TRef) : M GRef := do
  let g ← newGroupObj true
  pointsGroupInit g tiers
  pure g

/-- `re_relate` (`mixins/tiermixins.py:341-342`): `self.__init__(self)`. -/
def reRelate (g : GRef) : M Unit := do
  let h ← M.get
  if h.gpoint g then pointsGroupInit g (h.gtiers g) else groupInit g (h.gtiers g) false

/-- `tier.append(new)` with the default `re_relate = True` (`mixins/tiermixins.py:54-125`). The
    identity test of line 106 returns before relating. -/
def tierAppend (t : TRef) (x : Ref) : M Unit := do
  let h ← M.get
  let present := (h.tseq t).vals.contains x
  tierAppendNR t x
  if present then pure ()
  else do
    let h ← M.get
    match withinTruthy h t with
    | none => pure ()
    | some g => reRelate g

/-! ## Cleanup -/

/-- `self.sequence_list.append(self.entry_class((s, e, "")))` for each gap
    (`sequences/tiers.py:247-249`): the list object is changed in place; neither precedence nor
    `intier` is set. -/
def tierFill (t : TRef) : List (Time × Time) → M Unit
  | [] => pure ()
  | (s, e) :: rest => do
    let h ← M.get
    let r ← newEntry (h.tcls t) s e ""
    let h ← M.get
    let sl ← slAppend (h.tseq t) r
    putSeq t sl
    tierFill t rest

/-- `SequenceTier.cleanup` (`sequences/tiers.py:237-258`) with fuel for going down the group. -/
def tierCleanupN : Nat → TRef → M Unit
  | 0, _ => M.throw .recursionError
  | n + 1, t => do
    let h ← M.get
    if tight (h.tstarts t) (h.tends t) then pure ()
    else do
      tierFill t (gapPairs (h.tstarts t) (h.tends t))
      let h ← M.get
      let bot ← isSubO (h.tsub t) cBottom
      match bot, withinTruthy h t with
      | true, some g => reRelate g
      | _, none => pure ()
      | false, some g => do
        let d ← siblingTier g t 1
        tierCleanupN n d

/-- `tier.cleanup()`; a group has at most `gtiers` levels below the tier. -/
def tierCleanup (t : TRef) : M Unit := fun h =>
  tierCleanupN (1 + match h.twithin t with | none => 0 | some g => (h.gtiers g).length) t h

/-- `_project_up` (`sequences/tiers.py:593-610`). -/
def projectUp (x : Ref) : M Unit := do
  let h ← M.get
  let top ← isSubO (h.ct.sup (h.cls x)) cTop
  if top then pure ()
  else
    match h.intier x with
    | none => M.throw .attributeError
    | some t =>
      match h.twithin t with
      | none => M.throw .typeError
      | some g => do
        let u ← siblingTier g t (-1)
        let h ← M.get
        let midp := h.start x + (h.stop x - h.start x) / 2
        match tierAt h u midp with
        | .error e => M.throw e
        | .ok (some _) => pure ()
        | .ok none => do
          let r ← newEntry (h.tcls u) (h.start x) (h.stop x) ""
          tierAppendNR u r

/-- Truthiness of `i.within` for an entry (`sequences/tiers.py:631-638`): a tier or interval is truthy
    when it is not empty. -/
def entryWithinTruthy (h : Heap) (x : Ref) : Bool :=
  match h.within x with
  | none => false
  | some (.ival w) => (h.subs w).vals.length > 0
  | some (.tier t) => (h.tseq t).vals.length > 0

/-- One iteration of the first loop of `TierGroup.cleanup` (`sequences/tiers.py:619-640`); the result
    tells whether the tier was not tight. -/
def cleanupScan (g : GRef) (t : TRef) : M Bool := do
  let h ← M.get
  let notTight := !tight (h.tstarts t) (h.tends t)
  if h.ct.isSub (h.tcls t) cTop then pure notTight
  else
    let entries := (h.tseq t).vals
    if entries.any (fun i => !entryWithinTruthy h i) then do
      M.forL entries (fun i => do
        let h ← M.get
        if entryWithinTruthy h i then pure () else projectUp i)
      reRelate g
      pure notTight
    else pure notTight

/-- the first loop of `TierGroup.cleanup` -/
def cleanupScanAll (g : GRef) : List TRef → Bool → M Bool
  | [], acc => pure acc
  | t :: rest, acc => do
    let b ← cleanupScan g t
    cleanupScanAll g rest (acc || b)

/-- `TierGroup.cleanup` (`sequences/tiers.py:612-648`). SIMPLIFICATION: `for tier in self` iterates over
    the tier list as it was at the start of the loop (re-relating a group rearranges the same tiers in
    the same order). -/
def groupCleanup (g : GRef) : M Unit := do
  let h ← M.get
  let notTight ← cleanupScanAll g (h.gtiers g) false
  if notTight then do
    let h ← M.get
    M.forL (h.gtiers g) (fun t => tierCleanup t)
    reRelate g
  else pure ()

/-! ## Extents, shifting, queries -/

/-- `np.array([...]).min()` of the tiers' `xmin` (`sequences/tiers.py:585-587`, `points/tiers.py:311-316`).
    `None` members (empty tiers) make numpy's comparison raise `TypeError`; an empty list raises
    `ValueError`. SIMPLIFICATION: a single `None` is returned by numpy as it is; here it is an error
    too. -/
def minOfExtents (l : List (Option Time)) : Except Err Time :=
  match l.mapM id with
  | none => .error .typeError
  | some ts => match minL ts with
    | none => .error .valueError
    | some m => .ok m

/-- `np.array([...]).max()` of a list of extents. -/
def maxOfExtents (l : List (Option Time)) : Except Err Time :=
  match l.mapM id with
  | none => .error .typeError
  | some ts => match maxL ts with
    | none => .error .valueError
    | some m => .ok m

/-- `group.xmin` (`sequences/tiers.py:585-587`, `points/tiers.py:311-316`) -/
def groupXmin (h : Heap) (g : GRef) : Except Err Time :=
  minOfExtents ((h.gtiers g).map (tierXmin h))

/-- `group.xmax`: the maximum of the tiers' `xmax` for a `TierGroup` (`sequences/tiers.py:589-591`), but
    of the tiers' **xmin** for a `PointsGroup` (`points/tiers.py:318-323`). -/
def groupXmax (h : Heap) (g : GRef) : Except Err Time :=
  if h.gpoint g then maxOfExtents ((h.gtiers g).map (tierXmin h))
  else maxOfExtents ((h.gtiers g).map (tierXmax h))

/-- `group.shift(increment)` (`sequences/tiers.py:651-665`, `points/tiers.py:271-286`). -/
def groupShift (g : GRef) (d : Time) : M Unit := do
  let h ← M.get
  M.forL (h.gtiers g) (fun t => tierShift t d)

/-- `x._shift(increment)` for an interval (`sequences/sequences.py:522-526`,
    `sequence_list.py:124-126`), with fuel for the depth. -/
def ivalShiftN : Nat → Ref → Time → M Unit
  | 0, _, _ => M.throw .recursionError
  | n + 1, x, d => do
    M.modify fun h => { h with start := upd h.start x (h.start x + d) }
    M.modify fun h => { h with stop := upd h.stop x (h.stop x + d) }
    let h ← M.get
    M.forL (h.subs x).vals (fun y => ivalShiftN n y d)

end ATG
