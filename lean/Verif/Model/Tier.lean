import Verif.Model.Interval
/-!
# Tiers (`sequences/tiers.py:26-340`, `points/tiers.py:23-228`, `mixins/tiermixins.py:29-166`)
-/
namespace ATG

/-- assignment to the tier's list object -/
def putSeq (t : TRef) (sl : SL) : M Unit := M.modify fun h => { h with tseq := upd h.tseq t sl }

/-- Is `t` a `SequencePointTier`? -/
def Heap.isPointTier (h : Heap) (t : TRef) : Bool := h.ct.isSub (h.tcls t) cPoint

/-- Replacing the list object of a tier: a `_contains` that was the old list object keeps the old
    content. -/
def replaceSeq (t : TRef) (sl : SL) : M Unit := M.modify fun h =>
  { h with
    tcont := upd h.tcont t (match h.tcont t with
      | .alias => .detached (h.tseq t).vals
      | c => c)
    tseq := upd h.tseq t sl }

/-- `self.contains = self._sequence_list` for a tier (`mixins/within.py:46-53`). -/
def setContainsSeq (t : TRef) : M Unit := do
  M.modify fun h => { h with tcont := upd h.tcont t .alias }
  let h ← M.get
  M.forL (h.tseq t).vals (fun it =>
    M.modify fun h => { h with within := upd h.within it (some (.tier t)) })

/-- `__set_intier` (`sequences/tiers.py:152-160`, `points/tiers.py:129-134`). -/
def setIntier (t : TRef) (x : Ref) : M Unit :=
  M.modify fun h => { h with intier := upd h.intier x (some t) }

/-- `__set_precedence` of `SequenceTier` (`sequences/tiers.py:138-150`) and of `SequencePointTier`
    (`points/tiers.py:116-127`, which always sets `contains`). -/
def tierPrecedence (t : TRef) : M Unit := do
  let h ← M.get
  precLoop (setIntier t) none (h.tseq t).vals
  if h.isPointTier t then setContainsSeq t
  else do
    let top ← isSubO (h.tsup t) cTop
    if top then setContainsSeq t else pure ()

/-- The `sequence_list` setter (`sequences/tiers.py:186-189`); for a point tier `sequence_list` is a
    plain attribute (`points/tiers.py:103`), so assigning it does nothing else. -/
def tierSetSeq (t : TRef) (sl : SL) : M Unit := do
  let h ← M.get
  if h.isPointTier t then replaceSeq t sl
  else do
    let sl ← slMk sl.vals
    replaceSeq t sl
    tierPrecedence t

/-- `SequenceTier.__init__` on entries that already exist (`sequences/tiers.py:82-128`), with the entry
    class and name already determined; `t` is the tier object. -/
def tierInit (t : TRef) (entries : List Ref) (c : CRef) (name : String) : M Unit := do
  M.modify fun h => { h with tname := upd h.tname t name }
  replaceSeq t SL.empty
  M.modify fun h => { h with
    tcls := upd h.tcls t c, tsup := upd h.tsup t (h.ct.sup c), tsub := upd h.tsub t (h.ct.sub c) }
  M.forL entries (fun x => castTo c x)
  let sl ← slMk entries
  tierSetSeq t sl
  tierPrecedence t

/-- Allocate a tier object. -/
def newTierObj : M TRef := fun h =>
  .ok h.nT { h with
    nT := h.nT + 1
    tseq := upd h.tseq h.nT SL.empty
    tcont := upd h.tcont h.nT .unset
    twithin := upd h.twithin h.nT none }

/-- `SequenceTier(entries)` / `SequenceTier(entries, entry_class)` for a list of intervals
    (`sequences/tiers.py:82-116`): without an explicit class it is the class of the first entry, or
    `SequenceInterval` for an empty list; the name is the class name. -/
def newTier (entries : List Ref) (c : Option CRef) : M TRef := do
  let t ← newTierObj
  let h ← M.get
  let c := match c with
    | some c => c
    | none => match entries with
      | [] => cInterval
      | x :: _ => h.cls x
  tierInit t entries c (h.ct.name c)
  pure t

/-- Make one entry per triple (`sequences/tiers.py:127` with `mixins/mixins.py:22-24`). -/
def newEntries (c : CRef) : List (Time × Time × String) → M (List Ref)
  | [] => pure []
  | (s, e, l) :: rest => do
    let r ← newEntry c s e l
    let rs ← newEntries c rest
    pure (r :: rs)

/-- `SequenceTier(interval_tier, entry_class)` for a praatio `IntervalTier` or a list of praatio
    `Interval`s (`sequences/tiers.py:82-128`). -/
def newTierFrom (triples : List (Time × Time × String)) (c : CRef) (name : String) : M TRef := do
  let t ← newTierObj
  let es ← newEntries c triples
  tierInit t es c name
  pure t

/-- `SequencePointTier.__init__` on existing points (`points/tiers.py:69-108`): sort by time, then
    `SequenceList.append` one by one; an interval has no `time` (line 101). SIMPLIFICATION: stable
    sort. -/
def pointTierInit (t : TRef) (entries : List Ref) (c : CRef) (name : String) : M Unit := do
  M.modify fun h => { h with tcls := upd h.tcls t c, tname := upd h.tname t name }
  let h ← M.get
  if entries.all h.isPoint then do
    replaceSeq t SL.empty
    M.forL (sortBy h.start entries) (fun x => do
      castTo c x
      let h ← M.get
      let sl ← slAppend (h.tseq t) x
      putSeq t sl)
    tierPrecedence t
  else M.throw .attributeError

/-- `SequencePointTier(points, entry_class)` -/
def newPointTier (entries : List Ref) (c : CRef) (name : String) : M TRef := do
  let t ← newTierObj
  pointTierInit t entries c name
  pure t

/-- `SequenceTier.pop` (`sequences/tiers.py:162-177`). Note `is Top`: the precedence is reset only when
    the superset class is `Top` itself, not for a subclass such as `Top_wp` or `Top_0`. -/
def tierPop (t : TRef) (x : Ref) : M Unit := do
  let h ← M.get
  if slContains h (h.tseq t).vals x then do
    slRemoveAt (fun h => h.tseq t) (putSeq t) x
    if h.tsup t = some cTop then tierPrecedence t else pure ()
  else M.throw .exc

/-- `within_index` of a tier (`mixins/within.py:56-60`): `none` without a container; `ValueError` when
    the container does not list the tier. -/
def tierWithinIndex (h : Heap) (t : TRef) : Except Err (Option Nat) :=
  match h.twithin t with
  | none => .ok none
  | some g =>
    match h.gcont g with
    | none => .ok none
    | some l => match l.findIdx? (· == t) with
      | some i => .ok (some i)
      | none => .error .valueError

/-- Python list indexing with a possibly negative index: `l[i]` (`IndexError` = `none`). -/
def pyGet {α} (l : List α) (i : Int) : Option α :=
  if 0 ≤ i then l[i.toNat]? else
    if 0 ≤ i + l.length then l[(i + l.length).toNat]? else none

/-- Truthiness of `self.within` for a tier: a group is truthy when it has tiers
    (`sequences/tiers.py:521-522`). -/
def withinTruthy (h : Heap) (t : TRef) : Option GRef :=
  match h.twithin t with
  | none => none
  | some g => if (h.gtiers g).length > 0 then some g else none

/-- `self.within[self.within_index + d]` (`mixins/tiermixins.py:114-122`). -/
def siblingTier (g : GRef) (t : TRef) (d : Int) : M TRef := do
  let h ← M.get
  match tierWithinIndex h t with
  | .error e => M.throw e
  | .ok none => M.throw .typeError
  | .ok (some i) => match pyGet (h.gtiers g) (i + d) with
    | none => M.throw .indexError
    | some t' => pure t'

/-- `TierMixins.append(new, re_relate=False)` (`mixins/tiermixins.py:54-125`) with recursion fuel. -/
def tierAppendN : Nat → TRef → Ref → M Unit
  | 0, _, _ => M.throw .recursionError
  | n + 1, t, x => do
    let h ← M.get
    if h.ct.isSub (h.tcls t) (h.cls x) || h.ct.isSub (h.cls x) (h.tcls t) then
      if (h.tseq t).vals.contains x then pure ()
      else do
        let sl ← slAdd (putSeq t) (h.tseq t) [x]
        tierSetSeq t sl
        let h ← M.get
        (if (h.subs x).vals.length > 0 then
          match withinTruthy h t with
          | none => pure ()
          | some g => do
            M.forL (h.subs x).vals (fun iv => do
              let d ← siblingTier g t 1
              tierAppendN n d iv)
        else pure ())
        let h ← M.get
        (match h.sup x with
          | none => pure ()
          | some s =>
            if (h.subs s).vals.length > 0 then
              match withinTruthy h t with
              | none => pure ()
              | some g => do
                let u ← siblingTier g t (-1)
                tierAppendN n u s
            else pure ())
    else M.throw .valueError

/-- A generous recursion budget for the model's own calls of `append`; Python's default recursion
    limit is 1000 frames. -/
def appendFuel : Nat := 1000

/-- `tier.append(new, re_relate = False)` -/
def tierAppendNR (t : TRef) (x : Ref) : M Unit := tierAppendN appendFuel t x

/-- `InstanceMixins.append` (`sequences/sequences.py:109-116`). -/
def ivalAppend (w x : Ref) : M Unit := do
  let h ← M.get
  let ok ← isSubO (h.ct.sub (h.cls w)) (h.cls x)
  if ok then do
    subsIAdd w [x]
    let h ← M.get
    match h.intier w with
    | none => pure ()
    | some t =>
      if (h.tseq t).vals.length > 0 then
        match withinTruthy h t with
        | none => pure ()
        | some g => do
          let d ← siblingTier g t 1
          tierAppendNR d x
      else pure ()
  else M.throw .valueError

/-- The new blank intervals computed by the internal part of `SequenceInterval.cleanup`
    (`sequences/sequences.py:561-577`): before the first, after the last, and between neighbours. -/
def cleanupSpans (h : Heap) (w : Ref) : List (Time × Time) :=
  match (h.subs w).vals with
  | [] => []
  | x :: xs =>
    let l := x :: xs
    let lastR := (x :: xs).getLast (by simp)
    (if allclose (h.start w) (h.start x) then [] else [(h.start w, h.start x)]) ++
    (if allclose (h.stop w) (h.stop lastR) then [] else [(h.stop lastR, h.stop w)]) ++
    ((l.zip xs).filterMap fun p =>
      if allclose (h.stop p.1) (h.start p.2) then none else some (h.stop p.1, h.start p.2))

/-- `to_add += [self.subset_class((s, e, ""))]` for each computed span, on a local `SequenceList`
    (`sequences/sequences.py:561-577`). -/
def buildToAdd (c : CRef) : List (Time × Time) → SL → M SL
  | [], acc => pure acc
  | (s, e) :: rest, acc => do
    let r ← newEntry c s e ""
    let acc' ← slAdd (fun _ => pure ()) acc [r]
    buildToAdd c rest acc'

/-- `SequenceInterval.cleanup` (`sequences/sequences.py:536-580`) with fuel for the drill-down. -/
def ivalCleanupN : Nat → Ref → Bool → M Unit
  | 0, _, _ => M.throw .recursionError
  | n + 1, w, internal => do
    let h ← M.get
    let bot ← isSubO (h.ct.sub (h.cls w)) cBottom
    if bot then pure ()
    else
      match h.ct.sub (h.cls w) with
      | none => M.throw .typeError
      | some c =>
        if (h.subs w).vals.length < 1 then do
          let r ← newEntry c (h.start w) (h.stop w) ""
          ivalAppend w r
          ivalCleanupN n r true
        else if !internal then pure ()
        else do
          let toAdd ← buildToAdd c (cleanupSpans h w) SL.empty
          M.forL toAdd.vals (fun r => ivalAppend w r)

/-- `SequenceInterval.duration` (`sequences/sequences.py:528-530`) -/
def Heap.duration (h : Heap) (x : Ref) : Time := h.stop x - h.start x

/-- `SequenceInterval.sub_labels` (`sequences/sequences.py:518-520`, `sequence_list.py:168-173`), for words also `phones`
    (`word_and_phone.py:123-125`) -/
def subLabels (h : Heap) (x : Ref) : List String := (h.subs x).vals.map h.label

/-- Recursion depth allowed to the drill-down of `cleanup`; a class hierarchy deeper than this is not
    covered. -/
def cleanupFuel : Nat := 1000

/-- `w.cleanup()` -/
def ivalCleanup (w : Ref) : M Unit := ivalCleanupN cleanupFuel w true

/-- Label and identity of what `fol`/`prev` points to: is it an edge (`label == "#"`)? -/
def linkTarget (h : Heap) : Option Link → Except Err (Option Ref)
  | none => .error .attributeError
  | some .bumper => .ok none
  | some (.obj r) => if h.label r = "#" then .ok none else .ok (some r)

/-- The tail of both fuse functions: drop the fused interval from tier and superset
    (`sequences/sequences.py:604-610`, `635-641`); both branches of the `if` pop it from the tier. -/
def fuseDrop (fuser fusee : Ref) : M Unit := do
  let h ← M.get
  let inTier : Option TRef := match h.intier fuser with
    | none => none
    | some t => if (h.tseq t).vals.length > 0 then some t else none
  match decide (h.ct.sup (h.cls fuser) = some cTop), inTier with
  | true, some t => tierPop t fusee
  | _, _ => do
    (match inTier with
      | some t => tierPop t fusee
      | none => pure ())
    let h ← M.get
    match h.sup fuser with
    | none => pure ()
    | some s =>
      if (h.subs s).vals.length > 0 && slContains h (h.subs s).vals fusee then subsRemove s fusee
      else pure ()

/-- `fuse_rightwards` (`sequences/sequences.py:583-612`). -/
def fuseRight (joinLab : String → String → String) (x : Ref) : M Unit := do
  let h ← M.get
  match linkTarget h (h.fol x) with
  | .error e => M.throw e
  | .ok none => M.throw .exc
  | .ok (some y) => do
    M.modify fun h => { h with stop := upd h.stop x (h.stop y) }
    M.modify fun h => { h with fol := upd h.fol x (h.fol y) }
    M.modify fun h => { h with label := upd h.label x (joinLab (h.label x) (h.label y)) }
    let h ← M.get
    let r ← slAdd (putSubs x) (h.subs x) (h.subs y).vals
    setSubs x r.vals
    fuseDrop x y

/-- `fuse_leftwards` (`sequences/sequences.py:614-645`). -/
def fuseLeft (joinLab : String → String → String) (x : Ref) : M Unit := do
  let h ← M.get
  match linkTarget h (h.prev x) with
  | .error e => M.throw e
  | .ok none => M.throw .exc
  | .ok (some y) => do
    M.modify fun h => { h with start := upd h.start x (h.start y) }
    M.modify fun h => { h with prev := upd h.prev x (h.prev y) }
    M.modify fun h => { h with label := upd h.label x (joinLab (h.label y) (h.label x)) }
    let h ← M.get
    let r ← slAdd (putSubs y) (h.subs y) (h.subs x).vals
    setSubs x r.vals
    fuseDrop x y

/-- The default `label_fun`: `" ".join([x, y])`. -/
def joinSpace (a b : String) : String := a ++ " " ++ b

/-- spans of a tier -/
def Heap.tspans (h : Heap) (t : TRef) : List (Time × Time) :=
  (h.tseq t).vals.map fun x => (h.start x, h.stop x)

/-- `SequenceTier.starts` (`sequences/tiers.py:192-193`) -/
def Heap.tstarts (h : Heap) (t : TRef) : List Time := (h.tseq t).vals.map h.start
/-- `SequenceTier.ends` (`sequences/tiers.py:204-205`) -/
def Heap.tends (h : Heap) (t : TRef) : List Time := (h.tseq t).vals.map h.stop

/-- `tier.xmin` (`sequences/tiers.py:224-228`, `points/tiers.py:156-160`). -/
def tierXmin (h : Heap) (t : TRef) : Option Time := minL (h.tstarts t)
/-- `tier.xmax` (`sequences/tiers.py:231-235`; `points/tiers.py:163-167`, where the times are
    `start = stop`). -/
def tierXmax (h : Heap) (t : TRef) : Option Time := maxL (h.tends t)

/-- `tier.get_interval_at_time(time)` (`sequences/tiers.py:287-308`). -/
def tierAt (h : Heap) (t : TRef) (time : Time) : Except Err (Option Nat) :=
  intervalAt (h.tspans t) time

/-- The `starts` setter (`sequences/tiers.py:195-201`). -/
def setStarts (t : TRef) (times : List Time) : M Unit := do
  let h ← M.get
  if (h.tseq t).vals.length = times.length then
    M.forL (times.zip (h.tseq t).vals) (fun p => setStart p.2 p.1)
  else M.throw .exc

/-- The `ends` setter (`sequences/tiers.py:207-213`). -/
def setEnds (t : TRef) (times : List Time) : M Unit := do
  let h ← M.get
  if (h.tseq t).vals.length = times.length then
    M.forL (times.zip (h.tseq t).vals) (fun p => setStop p.2 p.1)
  else M.throw .exc

/-- `tier._shift(increment)` (`sequences/tiers.py:215-217`, `points/tiers.py:169-170`). -/
def tierShift (t : TRef) (d : Time) : M Unit := do
  let h ← M.get
  setStarts t ((h.tstarts t).map (· + d))
  let h ← M.get
  setEnds t ((h.tends t).map (· + d))

/-- `return_tier` (`sequences/tiers.py:310-323`): the triples handed to praatio. -/
def returnTier (h : Heap) (t : TRef) : List (Time × Time × String) :=
  (h.tseq t).vals.map fun x => (h.start x, h.stop x, h.label x)

end ATG
