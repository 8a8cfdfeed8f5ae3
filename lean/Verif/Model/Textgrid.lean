import Verif.Model.Base
/-!
# `AlignedTextGrid` (`aligned_textgrid.py`)

SIMPLIFICATION: the names of tier groups (`make_name` uses `difflib`) are not part of the heap; what is
done with them is modelled on lists of names (`setNames`).
-/
namespace ATG

/-- Run a class operation on the class table of the heap. -/
def liftC {α} (f : ClassTab → CRes α) : M α := fun h =>
  match f h.ct with
  | (ct', .ok a) => .ok a { h with ct := ct' }
  | (ct', .error e) => .err e { h with ct := ct' }

/-- Turn a pure outcome into an action. -/
def liftE {α} : Except Err α → M α
  | .ok a => pure a
  | .error e => M.throw e

/-! ## Nesting the tiers (`aligned_textgrid.py:149-181,242-307`) -/

/-- The `entry_classes` argument: a flat list of classes or a list of lists. -/
inductive ClassArg
  | flat (l : List CRef)
  | nested (l : List (List CRef))
deriving DecidableEq, Repr

/-- `[i for i,c in enumerate(class_supers) if issubclass(c, Top)]` (`aligned_textgrid.py:163-165`). A point
    class has no attribute `superset_class`; a superset class `None` makes `issubclass` raise. The list of
    superset classes is built first. -/
def topIdxes (ct : ClassTab) (l : List CRef) : Except Err (List Nat) :=
  if l.any (fun c => ct.isSub c cPoint) then .error .attributeError
  else if l.any (fun c => (ct.sup c).isNone) then .error .typeError
  else .ok (((List.range l.length).zip l).filterMap fun p =>
    match ct.sup p.2 with
    | some s => if ct.isSub s cTop then some p.1 else none
    | none => none)

/-- `_extend_classes` (`aligned_textgrid.py:149-181`); `n` is the number of tiers of the textgrid. -/
def extendClasses (ct : ClassTab) (n : Nat) : ClassArg → Except Err ClassArg
  | .nested [] => .error .indexError
  | .nested l => .ok (.nested l)
  | .flat [] => .error .indexError
  | .flat l =>
    match topIdxes ct l with
    | .error e => .error e
    | .ok tops =>
      if l.length = 1 then .ok (.nested (List.replicate (n / l.length) l))
      else if tops.length ≤ 1 then .ok (.nested (List.replicate (n / l.length) l))
      else .ok (.flat l)

/-- The tiers taken by one list of classes (`aligned_textgrid.py:267-269`): one tier per class, counting on
    from `i`; `IndexError` when there are not enough. -/
def takeTiers {α} (tiers : List α) : Nat → List CRef → Except Err (List α)
  | _, [] => .ok []
  | i, _ :: cs => match tiers[i]? with
    | none => .error .indexError
    | some t => match takeTiers tiers (i + 1) cs with
      | .error e => .error e
      | .ok ts => .ok (t :: ts)

/-- The loop over the nested classes (`aligned_textgrid.py:263-270`). -/
def nestTiers {α} (tiers : List α) : Nat → List (List CRef) → Except Err (List (List α))
  | _, [] => .ok []
  | i, cs :: rest => match takeTiers tiers i cs with
    | .error e => .error e
    | .ok ts => match nestTiers tiers (i + cs.length) rest with
      | .error e => .error e
      | .ok r => .ok (ts :: r)

/-- The `while` loop that follows one hierarchy down (`aligned_textgrid.py:288-302`), as the list of
    positions in `entry_classes` after the current one, `cur` being the current class. Fuel exhaustion
    stands for the endless loop on cyclic classes. -/
def followDown (ct : ClassTab) (classes : List CRef) : Nat → CRef → Except Err (List Nat)
  | 0, _ => .error .recursionError
  | n + 1, cur =>
    match ct.sub cur with
    | none => .error .typeError
    | some s =>
      if ct.isSub s cBottom then .ok []
      else
        match classes.findIdx? (· == s) with
        | none => .ok []
        | some i => match followDown ct classes n s with
          | .error e => .error e
          | .ok r => .ok (i :: r)

/-- `textgrid.tiers[i]` and `entry_classes[i]` for a list of positions. -/
def pick {α} (l : List α) (is : List Nat) : Except Err (List α) :=
  is.mapM fun i => match l[i]? with | some a => .ok a | none => .error .indexError

/-- `_nestify_tiers` (`aligned_textgrid.py:242-307`): the tiers and the classes of each group. -/
def nestify {α} (ct : ClassTab) (tiers : List α) (arg : ClassArg) :
    Except Err (List (List α) × List (List CRef)) :=
  match extendClasses ct tiers.length arg with
  | .error e => .error e
  | .ok (.nested []) => .error .indexError
  | .ok (.nested l) => match nestTiers tiers 0 l with
    | .error e => .error e
    | .ok ts => .ok (ts, l)
  | .ok (.flat l) =>
    match topIdxes ct l with
    | .error e => .error e
    | .ok tops =>
      if tops.length ≤ 1 then .ok ([tiers], [l])
      else do
        let idxs ← tops.mapM fun i => match l[i]? with
          | none => .error .indexError
          | some c => match followDown ct l (l.length + 1) c with
            | .error e => .error e
            | .ok r => .ok (i :: r)
        let ts ← idxs.mapM (pick tiers)
        let cs ← idxs.mapM (pick l)
        pure (ts, cs)

/-! ## Cloned classes (`aligned_textgrid.py:183-240`) -/

/-- Recursion budget for the class functions: no acyclic hierarchy is deeper. -/
def hierFuel (ct : ClassTab) : Nat := 2 * ct.next + 2

/-- A class of that name among the classes cloned before, or a new clone
    (`aligned_textgrid.py:207-212,215-220`); `names` are the names of the classes cloned before. -/
def cloneOrReuse (cloned : List CRef) (names : List String) (ct : ClassTab) (c : CRef) : CRes CRef :=
  match names.findIdx? (· == ct.name c) with
  | some i => match cloned[i]? with
    | some d => (ct, .ok d)
    | none => (ct, .error .indexError)
  | none => cloneClassN (hierFuel ct) ct c false

/-- the loops over points and tops (`aligned_textgrid.py:205-220`) -/
def cloneAll (cloned : List CRef) (names : List String) : ClassTab → List CRef → CRes (List CRef)
  | ct, [] => (ct, .ok [])
  | ct, c :: cs =>
    (cloneOrReuse cloned names ct c).bind fun ct d =>
      (cloneAll cloned names ct cs).bind fun ct ds => (ct, .ok (d :: ds))

/-- the hierarchies of the cloned tops (`aligned_textgrid.py:222-224`) -/
def hiersOf (ct : ClassTab) (tops : List CRef) : Except Err (List CRef) :=
  match tops.mapM fun t => classHierN ct (hierFuel ct) t [] with
  | .ok ls => .ok ls.flatten
  | .error e => .error e

/-- `_reclone_classes` (`aligned_textgrid.py:183-227`) on a flat list: the classes added to
    `_cloned_classes`. SIMPLIFICATION: `list(set(...))` has no fixed order; the order of first occurrence
    is used. -/
def reclone (cloned : List CRef) (ct : ClassTab) (classes : List CRef) : CRes (List CRef) :=
  let uniq := classes.eraseDups
  let names := cloned.map ct.name
  let points := uniq.filter fun c => ct.isSub c cPoint
  let ivs := uniq.filter fun c => ct.isSub c cInterval
  if ivs.any (fun c => (ct.sup c).isNone) then (ct, .error .typeError)
  else
    let tops := ivs.filter fun c => match ct.sup c with
      | some s => ct.isSub s cTop
      | none => false
    (cloneAll cloned names ct points).bind fun ct ps =>
      (cloneAll cloned names ct tops).bind fun ct ts =>
        (ct, match hiersOf ct ts with
          | .error e => .error e
          | .ok full => .ok (ps ++ full))

/-- `_swap_classes` (`aligned_textgrid.py:229-240`): for each class the first new class of that name. -/
def swapClasses (ct : ClassTab) (orig new : List CRef) : Except Err (List CRef) :=
  orig.mapM fun o => match new.find? (fun c => ct.name c == ct.name o) with
    | some c => .ok c
    | none => .error .valueError

/-- `self._reclone_classes(classes)` -/
def recloneA (a : ARef) (classes : List CRef) : M Unit := do
  let h ← M.get
  let new ← liftC fun ct => reclone (h.acloned a) ct classes
  M.modify fun h => { h with acloned := upd h.acloned a (h.acloned a ++ new) }

/-! ## Construction -/

/-- A tier of a praatio `Textgrid`: its name and its entries (a point has `start = stop`). -/
abbrev PTier := String × List (Time × Time × String)

/-- Does the tier consist of points, or of intervals? praatio allows no interval with `start = stop`; a tier without
    entries passes for either. SIMPLIFICATION: an empty praatio tier of the wrong kind would lose its name
    (`sequences/tiers.py:103`, `points/tiers.py:89`). -/
def ofKind (pt : Bool) (es : List (Time × Time × String)) : Bool := es.all fun p => (p.1 == p.2.1) == pt

/-- `SequenceTier(tier, c)` or `SequencePointTier(tier, c)` for the tiers of one group
    (`aligned_textgrid.py:335-339`): the interval tiers and the point tiers. A praatio interval has no `time`
    (`points/tiers.py:101`), a praatio point is too short for an interval (`sequences/sequences.py:393`). -/
def buildTiers : List (PTier × CRef) → M (List TRef × List TRef)
  | [] => pure ([], [])
  | ((name, es), c) :: rest => do
    let h ← M.get
    if h.ct.isSub c cPoint then
      if ofKind true es then do
        let rs ← newEntries c es
        let t ← newPointTier rs c name
        let (is, ps) ← buildTiers rest
        pure (is, t :: ps)
      else M.throw .attributeError
    else
      if ofKind false es then do
        let t ← newTierFrom es c name
        let (is, ps) ← buildTiers rest
        pure (t :: is, ps)
      else M.throw .typeError

/-- the groups made of one list of tiers (`aligned_textgrid.py:332-343`) -/
def buildGroup (ts : List PTier) (cs : List CRef) : M (List GRef) := do
  let (is, ps) ← buildTiers (ts.zip cs)
  let gs ← (if is.length > 0 then do
      let g ← newGroup is
      pure [g]
    else pure [])
  let ps ← (if ps.length > 0 then do
      let g ← newPointsGroup ps
      pure [g]
    else pure [])
  pure (gs ++ ps)

/-- the loop over the groups (`aligned_textgrid.py:332`) -/
def buildGroups : List (List PTier × List CRef) → M (List GRef)
  | [] => pure []
  | (ts, cs) :: rest => do
    let g ← buildGroup ts cs
    let gs ← buildGroups rest
    pure (g ++ gs)

/-- `_relate_tiers` (`aligned_textgrid.py:309-344`), on lists of lists. -/
def relateTiers (a : ARef) (tiers : List (List PTier)) (classes : List (List CRef)) : M (List GRef) := do
  recloneA a classes.flatten
  let h ← M.get
  let cs ← liftE (classes.mapM fun l => swapClasses h.ct l (h.acloned a))
  buildGroups (tiers.zip cs)

/-- `self.contains = self.tier_groups` for a textgrid (`mixins/within.py:46-53`). -/
def setContainsA (a : ARef) : M Unit := do
  let h ← M.get
  M.modify fun h => { h with acont := upd h.acont a (h.agroups a) }
  M.forL (h.agroups a) (fun g => M.modify fun h => { h with gwithin := upd h.gwithin g (some a) })

/-- The `tier_groups` setter (`aligned_textgrid.py:373-382`): an empty list changes nothing. -/
def setGroups (a : ARef) (gs : List GRef) : M Unit :=
  match gs with
  | [] => pure ()
  | _ :: _ => do
    M.modify fun h => { h with agroups := upd h.agroups a gs }
    setContainsA a

/-! ## Cleanup, shift, extents -/

/-- `c((start, end, ""))` for one class: a point class rejects the triple
    (`aligned_textgrid.py:492,506`, `points/points.py:76-81`). -/
def newBlank (c : CRef) (s e : Time) : M Ref := do
  let h ← M.get
  if h.ct.isSub c cPoint then M.throw .valueError else newEntry c s e ""

/-- `empty_intervals` (`aligned_textgrid.py:492,506`) -/
def newBlanks (s e : Time) : List CRef → M (List Ref)
  | [] => pure []
  | c :: cs => do
    let r ← newBlank c s e
    let rs ← newBlanks s e cs
    pure (r :: rs)

/-- Add a blank interval `(s, e)` to every tier of the group (`aligned_textgrid.py:487-494,501-508`). -/
def padGroup (g : GRef) (s e : Time) : M Unit := do
  let h ← M.get
  let new ← newBlanks s e ((h.gtiers g).map h.tcls)
  M.forL ((h.gtiers g).zip new) (fun p => tierAppendNR p.1 p.2)

/-- `AlignedTextGrid.cleanup` (`aligned_textgrid.py:459-508`). Note line 498: the right edge of a group is
    compared with the greatest *start*. -/
def atgCleanup (a : ARef) : M Unit := do
  let h ← M.get
  M.forL (h.agroups a) (fun g => do
    let h ← M.get
    if h.gpoint g then pure () else groupCleanup g)
  let h ← M.get
  let ivs := (h.agroups a).filter fun g => !h.gpoint g
  let starts ← liftE (ivs.mapM (groupXmin h))
  let ends ← liftE (ivs.mapM (groupXmax h))
  match minL starts, maxL starts, minL ends, maxL ends with
  | some smin, some smax, some emin, some emax =>
    if allclose smin smax && allclose emin emax then pure ()
    else do
      M.forL (h.agroups a) (fun g => do
        let h ← M.get
        let x ← liftE (groupXmin h g)
        if allclose x smin then pure () else padGroup g smin x)
      M.forL (h.agroups a) (fun g => do
        let h ← M.get
        let x ← liftE (groupXmax h g)
        if allclose x smax then pure () else padGroup g x emax)
  | _, _, _, _ => M.throw .valueError

/-- `AlignedTextGrid.shift` (`aligned_textgrid.py:513-526`) -/
def atgShift (a : ARef) (d : Time) : M Unit := do
  let h ← M.get
  M.forL (h.agroups a) (fun g => groupShift g d)

/-- `AlignedTextGrid.xmin` (`aligned_textgrid.py:394-398`) -/
def atgXmin (h : Heap) (a : ARef) : Except Err Time :=
  match (h.agroups a).mapM (groupXmin h) with
  | .error e => .error e
  | .ok l => match minL l with
    | none => .error .valueError
    | some m => .ok m

/-- `AlignedTextGrid.xmax` (`aligned_textgrid.py:400-404`) -/
def atgXmax (h : Heap) (a : ARef) : Except Err Time :=
  match (h.agroups a).mapM (groupXmax h) with
  | .error e => .error e
  | .ok l => match maxL l with
    | none => .error .valueError
    | some m => .ok m

/-- Allocate an empty textgrid (`aligned_textgrid.py:71-73`). -/
def newAtgObj : M ARef := fun h =>
  .ok h.nA { h with
    nA := h.nA + 1
    agroups := upd h.agroups h.nA []
    acont := upd h.acont h.nA []
    acloned := upd h.acloned h.nA [] }

/-- `AlignedTextGrid(textgrid, entry_classes)` for a praatio textgrid
    (`aligned_textgrid.py:61-87,119-146`). -/
def newAtg (tiers : List PTier) (arg : ClassArg) : M ARef := do
  let a ← newAtgObj
  let h ← M.get
  let (ts, cs) ← liftE (nestify h.ct tiers arg)
  let gs ← relateTiers a ts cs
  setGroups a gs
  atgCleanup a
  setContainsA a
  pure a

/-- `AlignedTextGrid.append(tier_group)` (`aligned_textgrid.py:406-457`). The tiers are initialised from a
    plain list, so each gets the name of its class (`sequences/tiers.py:100`, `points/tiers.py:86`). -/
def atgAppend (a : ARef) (g : GRef) : M Unit := do
  let h ← M.get
  let classes := (h.gtiers g).map h.tcls
  (if classes = [] then M.throw .indexError else pure ())
  recloneA a classes
  let h ← M.get
  let new ← liftE (swapClasses h.ct classes (h.acloned a))
  M.forL (new.zip (h.gtiers g)) (fun p => do
    let h ← M.get
    let entries := (h.tseq p.2).vals
    M.forL entries (fun x => castTo p.1 x)
    if h.gpoint g then pointTierInit p.2 entries p.1 (h.ct.name p.1)
    else tierInit p.2 entries p.1 (h.ct.name p.1))
  reRelate g
  let h ← M.get
  setGroups a (h.agroups a ++ [g])

/-- `AlignedTextGrid([g1, g2, ...])` (`aligned_textgrid.py:122-127`) -/
def newAtgOf (gs : List GRef) : M ARef := do
  let a ← newAtgObj
  M.forL gs (fun g => atgAppend a g)
  setContainsA a
  pure a

/-! ## Adding and removing a class (`aligned_textgrid.py:528-768`) -/

/-- `get_class_by_name` (`aligned_textgrid.py:735-768`): the distinct classes of that name. The result is
    used as a class by the callers, which fails (`AttributeError`) unless there is exactly one. -/
def classByName (h : Heap) (a : ARef) (name : String) : Except Err CRef :=
  match (((h.agroups a).flatMap fun g => (h.gtiers g).map h.tcls).eraseDups).filter
      (fun c => h.ct.name c == name) with
  | [c] => .ok c
  | _ => .error .attributeError

/-- `tier.superset_class = tier.entry_class.superset_class` and the same for the subset class
    (`aligned_textgrid.py:639-641,720-722`). -/
def refreshTier (t : TRef) : M Unit := M.modify fun h =>
  { h with
    tsup := upd h.tsup t (h.ct.sup (h.tcls t))
    tsub := upd h.tsub t (h.ct.sub (h.tcls t)) }

/-- the body of the loop of `interleave_class` for a group with the class
    (`aligned_textgrid.py:623-645`) -/
def interleaveGroup (g : GRef) (new : CRef) (down copy : Option CRef) (labels : Bool) : M GRef := do
  let h ← M.get
  match (h.gtiers g).find? (fun t => some (h.tcls t) == copy) with
  | none => M.throw .indexError
  | some ct => do
    let es ← newEntries new ((h.tseq ct).vals.map fun x =>
      (h.start x, h.stop x, h.label x))
    let t ← newTier es none
    (if labels then pure ()
     else M.forL es (fun x => M.modify fun h => { h with label := upd h.label x "" }))
    let h ← M.get
    let classes := (h.gtiers g).map h.tcls
    let i := match classes.findIdx? (some · == down) with
      | some i => i
      | none => classes.length
    let tiers := (h.gtiers g).insertIdx i t
    M.modify fun h => { h with gtiers := upd h.gtiers g tiers }
    M.forL tiers refreshTier
    newGroup tiers

/-- the loop of `interleave_class` (`aligned_textgrid.py:617-645`) -/
def interleaveGroups (specified new : CRef) (down copy : Option CRef) (labels : Bool) : List GRef → M (List GRef)
  | [] => pure []
  | g :: gs => do
    let h ← M.get
    let g' ← (if ((h.gtiers g).map h.tcls).contains specified
      then interleaveGroup g new down copy labels else pure g)
    let gs' ← interleaveGroups specified new down copy labels gs
    pure (g' :: gs')

/-- `interleave_class(name, above=c)` (`above = true`) or `below=c` (`aligned_textgrid.py:528-650`), the
    timing being taken from below (`fromBelow`) or above. -/
def interleave (a : ARef) (name : String) (above : Bool) (cname : String) (fromBelow labels : Bool) :
    M Unit := do
  if name = "" || cname = "" then M.throw .valueError
  else do
    let cs ← liftC fun ct => customClasses ct [name] []
    match cs with
    | [] => M.throw .indexError
    | new :: _ => do
      let h ← M.get
      let c ← liftE (classByName h a cname)
      let up := if above then h.ct.sup c else some c
      let down := if above then some c else h.ct.sub c
      liftC fun ct => setSupClass ct new up
      liftC fun ct => setSubClass ct new down
      let h ← M.get
      let gs ← interleaveGroups c new down (if fromBelow then down else up) labels (h.agroups a)
      setGroups a gs
      setContainsA a

/-- the body of the loop of `pop_class` for a group with the class and other tiers
    (`aligned_textgrid.py:708-728`); `isinstance(cls, Top)` of a class object is always false, so both
    links are always set. -/
def popGroup (g : GRef) (name : String) : M GRef := do
  let h ← M.get
  let keep := (h.gtiers g).filter fun t => h.ct.name (h.tcls t) ≠ name
  match (h.gtiers g).filter fun t => h.ct.name (h.tcls t) = name with
  | [pt] =>
    match h.ct.sup (h.tcls pt) with
    | none => M.throw .attributeError
    | some u => do
      liftC fun ct => setSubClass ct u (h.ct.sub (h.tcls pt))
      match h.ct.sub (h.tcls pt) with
      | none => M.throw .attributeError
      | some d => do
        liftC fun ct => setSupClass ct d (some u)
        M.forL keep refreshTier
        let g' ← newGroup keep
        let h ← M.get
        match (h.gtiers g').getLast? with
        | none => M.throw .indexError
        | some last => do
          M.forL (h.tseq last).vals (fun x => do
            setSubs x []
            M.modify fun h => { h with cont := upd h.cont x (.detached []) })
          pure g'
  | _ => M.throw .valueError

/-- the loop of `pop_class` (`aligned_textgrid.py:691-728`) -/
def popGroups (name : String) : List GRef → M (List GRef)
  | [] => pure []
  | g :: gs => do
    let h ← M.get
    let names := (h.gtiers g).map fun t => h.ct.name (h.tcls t)
    if !names.contains name then do
      let gs' ← popGroups name gs
      pure (g :: gs')
    else if names.length = 1 then popGroups name gs
    else do
      let g' ← popGroup g name
      let gs' ← popGroups name gs
      pure (g' :: gs')

/-- `pop_class(name)` (`aligned_textgrid.py:652-733`) -/
def popClass (a : ARef) (name : String) : M Unit := do
  let h ← M.get
  let gs ← popGroups name (h.agroups a)
  setGroups a gs
  setContainsA a

/-! ## Names -/

/-- One step of the naming loop of `return_textgrid` (`aligned_textgrid.py:801-805`): the state is the
    names given so far and `dup_idx`. -/
def nameStep (st : List String × Nat) (name : String) : List String × Nat :=
  if st.1.contains name then (st.1 ++ [name ++ "_" ++ toString st.2], st.2 + 1)
  else (st.1 ++ [name], st.2)

/-- The names under which `return_textgrid` exports the tiers (`aligned_textgrid.py:796-807`). -/
def exportNames (names : List String) : List String := (names.foldl nameStep ([], 0)).1

/-- `return_textgrid` (`aligned_textgrid.py:786-807`): the tiers added to the new praatio `Textgrid`, group by group, each with its
    name and its entries. What praatio does with them is not modelled: it takes blanks off the ends of labels, and its `addTier`
    refuses a name it has already (see C37 for when the names are distinct). -/
def returnTextgrid (h : Heap) (a : ARef) : List PTier :=
  let ts := ((h.agroups a).map h.gtiers).flatten
  (exportNames (ts.map h.tname)).zip (ts.map (returnTier h))

/-- `_set_tier_names` and `_set_group_names` (`mixins/tiermixins.py:309-327`,
    `aligned_textgrid.py:346-365`): with a duplicate nothing is set, otherwise each name is set to the
    member at its position. `attrs` are the attributes of the object before. -/
def setNames {α} (names : List String) (members : List α) (attrs : String → Option α) :
    String → Option α :=
  if names.any (fun n => names.count n > 1) then attrs
  else (names.zip members).foldl (fun f p => fun s => if s = p.1 then some p.2 else f s) attrs

end ATG
