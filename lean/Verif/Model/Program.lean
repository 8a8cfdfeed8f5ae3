import Verif.Model.Compose
import Verif.Model.Sum
/-!
# Client programs

A client calls the public operations one after another; an exception that it catches does not undo what the
operation has done before raising.  Results of calls are handles, so a later call may use any of them; the
operations here take any handle whatsoever, which only adds programs.
-/
namespace ATG

/-- one call of a public operation, or an assignment to an attribute -/
inductive Call where
  /- constructors -/
  | entry (c : CRef) (s e : Time) (lab : String)
  | tier (l : List Ref) (c : Option CRef)
  | tierFrom (l : List (Time × Time × String)) (c : CRef) (name : String)
  | pointTier (l : List Ref) (c : CRef) (name : String)
  | group (l : List TRef)
  | pointsGroup (l : List TRef)
  | textgrid (l : List PTier) (arg : ClassArg)
  | textgridOf (l : List GRef)
  /- entries -/
  | setFol (x : Ref) (l : Link)
  | setPrev (x : Ref) (l : Link)
  | setSubsetList (w : Ref) (l : List Ref)
  | setSubsetListLive (w v : Ref)
  | assignSubsetList (w : Ref) (l : List Ref)
  | addToSubsetList (w : Ref) (l : List Ref)
  | setSuper (x s : Ref)
  | appendSubset (w x : Ref)
  | removeSuperset (x : Ref)
  | removeFromSubset (w x : Ref)
  | append (w x : Ref)
  | add (a b : Ref)
  | pop (w x : Ref)
  | cleanup (w : Ref)
  | shift (x : Ref) (d : Time)
  | fuseRight (f : String → String → String) (x : Ref)
  | fuseLeft (f : String → String → String) (x : Ref)
  | start (x : Ref) (t : Time)
  | stop (x : Ref) (t : Time)
  | label (x : Ref) (lab : String)
  /- tiers -/
  | tierAppend (t : TRef) (x : Ref)
  | tierPop (t : TRef) (x : Ref)
  | tierCleanup (t : TRef)
  | tierShift (t : TRef) (d : Time)
  | tierConcat (t u : TRef)
  | tierAdd (t u : TRef)
  | starts (t : TRef) (l : List Time)
  | ends (t : TRef) (l : List Time)
  /- groups -/
  | groupCleanup (g : GRef)
  | groupShift (g : GRef) (d : Time)
  | groupConcat (g g' : GRef)
  | pointsConcat (g g' : GRef)
  | groupAdd (g g' : GRef)
  | groupAppend (g : GRef) (t : TRef) (built : List Ref)
  | reRelate (g : GRef)
  /- textgrids -/
  | textgridCleanup (a : ARef)
  | textgridShift (a : ARef) (d : Time)
  | textgridAppend (a : ARef) (g : GRef)
  | interleave (a : ARef) (name : String) (above : Bool) (cname : String) (fromBelow labels : Bool)
  | popClass (a : ARef) (name : String)
  /- classes -/
  | superClass (c : CRef) (s : Option CRef)
  | subClass (c : CRef) (s : Option CRef)
  | customClasses (names : List String) (points : List Nat)

/-- forget the result -/
def M.void {α} (m : M α) : M Unit := do
  let _ ← m
  pure ()

/-- what the call does -/
def Call.run : Call → M Unit
  | .entry c s e lab => (newEntry c s e lab).void
  | .tier l c => (newTier l c).void
  | .tierFrom l c n => (newTierFrom l c n).void
  | .pointTier l c n => (newPointTier l c n).void
  | .group l => (newGroup l).void
  | .pointsGroup l => (newPointsGroup l).void
  | .textgrid l arg => (newAtg l arg).void
  | .textgridOf l => (newAtgOf l).void
  | .setFol x l => ATG.setFol x l
  | .setPrev x l => ATG.setPrev x l
  | .setSubsetList w l => ATG.setSubsetList w l
  | .setSubsetListLive w v => ATG.setSubsetListLive w v
  | .assignSubsetList w l => setSubs w l
  | .addToSubsetList w l => subsIAdd w l
  | .setSuper x s => ATG.setSuper x s
  | .appendSubset w x => ATG.appendSubset w x
  | .removeSuperset x => ATG.removeSuperset x
  | .removeFromSubset w x => ATG.removeFromSubset w x
  | .append w x => ivalAppend w x
  | .add a b => (ivalAdd a b).void
  | .pop w x => ivalPop w x
  | .cleanup w => ivalCleanup w
  | .shift x d => ivalShiftN shiftFuel x d
  | .fuseRight f x => ATG.fuseRight f x
  | .fuseLeft f x => ATG.fuseLeft f x
  | .start x t => setStart x t
  | .stop x t => setStop x t
  | .label x lab => M.modify fun h => { h with label := upd h.label x lab }
  | .tierAppend t x => ATG.tierAppend t x
  | .tierPop t x => ATG.tierPop t x
  | .tierCleanup t => ATG.tierCleanup t
  | .tierShift t d => ATG.tierShift t d
  | .tierConcat t u => ATG.tierConcat t u
  | .tierAdd t u => (ATG.tierAdd t u).void
  | .starts t l => setStarts t l
  | .ends t l => setEnds t l
  | .groupCleanup g => ATG.groupCleanup g
  | .groupShift g d => ATG.groupShift g d
  | .groupConcat g g' => ATG.groupConcat g g'
  | .pointsConcat g g' => ATG.pointsConcat g g'
  | .groupAdd g g' => (ATG.groupAdd g g').void
  | .groupAppend g t l => ATG.groupAppend g t l
  | .reRelate g => ATG.reRelate g
  | .textgridCleanup a => atgCleanup a
  | .textgridShift a d => atgShift a d
  | .textgridAppend a g => atgAppend a g
  | .interleave a n ab cn fb lab => ATG.interleave a n ab cn fb lab
  | .popClass a n => ATG.popClass a n
  | .superClass c s => liftC fun ct => setSupClass ct c s
  | .subClass c s => liftC fun ct => setSubClass ct c s
  | .customClasses ns ps => (liftC fun ct => ATG.customClasses ct ns ps).void

/-- the heap after a program, every exception being caught by the client -/
def execute : List Call → Heap → Heap
  | [], h => h
  | o :: os, h => execute os (o.run h).heap

end ATG
