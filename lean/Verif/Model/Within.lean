import Verif.Model.Textgrid
/-!
# Containers, paths and ids (`mixins/within.py`)
-/
namespace ATG

/-- An object that can contain or be contained. -/
inductive Node
  | entry (r : Ref)
  | tier (t : TRef)
  | group (g : GRef)
  | textgrid (a : ARef)
deriving DecidableEq, Repr

/-- the `_within` attribute (`mixins/within.py:30-38`) -/
def Heap.withinOf (h : Heap) : Node → Option Node
  | .entry r => match h.within r with
    | none => none
    | some (.ival w) => some (.entry w)
    | some (.tier t) => some (.tier t)
  | .tier t => (h.twithin t).map .group
  | .group g => (h.gwithin g).map .textgrid
  | .textgrid _ => none

/-- the `_contains` attribute (`mixins/within.py:40-53`), `none` when it was never set -/
def Heap.containsOf (h : Heap) : Node → Option (List Node)
  | .entry r => match h.cont r with
    | .unset => none
    | .alias => some ((h.subs r).vals.map .entry)
    | .detached l => some (l.map .entry)
  | .tier t => match h.tcont t with
    | .unset => none
    | .alias => some ((h.tseq t).vals.map .entry)
    | .detached l => some (l.map .entry)
  | .group g => (h.gcont g).map (·.map .tier)
  | .textgrid a => some ((h.acont a).map .group)

/-- `within_index` (`mixins/within.py:56-60`). `index` compares by identity: no class of the package
    defines `__eq__`. -/
def withinIndex (h : Heap) (n : Node) : Except Err (Option Nat) :=
  match h.withinOf n with
  | none => .ok none
  | some m => match h.containsOf m with
    | none => .ok none
    | some l => match l.findIdx? (· == n) with
      | some i => .ok (some i)
      | none => .error .valueError

/-- `_get_within_path` (`mixins/within.py:62-69`), from the object outwards, with recursion fuel. -/
def getPathN (h : Heap) : Nat → Node → Except Err (List Nat)
  | 0, _ => .error .recursionError
  | k + 1, n => match withinIndex h n with
    | .error e => .error e
    | .ok none => .ok []
    | .ok (some i) => match h.withinOf n with
      | none => .error .attributeError
      | some m => match getPathN h k m with
        | .error e => .error e
        | .ok p => .ok (i :: p)

/-- Python's default recursion limit. -/
def pathFuel : Nat := 1000

/-- `within_path` (`mixins/within.py:71-75`) -/
def withinPath (h : Heap) (n : Node) : Except Err (List Nat) :=
  match getPathN h pathFuel n with
  | .error e => .error e
  | .ok p => .ok p.reverse

/-- `"-".join([str(x) for x in path])` -/
def dashed : List Nat → String
  | [] => ""
  | [i] => toString i
  | i :: j :: p => toString i ++ "-" ++ dashed (j :: p)

/-- `id` (`mixins/within.py:77-80`) -/
def nodeId (h : Heap) (n : Node) : Except Err String :=
  match withinPath h n with
  | .error e => .error e
  | .ok p => .ok (dashed p)

end ATG
