import Verif.Model.Within
import Verif.Model.Points
/-!
# Data frames (`outputs/to_dataframe.py`)

A data frame is modelled by its rows, a row by its non-null cells in column order.  `polars` is not
modelled: `how="diagonal"` (null cells for missing columns) is appending rows, `how="horizontal"` is
joining rows side by side, refused when a column name occurs twice; that columns of one name have one
type is taken for granted.
-/
namespace ATG

/-- the value of a cell -/
inductive Cell
  | null
  | text (s : String)
  | int (n : Nat)
  | num (t : Time)
deriving DecidableEq, Repr

abbrev Row := List (String × Cell)

/-- `getattr(obj, att) for att in attributes_to_get` (`to_dataframe.py:17-30`, `45-48`) -/
def attrCells (h : Heap) (x : Ref) : Except Err Row :=
  match nodeId h (.entry x) with
  | .error e => .error e
  | .ok i => match tierIndex h x with
    | .error e => .error e
    | .ok k => .ok ([("id", .text i), ("tier_index", match k with | none => .null | some k => .int k),
        ("label", .text (h.label x)), ("start", .num (h.start x))] ++
        (if h.isPoint x then [] else [("end", .num (h.stop x))]))

/-- `f"{class_name}_{att}"` (lines 33-36) -/
def prefixed (c : String) (r : Row) : Row := r.map fun p => (c ++ "_" ++ p.1, p.2)

/-- `obj.contains` of an entry (`mixins/within.py:40-44`) -/
def contL (h : Heap) (x : Ref) : List Ref :=
  match h.cont x with
  | .unset => []
  | .alias => (h.subs x).vals
  | .detached l => l

/-- one data frame for each object, appended -/
def collect {α : Type} (f : α → Except Err (List Row)) : List α → Except Err (List Row)
  | [] => .ok []
  | x :: xs => match f x with
    | .error e => .error e
    | .ok a => match collect f xs with
      | .error e => .error e
      | .ok b => .ok (a ++ b)

/-- do two frames share a column? -/
def sharedColumn (a : Row) (rows : List Row) : Bool :=
  rows.any fun r => r.any fun q => a.any fun p => p.1 == q.1

/-- `sequence_to_df(obj)` with subsets (`to_dataframe.py:12-64`), with recursion fuel -/
def entryRowsN (h : Heap) : Nat → Ref → Except Err (List Row)
  | 0, _ => .error .recursionError
  | k + 1, x => match collect (entryRowsN h k) (contL h x) with
    | .error e => .error e
    | .ok sub => match attrCells h x with
      | .error e => .error e
      | .ok a =>
        let c := h.ct.name (h.cls x)
        let own := if h.isPoint x then a else prefixed c a
        let last : Row := if h.isPoint x then [("entry_class", .text c)] else []
        if sub.length > 0 then
          if sharedColumn own sub then .error .exc
          else .ok (sub.map fun r => own ++ r ++ last)
        else .ok [own ++ last]

/-- `sequence_to_df(obj, False)` -/
def entryRowFlat (h : Heap) (x : Ref) : Except Err (List Row) :=
  match attrCells h x with
  | .error e => .error e
  | .ok a => .ok [a ++ [("entry_class", .text (h.ct.name (h.cls x)))]]

/-- `sequence_to_df` -/
def entryRows (h : Heap) (sub : Bool) (x : Ref) : Except Err (List Row) :=
  if sub then entryRowsN h pathFuel x else entryRowFlat h x

/-- `pl.concat` of a list of frames; an empty list is a `ValueError` -/
def concatRows {α : Type} (f : α → Except Err (List Row)) (l : List α) : Except Err (List Row) :=
  if l = [] then .error .valueError else collect f l

/-- `tier_to_df` (`to_dataframe.py:67-77`) -/
def tierRows (h : Heap) (sub : Bool) (t : TRef) : Except Err (List Row) :=
  concatRows (entryRows h sub) (h.tseq t).vals

/-- `tiergroup_to_df` (`to_dataframe.py:80-98`); `name` gives the names of the groups -/
def groupRows (h : Heap) (name : GRef → String) (sub : Bool) (g : GRef) : Except Err (List Row) :=
  let r := if !h.gpoint g && sub then
      match (h.gtiers g)[0]? with
      | none => .error .indexError
      | some t => tierRows h sub t
    else concatRows (tierRows h sub) (h.gtiers g)
  match r with
  | .error e => .error e
  | .ok rows => .ok (rows.map fun r => r ++ [("name", .text (name g))])

/-- `textgrid_to_df` (`to_dataframe.py:101-112`) -/
def textgridRows (h : Heap) (name : GRef → String) (sub : Bool) (a : ARef) : Except Err (List Row) :=
  concatRows (groupRows h name sub) (h.agroups a)

end ATG
