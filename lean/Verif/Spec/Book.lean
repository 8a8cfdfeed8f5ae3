import Verif.Spec.Interleave
import Verif.Props.Custom
/-!
# A textgrid as plain data, and what editing it should do

The groups of a textgrid as lists of tiers, a tier as the name of its class and its rows: starts, ends and labels.
No objects, links or classes. The edits are written down for such data alone.
-/
namespace ATG

/-- start, end and label of an interval -/
abbrev Span3 := Time × Time × String
/-- a group: its tiers, top to bottom, each with the name of its class -/
abbrev Page := List (String × List Span3)
/-- a textgrid: its groups -/
abbrev Book := List Page

/-- the rows of a tier -/
def rowsOf (h : Heap) (t : TRef) : List Span3 := (h.tseq t).vals.map fun x => (h.start x, h.stop x, h.label x)
/-- a group as plain data -/
def pageOf (h : Heap) (g : GRef) : Page := (h.gtiers g).map fun t => (h.ct.name (h.tcls t), rowsOf h t)
/-- a textgrid as plain data -/
def bookOf (h : Heap) (a : ARef) : Book := (h.agroups a).map (pageOf h)

/-- the edits of a textgrid -/
inductive Edit where
  | interleave (name : String) (above : Bool) (cname : String) (fromBelow labels : Bool)
  | pop (name : String)
  | shift (d : Time)

/-- the edit as a program -/
def Edit.run (a : ARef) : Edit → M Unit
  | .interleave name above cname fromBelow labels => ATG.interleave a name above cname fromBelow labels
  | .pop name => popClass a name
  | .shift d => atgShift a d

/-- A page with a tier called `name` above or below the tier called `cname`, if there is one: the rows are those of
    the tier then below or above it, with their labels or without. It is not possible if there is no such tier
    or it has no rows. -/
def Page.interleave (name : String) (above : Bool) (cname : String) (fromBelow labels : Bool) (p : Page) : Option Page :=
  match p.findIdx? (·.1 == cname) with
  | none => some p
  | some i =>
    let place := if above then i else i + 1
    match (if fromBelow then p[place]? else (p.take place).getLast?) with
    | none => none
    | some (_, []) => none
    | some (_, r :: rs) =>
      some (p.insertIdx place (name, (r :: rs).map fun r => (r.1, r.2.1, if labels then r.2.2 else "")))

/-- all pages with a new tier; the name has to be new and unlike `Top` and `Bottom`, and the tier `cname` has to be
    somewhere -/
def Book.interleave (name : String) (above : Bool) (cname : String) (fromBelow labels : Bool) (b : Book) : Option Book :=
  if name ≠ "" ∧ cname ≠ "" ∧ PlainName name ∧ (∃ p ∈ b, cname ∈ p.map (·.1)) ∧ ∀ p ∈ b, name ∉ p.map (·.1) then
    b.mapM (Page.interleave name above cname fromBelow labels)
  else none

/-- all pages without the tier called `name`; pages with no other tier go, unless nothing would stay -/
def Book.pop (name : String) (b : Book) : Book :=
  if ∀ p ∈ b, p.map (·.1) = [name] then b
  else (b.filter fun p => decide (p.map (·.1) ≠ [name])).map fun p => p.filter fun t => decide (t.1 ≠ name)

/-- everything later by `d` -/
def Book.shift (d : Time) (b : Book) : Book :=
  b.map fun p => p.map fun t => (t.1, t.2.map fun r => (r.1 + d, r.2.1 + d, r.2.2))

/-- the edit of the plain data -/
def Edit.act : Edit → Book → Option Book
  | .interleave name above cname fromBelow labels, b => b.interleave name above cname fromBelow labels
  | .pop name, b => some (b.pop name)
  | .shift d, b => some (b.shift d)

/-- edits one after the other -/
def Edit.runAll (a : ARef) : List Edit → M Unit
  | [] => pure ()
  | e :: es => do
    e.run a
    Edit.runAll a es

def Edit.actAll : List Edit → Book → Option Book
  | [], b => some b
  | e :: es, b => (e.act b).bind (Edit.actAll es)

end ATG
