import Verif.Model.Textgrid
/-!
# What tiers and groups show of themselves

Printed text is a list of strings, one for each call of `print` (without the newline that `print` adds).
SIMPLIFICATION: lines printed before an error are dropped with it.
-/
namespace ATG

/-- `x.__name__` of a class or of `None` -/
def nameOfClass (h : Heap) : Option CRef → Except Err String
  | none => .error .attributeError
  | some c => .ok (h.ct.name c)

/-- `tab * n` (`sequences/tiers.py:686`) -/
def tabsOf : Nat → String
  | 0 => ""
  | n + 1 => "  " ++ tabsOf n

/-- `SequenceTier.__repr__` (`sequences/tiers.py:179-180`) -/
def tierRepr (h : Heap) (t : TRef) : Except Err String := do
  let p ← nameOfClass h (h.tsup t)
  let b ← nameOfClass h (h.tsub t)
  return "Sequence tier of " ++ h.ct.name (h.tcls t) ++ "; .superset_class: " ++ p ++ "; .subset_class: " ++ b

/-- the line printed above the first tier (`sequences/tiers.py:688-689`) -/
def lineAbove (h : Heap) (idx : Nat) (t : TRef) : Except Err (List String) :=
  if idx = 0 then (nameOfClass h (h.tsup t)).map fun s => [s ++ "(\n"] else .ok []

/-- the line printed below the last of `n` tiers (`sequences/tiers.py:691-692`) -/
def lineBelow (h : Heap) (n idx : Nat) (t : TRef) : Except Err (List String) :=
  if idx + 1 = n then (nameOfClass h (h.tsub t)).map fun s => [tabsOf (idx + 2) ++ s ++ "(\n"] else .ok []

/-- the lines printed for the tiers from `idx` on, of `n` tiers (`sequences/tiers.py:687-692`) -/
def structureFrom (h : Heap) (n : Nat) : Nat → List TRef → Except Err (List String)
  | _, [] => .ok []
  | idx, t :: ts => do
    let first ← lineAbove h idx t
    let last ← lineBelow h n idx t
    let rest ← structureFrom h n (idx + 1) ts
    return first ++ (tabsOf (idx + 1) ++ h.ct.name (h.tcls t) ++ "(\n") :: last ++ rest

/-- `TierGroup.show_structure()` (`sequences/tiers.py:683-692`); a `PointsGroup` has no such method -/
def showStructure (h : Heap) (g : GRef) : Except Err (List String) :=
  if h.gpoint g then .error .attributeError
  else structureFrom h (h.gtiers g).length 0 (h.gtiers g)

end ATG
