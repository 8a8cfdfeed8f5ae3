import Verif.Model.Index
import Verif.Model.Compose
/-!
# Entries of a textgrid by their place, counted from either end
-/
namespace ATG

/-- `atg[i][j][k]` for any numbers; each is an index of a Python list (`aligned_textgrid.py:93-94`, `sequences/tiers.py:511-512`,
    `sequences/tiers.py:131-132`, `sequence_list.py:49-50`), so that negative ones count from the end (`pyGet`). -/
def entryAtInt (a : ARef) (i j k : Int) : M Ref := do
  let h ← M.get
  match pyGet (h.agroups a) i with
  | none => M.throw .indexError
  | some g =>
    match pyGet (h.gtiers g) j with
    | none => M.throw .indexError
    | some t =>
      match pyGet (h.tseq t).vals k with
      | none => M.throw .indexError
      | some x => pure x

/-- `atg[i][j][k].fuse_rightwards(label_fun)` -/
def fuseAtInt (joinLab : String → String → String) (a : ARef) (i j k : Int) : M Unit := do
  let x ← entryAtInt a i j k
  fuseRight joinLab x

/-- `atg[i][j][k].fuse_leftwards(label_fun)` -/
def fuseLeftAtInt (joinLab : String → String → String) (a : ARef) (i j k : Int) : M Unit := do
  let x ← entryAtInt a i j k
  fuseLeft joinLab x

/-- `atg[i][j][k].label = lab` -/
def relabelAtInt (lab : String) (a : ARef) (i j k : Int) : M Unit := do
  let x ← entryAtInt a i j k
  M.modify fun h => { h with label := upd h.label x lab }

/-- `tier[i]` for any number -/
def tierGetInt (h : Heap) (t : TRef) (i : Int) : Except Err Ref :=
  match pyGet (h.tseq t).vals i with
  | some x => .ok x
  | none => .error .indexError

/-- `group[[i, j, ...]]` for any numbers (`sequences/tiers.py:507-519`, `points/tiers.py:254-266`) -/
def groupGetInt (h : Heap) (g : GRef) (idx : List Int) : Except Err (List Ref) :=
  if idx.length ≠ (h.gtiers g).length then .error .exc
  else (idx.zip (h.gtiers g)).mapM fun p => tierGetInt h p.2 p.1

end ATG
