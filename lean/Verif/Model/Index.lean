import Verif.Model.Textgrid
/-!
# Entries of a textgrid by their place
-/
namespace ATG

/-- `atg[i][j][k]` for numbers from `0` on (`aligned_textgrid.py:93-94`, `sequences/tiers.py:511-512`,
    `sequences/tiers.py:131-132`, `sequence_list.py:49-50`). Numbers of either sign: `entryAtInt`. -/
def entryAt (a : ARef) (i j k : Nat) : M Ref := do
  let h ← M.get
  match (h.agroups a)[i]? with
  | none => M.throw .indexError
  | some g =>
    match (h.gtiers g)[j]? with
    | none => M.throw .indexError
    | some t =>
      match (h.tseq t).vals[k]? with
      | none => M.throw .indexError
      | some x => pure x

/-- `atg[i][j][k].fuse_rightwards(label_fun)` -/
def fuseAt (joinLab : String → String → String) (a : ARef) (i j k : Nat) : M Unit := do
  let x ← entryAt a i j k
  fuseRight joinLab x

/-- `atg[i][j][k].fuse_leftwards(label_fun)` (`sequences/sequences.py:614-643`) -/
def fuseLeftAt (joinLab : String → String → String) (a : ARef) (i j k : Nat) : M Unit := do
  let x ← entryAt a i j k
  fuseLeft joinLab x

/-- `atg[i][j][k].label = lab`; `label` is a plain attribute (`sequences/sequences.py:397`) -/
def relabelAt (lab : String) (a : ARef) (i j k : Nat) : M Unit := do
  let x ← entryAt a i j k
  M.modify fun h => { h with label := upd h.label x lab }

end ATG
