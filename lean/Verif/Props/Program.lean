import Verif.Lemmas.Ops
/-!
# C61, C62: what no client program can do

The programs are arbitrary sequences of calls with arbitrary arguments, whether or not the calls raise.
-/
namespace ATG

/-- C61: unless it assigns times, shifts, concatenates, fuses or assigns labels, a program removes no entry,
    changes no label, and moves no boundary outward. -/
theorem C61_inward (os : List Call) (hos : ∀ o ∈ os, o.moves = false ∧ o.relabels = false) (h : Heap) :
    Inward h (execute os h) :=
  Prog.all (Moved.pre .le .ge) os
    (fun o ho => Prog.opSnap (Moved.interleaveGroup .le .ge) o (hos o ho).1 (hos o ho).2) h

/-- C61: if in addition it relates no tiers, it moves nothing at all. -/
theorem C61_still (os : List Call) (hos : ∀ o ∈ os, o.moves = false ∧ o.relabels = false ∧ o.relates = false)
    (h : Heap) : Still h (execute os h) :=
  Prog.all Stable.pre os (fun o ho => Prog.opStill o (hos o ho).1 (hos o ho).2.1 (hos o ho).2.2) h

/-- C61: only fusing and assigning change labels. -/
theorem C61_labels (os : List Call) (hos : ∀ o ∈ os, o.relabels = false) (h : Heap) :
    SameLabels h (execute os h) := by
  have := Prog.all (Moved.pre .all .all) os
    (fun o ho => Prog.opMove (Moved.interleaveGroup .all .all) o (hos o ho)) h
  exact ⟨this.1, fun x hx => (this.2 x hx).2.2⟩

/-- C62: no program without fusing makes an entry its own neighbour. -/
theorem C62_noSelf_partial (os : List Call) (hos : ∀ o ∈ os, o.relabels = false) (h : Heap) (hh : NotOwnNeighbour h) :
    NotOwnNeighbour (execute os h) :=
  Prog.all (R := Kept NotOwnNeighbour) (Kept.pre _) os
    (fun o ho => Prog.opMove (Prog.interleaveGroup_of fun _ _ p => p) o (hos o ho)) h hh

/-- C62: no program without fusing and assigning labels gives an entry labelled `"#"` a neighbour. -/
theorem C62_hash_partial (os : List Call) (hos : ∀ o ∈ os, o.relabels = false) (h : Heap) (hh : HashLoose h) :
    HashLoose (execute os h) := by
  refine Prog.all (R := Kept HashLoose) (Kept.pre _) os
    (fun o ho => Prog.opMove (Prog.interleaveGroup_of fun h x p y hy => ?_) o (hos o ho)) h hh
  refine p y ?_
  change upd h.label x "" y = "#" at hy
  unfold upd at hy
  split at hy
  · exact absurd hy (by decide)
  · exact hy

/-! ## Programs meeting the hypotheses, and programs that do what the others cannot -/

/-- tiers that do not match, a group of them, a further phone, a failing call, cleanup -/
def exProg : List Call :=
  [.tierFrom [(0, 2, "a"), (2, 3, "b")] cWord "w",
   .tierFrom [(0, 1, "x"), (1, 9/4, "y"), (9/4, 3, "z")] cPhone "p", .group [0, 1],
   .entry cPhone 3 4 "q", .tierAppend 1 5, .group [7, 7], .groupCleanup 0, .textgridOf [0], .textgridCleanup 0]

theorem exProg_kind : ∀ o ∈ exProg, o.moves = false ∧ o.relabels = false := by decide

/-- all boundaries moved inward only: `b` now starts later, `y` and `q` end earlier, and fillers were added -/
example : (List.range (execute exProg heap0).nE).map
    (fun x => ((execute exProg heap0).start x, (execute exProg heap0).stop x, (execute exProg heap0).label x)) =
    [(0, 2, "a"), (9/4, 3, "b"), (0, 1, "x"), (1, 2, "y"), (9/4, 3, "z"), (3, 3, "q"), (2, 9/4, ""), (2, 9/4, "")] := by
  decide +kernel

/-- a program that relates no tiers -/
def exProgStill : List Call :=
  [.entry cWord 0 3 "w", .entry cPhone 0 1 "a", .entry cPhone 1 3 "b", .setSubsetList 0 [1], .append 0 2,
   .setSuper 1 0, .pop 0 2, .cleanup 0, .setFol 1 (.obj 2), .tier [1, 2] none]

example : (∀ o ∈ exProgStill, o.moves = false ∧ o.relabels = false ∧ o.relates = false) ∧
    (execute exProgStill heap0).nE = 4 ∧ ((execute exProgStill heap0).subs 0).vals = [1, 3] := by decide +kernel

/-- C62 for everything a program can do after importing the package -/
theorem C62_reachable_partial (os : List Call) (hos : ∀ o ∈ os, o.relabels = false) :
    NotOwnNeighbour (execute os heap0) ∧ HashLoose (execute os heap0) :=
  ⟨C62_noSelf_partial os hos heap0 fun _ => ⟨nofun, nofun⟩, C62_hash_partial os hos heap0 fun _ _ => ⟨rfl, rfl⟩⟩

/-- an entry labelled `"#"` becomes a neighbour, but gets none -/
def exHash : List Call :=
  [.entry cWord 0 1 "#", .entry cWord 1 2 "b", .setFol 0 (.obj 1), .setFol 1 (.obj 0), .tier [0, 1] none]

example : (∀ o ∈ exHash, o.relabels = false) ∧ (execute exHash heap0).label 0 = "#" ∧
    (execute exHash heap0).fol 0 = none ∧ (execute exHash heap0).prev 1 = some (.obj 0) := by decide +kernel

/-- C62 fails with fusing: two entries made neighbours of each other in a circle, then fused -/
theorem C62_fuse_violated : ∃ os, ¬ NotOwnNeighbour (execute os heap0) := by
  refine ⟨[.entry cWord 0 1 "a", .entry cWord 1 2 "b", .setFol 0 (.obj 1), .setFol 1 (.obj 0),
    .fuseRight (fun a b => a ++ b) 0], fun hn => (hn 0).1 ?_⟩
  decide +kernel

/-- C62 fails with assigned labels -/
theorem C62_label_violated : ∃ os, ¬ HashLoose (execute os heap0) := by
  refine ⟨[.entry cWord 0 1 "a", .label 0 "#"], fun hn => ?_⟩
  have := (hn 0 (by decide +kernel)).1
  revert this
  decide +kernel

/-- C61 is sharp: fusing moves a boundary outward and changes a label -/
theorem C61_fuse_sharp : ∃ h x, x < h.nE ∧ h.stop x < (execute [.fuseRight (fun a b => a ++ b) x] h).stop x ∧
    (execute [.fuseRight (fun a b => a ++ b) x] h).label x ≠ h.label x := by
  refine ⟨execute [.tierFrom [(0, 1, "a"), (1, 2, "b")] cWord "w"] heap0, 0, ?_⟩
  decide +kernel

end ATG
