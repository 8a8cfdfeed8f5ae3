import Verif.Model.Base
/-!
# Names of groups and named accessors (`mixins/tiermixins.py:329-368`, `aligned_textgrid.py:346-365`,
`polar/polar_grid.py:41-44,56-76`)

`difflib.SequenceMatcher(a=a, b=b)` without junk. SIMPLIFICATION: no automatic junk (which `difflib` has for names of
200 characters or more); characters that are letters, digits or `_` are those of `Char.isAlphanum` and `_`.
-/
namespace ATG

/-- how many characters two strings have in common at their starts -/
def commonLen : List Char → List Char → Nat
  | x :: xs, y :: ys => if x = y then commonLen xs ys + 1 else 0
  | _, _ => 0

/-- the best of `(i, j, size)`: the longest, then the first in `a`, then the first in `b`; candidates come in that
    order -/
def better : List (Nat × Nat × Nat) → Nat × Nat × Nat → Nat × Nat × Nat
  | [], best => best
  | c :: rest, best => better rest (if best.2.2 < c.2.2 then c else best)

/-- `find_longest_match` -/
def longestMatch (a b : List Char) : Nat × Nat × Nat :=
  better ((List.range a.length).flatMap fun i =>
    (List.range b.length).map fun j => (i, j, commonLen (a.drop i) (b.drop j))) (0, 0, 0)

/-- `get_matching_blocks` before neighbouring blocks are joined, with fuel: the longest match, and the blocks to its
    left and to its right; `i0`, `j0` are the positions of `a` and `b` in the whole strings -/
def matchBlocksN : Nat → Nat → Nat → List Char → List Char → List (Nat × Nat × Nat)
  | 0, _, _, _, _ => []
  | n + 1, i0, j0, a, b =>
    match longestMatch a b with
    | (i, j, k) =>
      if k = 0 then []
      else matchBlocksN n i0 j0 (a.take i) (b.take j) ++ (i0 + i, j0 + j, k) ::
        matchBlocksN n (i0 + i + k) (j0 + j + k) (a.drop (i + k)) (b.drop (j + k))

/-- joining neighbouring blocks -/
def joinBlocks : Nat × Nat × Nat → List (Nat × Nat × Nat) → List (Nat × Nat × Nat)
  | (i1, j1, k1), [] => if k1 = 0 then [] else [(i1, j1, k1)]
  | (i1, j1, k1), (i2, j2, k2) :: rest =>
    if i1 + k1 = i2 ∧ j1 + k1 = j2 then joinBlocks (i1, j1, k1 + k2) rest
    else if k1 = 0 then joinBlocks (i2, j2, k2) rest
    else (i1, j1, k1) :: joinBlocks (i2, j2, k2) rest

/-- `get_matching_blocks` -/
def matchBlocks (a b : List Char) : List (Nat × Nat × Nat) :=
  joinBlocks (0, 0, 0) (matchBlocksN (a.length + 1) 0 0 a b) ++ [(a.length, b.length, 0)]

/-- `get_longest_name_string` (`mixins/tiermixins.py:344-355`): the first of the matching blocks -/
def longestName (a b : List Char) : List Char :=
  match matchBlocks a b with
  | [] => []
  | (i, _, k) :: _ => if k < 1 then [] else (a.drop i).take k

/-- `[\s_-]` -/
def isSep (c : Char) : Bool := c.isWhitespace || c == '_' || c == '-'

/-- `\w` -/
def isWord (c : Char) : Bool := c.isAlphanum || c == '_'

/-- the two substitutions in `make_name` (`mixins/tiermixins.py:360-361`) -/
def tidyName (s : List Char) : List Char :=
  ((((s.dropWhile isSep).reverse).dropWhile isSep).reverse).map fun c => if isWord c then c else '_'

/-- `make_name` (`mixins/tiermixins.py:357-368`) for the names of the tiers; `index` is the position of the group in
    its textgrid, if it has one. No tiers: `reduce` raises a `TypeError`. -/
def makeName (tiers : List (List Char)) (index : Option Nat) : Except Err (Option (List Char)) :=
  match tiers with
  | [] => .error .typeError
  | t :: ts =>
    let s := tidyName (ts.foldl longestName t)
    if s.length > 1 then .ok (some s)
    else match index with
      | some i => .ok (some ("group_".toList ++ (toString i).toList))
      | none => .ok none

/-- The name a group has after `__init__` (`sequences/tiers.py:371-384`, `points/tiers.py:245-252`): a group of intervals keeps
    the name it had, a group of points does not. -/
def initName (point : Bool) (old : Option (List Char)) (tiers : List (List Char)) (index : Option Nat) :
    Except Err (Option (List Char)) :=
  if point then makeName tiers index
  else match old with
    | some (c :: cs) => .ok (some (c :: cs))
    | _ => makeName tiers index

/-! ## Accessors -/

/-- `setattr(self, name, group)` for all groups -/
def setAttrs {α} : List (List Char × α) → (List Char → Option α) → List Char → Option α
  | [], attr => attr
  | (n, g) :: rest, attr => setAttrs rest fun m => if m = n then some g else attr m

/-- `_set_group_names` (`aligned_textgrid.py:346-365`) for the groups with their names: with any name twice nothing is
    set -/
def setGroupNames {α} (gs : List (List Char × α)) (attr : List Char → Option α) : List Char → Option α :=
  if gs.any fun p => decide (1 < (gs.map (·.1)).count p.1) then attr else setAttrs gs attr

/-- the name `PolarGrid._name_groups` (`polar/polar_grid.py:56-76`) gives a group with the entry classes `cs`; `wp` are
    the classes `Word`, `Phone`, `ps` all the classes of PoLaR, `rs` is `Ranges` -/
def polarName (ct : ClassTab) (wp ps : List CRef) (rs : CRef) (cs : List CRef) (name : List Char) : List Char :=
  let name := if cs.any fun c => wp.any fun d => ct.isSub c d then "Word_Phone".toList else name
  let name := if cs.any fun c => ps.any fun d => ct.isSub c d then "Points".toList else name
  if cs.any fun c => ct.isSub c rs then "RangesTier".toList else name

end ATG
