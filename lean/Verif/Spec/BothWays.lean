import Verif.Spec.Draft
/-!
# Fusing the intervals of first tiers leftwards too, for plain data

Two drafts with the same pages: the marks of the first say of each group that the intervals of its first tier know the next one, those
of the second that they know the previous one. Fusing two of them in one direction spoils the other direction (`C90_left_violated`,
`C99_right_violated`).
-/
namespace ATG

/-- a draft without the mark of page `i` -/
def Draft.unmark (i : Nat) (d : Draft) : Draft := d.modify i fun q => (q.1, false)

/-- The edit of the plain data with both kinds of marks. On a first tier, fusing rightwards needs the first mark and drops the second, and
    fusing leftwards needs the second and drops the first. Everything else is as in C90 for both. -/
def Change.actBoth : Change → Draft × Draft → Option (Draft × Draft)
  | .touch (.fuse J i 0 k), (d, b) =>
    (d.onPage i id (Page.fuse J 0 k)).bind fun d' => (b.onPage i (fun _ => true) (Page.fuse J 0 k)).map fun b' => (d', b'.unmark i)
  | .touch (.fuseLeft J i 0 k), (d, b) =>
    (d.onPage i (fun _ => true) (Page.fuseLeft J 0 k)).bind fun d' => (b.onPage i id (Page.fuseLeft J 0 k)).map fun b' => (d'.unmark i, b')
  | e, (d, b) => (e.act d).bind fun d' => (e.act b).map fun b' => (d', b')

def Change.actBothAll : List Change → Draft × Draft → Option (Draft × Draft)
  | [], q => some q
  | e :: es, q => (e.actBoth q).bind (Change.actBothAll es)

/-- the two drafts are the plain data of the groups `gs`, and first tiers are chained forwards and backwards as their marks say -/
def DraftedBoth (h : Heap) (gs : List GRef) (q : Draft × Draft) : Prop := DraftedBy Strung h gs q.1 ∧ DraftedBy Backed h gs q.2

end ATG
