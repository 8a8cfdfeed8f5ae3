import Verif.Spec.Touch
import Verif.Spec.Homely
import Verif.Spec.Import
/-!
# Editing intervals and tiers in any order, for plain data

The plain data of a textgrid as in `Spec/Book.lean`, with a mark for each group: whether the intervals of its first tier follow one
another. They do after import, and stop doing so when the tier above them is popped (`C90_pop_violated`).
-/
namespace ATG

/-- a textgrid as plain data, each group with the mark of its first tier -/
abbrev Draft := List (Page × Bool)

/-- all pages without the tier called `name`; a page that loses its first tier loses its mark -/
def Draft.pop (name : String) (d : Draft) : Draft :=
  if ∀ q ∈ d, q.1.map (·.1) = [name] then d
  else (d.filter fun q => decide (q.1.map (·.1) ≠ [name])).map fun q =>
    (q.1.filter fun t => decide (t.1 ≠ name), q.2 && decide ((q.1.map (·.1)).head? ≠ some name))

/-- all pages with a new tier; a page with a new first tier gets the mark -/
def Draft.interleave (name : String) (above : Bool) (cname : String) (fromBelow labels : Bool) (d : Draft) : Option Draft :=
  if name ≠ "" ∧ cname ≠ "" ∧ PlainName name ∧ (∃ q ∈ d, cname ∈ q.1.map (·.1)) ∧ ∀ q ∈ d, name ∉ q.1.map (·.1) then
    d.mapM fun q => (Page.interleave name above cname fromBelow labels q.1).map fun p =>
      (p, q.2 || above && decide ((q.1.map (·.1)).head? = some cname))
  else none

/-- everything later by `t` -/
def Draft.shift (t : Time) (d : Draft) : Draft :=
  d.map fun q => (q.1.map fun u => (u.1, u.2.map fun r => (r.1 + t, r.2.1 + t, r.2.2)), q.2)

/-- one page edited, if `ok` holds for its mark -/
def Draft.onPage (i : Nat) (ok : Bool → Bool) (f : Page → Option Page) (d : Draft) : Option Draft :=
  match d[i]? with
  | none => none
  | some q => if ok q.2 then (f q.1).map fun p => d.set i (p, q.2) else none

/-- edits of single intervals and of the tiers of a class -/
inductive Change where
  | touch (e : Touch)
  | edit (e : Edit)

def Change.run (a : ARef) : Change → M Unit
  | .touch e => e.run a
  | .edit e => e.run a

/-- the edit of the plain data; rows of the first tier can be fused rightwards if the group has its mark, and cannot be fused leftwards -/
def Change.act : Change → Draft → Option Draft
  | .touch (.fuse J i j k), d => d.onPage i (fun c => decide (j ≠ 0) || c) (Page.fuse J j k)
  | .touch (.fuseLeft J i j k), d => d.onPage i (fun _ => decide (j ≠ 0)) (Page.fuseLeft J j k)
  | .touch (.relabel lab i j k), d => d.onPage i (fun _ => true) (Page.relabel lab j k)
  | .edit (.interleave name above cname fromBelow labels), d => d.interleave name above cname fromBelow labels
  | .edit (.pop name), d => some (d.pop name)
  | .edit (.shift t), d => some (d.shift t)

/-- edits that keep the tiers of each group: all but interleaving and popping -/
def Change.mild : Change → Bool
  | .touch _ => true
  | .edit (.shift _) => true
  | .edit _ => false

/-- the classes suit the edits: hierarchies, complete or without their lowest classes, suit all if each has the same classes in all groups, and
    the edits that keep the tiers otherwise -/
def Suits (ct : ClassTab) (css : List (List CRef)) (es : List Change) : Prop :=
  TopClasses ct css ∧ (AlikeClasses css ∨ ∀ e ∈ es, e.mild = true)

def Change.runAll (a : ARef) : List Change → M Unit
  | [] => pure ()
  | e :: es => do
    e.run a
    Change.runAll a es

def Change.actAll : List Change → Draft → Option Draft
  | [], d => some d
  | e :: es, d => (e.act d).bind (Change.actAll es)

/-- `d` is the plain data of the groups `gs`, and those with a mark have the property `P` -/
def DraftedBy (P : Heap → List TRef → Prop) (h : Heap) (gs : List GRef) (d : Draft) : Prop :=
  ∃ fl : GRef → Bool, d = gs.map (fun g => (pageOf h g, fl g)) ∧ ∀ g ∈ gs, fl g = true → P h (h.gtiers g)

/-- `d` is the plain data of the groups `gs`, and first tiers with a mark are chained -/
def Drafted (h : Heap) (gs : List GRef) (d : Draft) : Prop := DraftedBy Strung h gs d

end ATG
