import Verif.Spec.Group
import Verif.Spec.Gaps
import Verif.Lemmas.PopAll
import Verif.Props.Shift
/-!
# Intervals with everything below them
-/
namespace ATG

/-- the entries `j` steps below `x`, in order -/
def generation (h : Heap) : Nat → Ref → List Ref
  | 0, x => [x]
  | j + 1, x => (h.subs x).vals.flatMap (generation h j)

/-- an interval of class `c` of positive duration with an ordinary label -/
def Plain (h : Heap) (c : CRef) (x : Ref) : Prop := h.cls x = c ∧ h.label x ≠ "#" ∧ h.start x < h.stop x

instance (h : Heap) (c : CRef) (x : Ref) : Decidable (Plain h c x) := by unfold Plain; infer_instance

/-- `x` is of the first of the classes and is tiled by its subset list, whose entries are of the second class and so on;
    the entries of the last class have no subset list. -/
def Tree (h : Heap) : List CRef → Ref → Prop
  | [], _ => False
  | [c], x => Plain h c x ∧ (h.subs x).vals = []
  | c :: d :: cs, x => Plain h c x ∧ Tiles h (h.subs x).vals (h.start x) (h.stop x) ∧ ∀ y ∈ (h.subs x).vals, Tree h (d :: cs) y

/-- The interval group `g` has the tiers `ts`, top to bottom, whose classes form a chain; their entries are of positive
    duration, laid out one after the other, aligned and related by containment, and related to nothing else. -/
structure RelatedGroup (h : Heap) (g : GRef) (ts : List TRef) : Prop where
  gtiers : h.gtiers g = ts
  gcont : h.gcont g = some ts
  gpoint : h.gpoint g = false
  ne : ts ≠ []
  chain : ClassChain h ts
  aligned : AlignedTiers h ts
  interval : ∀ t ∈ ts, h.ct.isSub (h.tcls t) cPoint = false
  ecls : ∀ t ∈ ts, (h.tseq t).ecls = some (h.tcls t)
  laid : ∀ t ∈ ts, Laid ((h.tseq t).vals.map h.span)
  twithin : ∀ t ∈ ts, h.twithin t = some g
  related : RelatedByContainment h ts
  closed : SupClosed h ts

/-- The entry `x` was added to the first of the tiers `ts` and the entries `i` steps below it to the tier at position `i`, in
    each case at the end. No relation, time or label differs. -/
structure StemAdded (h h' : Heap) (ts : List TRef) (x : Ref) : Prop where
  lists : ∀ (i : Nat) t, ts[i]? = some t → (h'.tseq t).vals = (h.tseq t).vals ++ generation h i x
  tiers : ∀ t, t ∉ ts → h'.tseq t = h.tseq t
  subs : ∀ v, (h'.subs v).vals = (h.subs v).vals
  sup : h'.sup = h.sup
  intier : ∀ t ∈ ts, ∀ y ∈ (h'.tseq t).vals, h'.intier y = some t
  linked : ∀ t, ts[0]? = some t → DoublyLinked h' (h'.tseq t).vals
  other : ∀ y, ¬ OnTiers h ts y → ¬ Desc h x y → h'.fol y = h.fol y ∧ h'.prev y = h.prev y ∧ h'.within y = h.within y ∧
    h'.cont y = h.cont y ∧ h'.intier y = h.intier y
  rest : h' = { h with fol := h'.fol, prev := h'.prev, intier := h'.intier, within := h'.within, tcont := h'.tcont,
                       tseq := h'.tseq, subs := h'.subs, sup := h'.sup, cont := h'.cont }

/-- The entries `E i` were added at the end of the tier at position `i` of `ts`, and all of them were moved by `d`. Nothing
    else was moved, and no relation differs. -/
structure Concatenated (h h' : Heap) (ts : List TRef) (E : Nat → List Ref) (d : Time) : Prop where
  lists : ∀ (i : Nat) t, ts[i]? = some t → (h'.tseq t).vals = (h.tseq t).vals ++ E i
  tiers : ∀ t, t ∉ ts → h'.tseq t = h.tseq t
  moved : ∀ i, i < ts.length → ∀ y ∈ E i, h'.start y = h.start y + d ∧ h'.stop y = h.stop y + d
  kept : ∀ y, (∀ i, i < ts.length → y ∉ E i) → h'.start y = h.start y ∧ h'.stop y = h.stop y
  subs : ∀ v, (h'.subs v).vals = (h.subs v).vals
  sup : h'.sup = h.sup
  intier : E 0 ≠ [] → ∀ t ∈ ts, ∀ y ∈ (h'.tseq t).vals, h'.intier y = some t
  linked : E 0 ≠ [] → ∀ t, ts[0]? = some t → DoublyLinked h' (h'.tseq t).vals
  other : ∀ y, ¬ OnTiers h ts y → (∀ i, i < ts.length → y ∉ E i) → h'.fol y = h.fol y ∧ h'.prev y = h.prev y ∧
    h'.within y = h.within y ∧ h'.cont y = h.cont y ∧ h'.intier y = h.intier y
  rest : h' = { h with start := h'.start, stop := h'.stop, fol := h'.fol, prev := h'.prev, intier := h'.intier,
                       within := h'.within, tcont := h'.tcont, tseq := h'.tseq, subs := h'.subs, sup := h'.sup,
                       cont := h'.cont }

/-- The groups `g` and `g'` have tiers of the same classes, top to bottom, and no entry in common; the times of the second
    group are not negative. -/
structure CanFollow (h : Heap) (g g' : GRef) (ts us : List TRef) : Prop where
  left : RelatedGroup h g ts
  right : RelatedGroup h g' us
  tidy : Tidy h
  ne : g ≠ g'
  classes : us.map h.tcls = ts.map h.tcls
  separate : ∀ y, OnTiers h ts y → ¬ OnTiers h us y
  after : ∀ u ∈ us, ∀ y ∈ (h.tseq u).vals, 0 ≤ h.start y
  depth : ts.length < 1000

end ATG
