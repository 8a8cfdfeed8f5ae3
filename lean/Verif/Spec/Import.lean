import Verif.Spec.Spans
import Verif.Model.Textgrid
import Verif.Props.Custom
/-!
# Tiers of a Praat textgrid
-/
namespace ATG

/-- the start and end times of a tier's entries -/
def rawSpans (raw : List (Time × Time × String)) : List (Time × Time) := raw.map fun p => (p.1, p.2.1)

/-- a tier's name and the times and labels of its entries -/
def Heap.ptier (h : Heap) (t : TRef) : PTier :=
  (h.tname t, (h.tseq t).vals.map fun r => (h.start r, h.stop r, h.label r))

/-- Interval tiers of a Praat textgrid, top to bottom: no tier is empty, no label is `#`, the intervals of a tier
    have positive length and do not overlap, the boundaries of each tier refine those of the one above, and if
    there are gaps, all times are positive. -/
structure GoodTiers (ts : List PTier) : Prop where
  ne : ∀ t ∈ ts, t.2 ≠ []
  label : ∀ t ∈ ts, ∀ p ∈ t.2, p.2.2 ≠ "#"
  laid : ∀ t ∈ ts, Laid (rawSpans t.2)
  pos : ∀ t ∈ ts, gapsOf (rawSpans t.2) ≠ [] → ∀ p ∈ t.2, 0 < p.1
  aligned : ∀ i t u, ts[i]? = some t → ts[i + 1]? = some u → AlignedS (rawSpans t.2) (rawSpans u.2)

/-- all tiers start at `lo` and end at `hi`, without gaps -/
def Covering (ts : List PTier) (lo hi : Time) : Prop :=
  ∀ t ∈ ts, gapsOf (rawSpans t.2) = [] ∧ ((∃ p ∈ t.2, p.1 = lo) ∧ ∀ p ∈ t.2, lo ≤ p.1) ∧
    (∃ p ∈ t.2, p.2.1 = hi) ∧ ∀ p ∈ t.2, p.2.1 ≤ hi

/-- The groups of the textgrid `a` are the given ones: the names, times and labels of all tiers and the names of
    their classes. -/
structure Holds (h : Heap) (a : ARef) (tss : List (List PTier)) (names : List (List String)) : Prop where
  tiers : (h.agroups a).map (fun g => (h.gtiers g).map h.ptier) = tss
  classes : (h.agroups a).map (fun g => (h.gtiers g).map fun t => h.ct.name (h.tcls t)) = names

/-- The classes are hierarchies, complete and in order, whose names do not contain `Top` or `Bottom`, with
    different names for different classes. -/
structure GoodClasses (ct : ClassTab) (css : List (List CRef)) : Prop where
  hier : ∀ cs ∈ css, IsHierarchy ct cs
  plain : ∀ c ∈ css.flatten, PlainName (ct.name c)
  names : ∀ c ∈ css.flatten, ∀ d ∈ css.flatten, ct.name c = ct.name d → c = d

/-- `cs` is a hierarchy without its lowest classes, or a complete one -/
def TopPart (ct : ClassTab) (cs : List CRef) : Prop := cs ≠ [] ∧ ∃ low, IsHierarchy ct (cs ++ low)

/-- The lists of classes are top parts of the complete ones. -/
def TopParts (css full : List (List CRef)) : Prop :=
  css.length = full.length ∧ ∀ (i : Nat) cs L, css[i]? = some cs → full[i]? = some L → cs ≠ [] ∧ cs <+: L

/-- The classes are hierarchies in order, each of them complete or without its lowest classes; the names of all
    classes of these hierarchies do not contain `Top` or `Bottom`, and different classes have different names. -/
def TopClasses (ct : ClassTab) (css : List (List CRef)) : Prop := ∃ full, GoodClasses ct full ∧ TopParts css full

/-- Lists with a class in common are equal. -/
def AlikeClasses (css : List (List CRef)) : Prop := ∀ cs ∈ css, ∀ cs' ∈ css, ∀ c ∈ cs, c ∈ cs' → cs = cs'

/-- The classes are hierarchies in order, each of them complete or without its lowest classes, and each of them always with the same classes. -/
def EvenClasses (ct : ClassTab) (css : List (List CRef)) : Prop := TopClasses ct css ∧ AlikeClasses css

end ATG
