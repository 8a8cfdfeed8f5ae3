import Verif.Spec.Group
/-!
# Groups into which a tier is interleaved
-/
namespace ATG

/-- The classes, top to bottom, form a chain in the class table: they are distinct, each is the subset class
    of the one before (and that one its superset class), and the first and last are followed outwards by a
    `Top` or `Bottom` class or one that is not listed. -/
structure ClassLinks (ct : ClassTab) (cs : List CRef) : Prop where
  distinct : cs.Nodup
  down : ∀ (i : Nat) c c', cs[i]? = some c → cs[i + 1]? = some c' → ct.sub c = some c' ∧ ct.sup c' = some c
  inner : ∀ (i : Nat) c c', cs[i]? = some c → cs[i + 1]? = some c' →
    ct.isSub c cTop = false ∧ ct.isSub c' cBottom = false
  top : ∀ c, cs[0]? = some c → ∃ p, ct.sup c = some p ∧ (ct.isSub p cTop = true ∨ p ∉ cs)
  bottom : ∀ c, cs[cs.length - 1]? = some c → ∃ p, ct.sub c = some p ∧ (ct.isSub p cBottom = true ∨ p ∉ cs)

/-- The tiers of a group, top to bottom, fit together, and their intervals are related to each other only:
    no entry occurs twice, entries have the class of their tier and ordinary labels, the intervals of a tier
    have positive durations and do not overlap, the boundaries of each tier refine those of the one above,
    and an interval is in one of the tiers exactly if the intervals of its subset list are. -/
structure FitGroup (h : Heap) (ts : List TRef) : Prop where
  once : (ts.map fun t => (h.tseq t).vals).flatten.Nodup
  cls : ∀ t ∈ ts, ∀ x ∈ (h.tseq t).vals, h.cls x = h.tcls t
  label : ∀ t ∈ ts, ∀ x ∈ (h.tseq t).vals, h.label x ≠ "#"
  disjoint : ∀ t ∈ ts, (h.tseq t).vals.Pairwise fun x y => h.stop x ≤ h.start y
  positive : ∀ t ∈ ts, ∀ x ∈ (h.tseq t).vals, h.start x < h.stop x
  aligned : ∀ (i : Nat) t t', ts[i]? = some t → ts[i + 1]? = some t' →
    Aligned h (h.tseq t).vals (h.tseq t').vals
  closed : ∀ v x, x ∈ (h.subs v).vals →
    ((∃ t ∈ ts, v ∈ (h.tseq t).vals) ↔ ∃ t ∈ ts, x ∈ (h.tseq t).vals)
  old : ∀ t ∈ ts, t < h.nT ∧ ∀ x ∈ (h.tseq t).vals, x < h.nE

/-- The group `g` has the tiers `pre` followed by `post`; if there are any, the last of `pre` has the class `u`
    and the first of `post` the class `d`, and no other tier has one of these. The tier `k`, whose intervals are to be copied, is the first of `post`
    (`fromBelow`) or the last of `pre`. -/
structure Place (h : Heap) (g : GRef) (pre post : List TRef) (k : TRef) (u d : CRef) (fromBelow : Bool) : Prop where
  eq : h.gtiers g = pre ++ post
  above : ∀ t, pre.getLast? = some t → h.tcls t = u
  below : ∀ t, post.head? = some t → h.tcls t = d
  onlyAbove : ∀ t ∈ post, h.tcls t ≠ u
  onlyBelow : ∀ t ∈ pre, h.tcls t ≠ d
  source : if fromBelow then post.head? = some k else pre.getLast? = some k

/-- a place for a new tier in a group whose tiers fit together; the tier to be copied is not empty -/
structure Spot (h : Heap) (g : GRef) (pre post : List TRef) (k : TRef) (u d : CRef) (fromBelow : Bool) : Prop
    extends Place h g pre post k u d fromBelow where
  filled : (h.tseq k).vals ≠ []
  fit : FitGroup h (pre ++ post)

/-- The tier `t'` is a copy of `t`, which is as in the heap `h`: interval by interval it has the same start and
    end, and the same label or (`labels = false`) none. Its intervals have class `c` and are new. -/
structure CopyOf (h : Heap) (t : TRef) (h' : Heap) (t' : TRef) (c : CRef) (labels : Bool) : Prop where
  values : (h'.tseq t').vals.map (fun x => (h'.start x, h'.stop x, h'.label x)) =
    (h.tseq t).vals.map fun x => (h.start x, h.stop x, if labels then h.label x else "")
  tcls : h'.tcls t' = c
  cls : ∀ x ∈ (h'.tseq t').vals, h'.cls x = c
  new : h.nT ≤ t' ∧ ∀ x ∈ (h'.tseq t').vals, h.nE ≤ x

/-- The tiers `ts` and their entries are the same in both heaps: contents, times, labels, classes, relations,
    links. -/
structure Unmoved (h h' : Heap) (ts : List TRef) : Prop where
  tseq : ∀ t ∈ ts, h'.tseq t = h.tseq t
  tcls : ∀ t ∈ ts, h'.tcls t = h.tcls t
  tname : ∀ t ∈ ts, h'.tname t = h.tname t
  value : ∀ t ∈ ts, ∀ x ∈ (h.tseq t).vals, h'.start x = h.start x ∧ h'.stop x = h.stop x ∧
    h'.label x = h.label x ∧ h'.cls x = h.cls x
  relation : ∀ t ∈ ts, ∀ x ∈ (h.tseq t).vals, (h'.subs x).vals = (h.subs x).vals ∧ h'.sup x = h.sup x ∧
    h'.within x = h.within x ∧ h'.cont x = h.cont x ∧ h'.fol x = h.fol x ∧ h'.prev x = h.prev x

/-- no two of the groups share an entry -/
def Separate (h : Heap) (gs : List GRef) : Prop :=
  ∀ g ∈ gs, ∀ g' ∈ gs, g ≠ g' → ∀ t ∈ h.gtiers g, ∀ x ∈ (h.tseq t).vals, ∀ t' ∈ h.gtiers g', x ∉ (h.tseq t').vals

/-- every related entry exists -/
def Allocated (h : Heap) : Prop := ∀ v x, x ∈ (h.subs v).vals → v < h.nE ∧ x < h.nE

/-- The group `g'` of `h'` is the group `g` of `h` with a new tier between its tiers of the classes `u` and `d`:
    a copy of one of these, related to both by containment; the tiers fit together. -/
def SpotDone (h h' : Heap) (g g' : GRef) (new u d : CRef) (fromBelow labels : Bool) : Prop :=
  ∃ pre post k t', Place h g pre post k u d fromBelow ∧ h'.gtiers g' = pre ++ t' :: post ∧
    CopyOf h k h' t' new labels ∧ RelatedByContainment h' (pre ++ t' :: post) ∧ FitGroup h' (pre ++ t' :: post)

/-- each of the classes has links of its own, none inherited, and none is a `Top` or `Bottom` class -/
def OwnLinks (ct : ClassTab) (cs : List CRef) : Prop :=
  ∀ c ∈ cs, (∃ a b, ct.ownSub c = some (some a) ∧ ct.ownSup c = some (some b)) ∧
    ct.isSub c cTop = false ∧ ct.isSub c cBottom = false

/-- The group `g` has the tiers `pre`, `pt`, `post`; `pt` has the class `p`, called `name`, and no other tier has a
    class of that name; the tiers fit together. -/
structure PopSpot (h : Heap) (g : GRef) (name : String) (p : CRef) (pre : List TRef) (pt : TRef) (post : List TRef) :
    Prop where
  eq : h.gtiers g = pre ++ pt :: post
  cls : h.tcls pt = p
  named : h.ct.name p = name
  only : ∀ t ∈ pre ++ post, h.ct.name (h.tcls t) ≠ name
  fit : FitGroup h (pre ++ pt :: post)

/-- The group `g'` of `h'` has the tiers of the group `g` of `h` but the one of the class called `name`, in order
    and related by containment; the intervals of the last of them contain nothing. -/
def PopDone (h h' : Heap) (g g' : GRef) (name : String) : Prop :=
  ∃ pre pt post, h.gtiers g = pre ++ pt :: post ∧ h.ct.name (h.tcls pt) = name ∧
    (∀ t ∈ pre ++ post, h.ct.name (h.tcls t) ≠ name) ∧ h'.gtiers g' = pre ++ post ∧
    RelatedByContainment h' (pre ++ post) ∧
    ∀ t, (pre ++ post).getLast? = some t → ∀ x ∈ (h.tseq t).vals, (h'.subs x).vals = [] ∧ h'.cont x = .detached []

/-- The intervals of the tiers `ts` are related alike in both heaps: the same subset lists, supersets and, below
    the first tier, neighbours. -/
structure SameRelations (h h' : Heap) (ts : List TRef) : Prop where
  subs : ∀ (i : Nat) t t', ts[i]? = some t → ts[i + 1]? = some t' → ∀ v ∈ (h.tseq t).vals,
    (h'.subs v).vals = (h.subs v).vals
  sup : ∀ t ∈ ts, ∀ x ∈ (h.tseq t).vals, h'.sup x = h.sup x
  links : ∀ (i : Nat) t, ts[i + 1]? = some t → ∀ x ∈ (h.tseq t).vals, h'.fol x = h.fol x ∧ h'.prev x = h.prev x

/-- the groups with another tier than one of a class called `name` -/
def staying (h : Heap) (name : String) (gs : List GRef) : List GRef :=
  gs.filter fun g => decide ((h.gtiers g).map (fun t => h.ct.name (h.tcls t)) ≠ [name])

end ATG
