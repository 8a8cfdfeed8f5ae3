import Verif.Spec.Cleanup
/-!
# Groups with an empty top tier
-/
namespace ATG

/-- The interval group `g` has an empty tier `u` for the highest class of the hierarchy, above the tiers `l :: rest`
    for the other classes, the first of them not empty, which are aligned and related by containment; the entries of `l` have no container. -/
structure EmptyTop (h : Heap) (g : GRef) (u l : TRef) (rest : List TRef) : Prop where
  gtiers : h.gtiers g = u :: l :: rest
  gcont : h.gcont g = some (u :: l :: rest)
  gpoint : h.gpoint g = false
  chain : ClassChain h (u :: l :: rest)
  top : ∃ c, h.ct.sup (h.tcls u) = some c ∧ h.ct.isSub c cTop = true
  low : ∀ t, (l :: rest).getLast? = some t → ∃ c, h.tsub t = some c ∧ h.ct.isSub c cBottom = true
  classes : h.ct.sub (h.tcls u) = some (h.tcls l) ∧ h.ct.sup (h.tcls l) = some (h.tcls u)
  interval : h.ct.isSub (h.tcls u) cPoint = false
  notTop : h.ct.isSub (h.tcls l) cTop = false
  empty : h.tseq u = SL.empty
  ne : (h.tseq l).vals ≠ []
  aligned : AlignedTiers h (l :: rest)
  related : RelatedByContainment h (l :: rest)
  tiers : ∀ t ∈ l :: rest, Fillable h t
  alone : ∀ x ∈ (h.tseq l).vals, h.within x = none ∧ h.intier x = some l
  twithin : ∀ t ∈ u :: l :: rest, h.twithin t = some g

/-- The empty tier `u` of `h` now has, for each entry of `xs`, a new blank interval with the same times, of the
    tier's class; no other entry differs, and no other tier has other contents. -/
structure Projected (h h' : Heap) (u : TRef) (xs : List Ref) : Prop where
  nE : h'.nE = h.nE + xs.length
  frame : h' = { h with nE := h'.nE, cls := h'.cls, start := h'.start, stop := h'.stop, label := h'.label,
                        fol := h'.fol, prev := h'.prev, subs := h'.subs, sup := h'.sup, intier := h'.intier,
                        within := h'.within, cont := h'.cont, tseq := h'.tseq, tcont := h'.tcont }
  away : ∀ x, x < h.nE ∨ h'.nE ≤ x → SameEntry h h' x ∧ h'.cont x = h.cont x
  other : ∀ t, t ≠ u → h'.tseq t = h.tseq t
  vals : (h'.tseq u).vals = List.range' h.nE xs.length
  ecls : xs ≠ [] → (h'.tseq u).ecls = some (h.tcls u)
  empty : xs = [] → h'.tseq u = SL.empty
  spans : (h'.tseq u).vals.map h'.span = xs.map h.span
  blank : ∀ r ∈ (h'.tseq u).vals, h'.label r = "" ∧ h'.cls r = h.tcls u ∧ (h'.subs r).vals = [] ∧ h'.sup r = none ∧
    h'.intier r = some u

end ATG
