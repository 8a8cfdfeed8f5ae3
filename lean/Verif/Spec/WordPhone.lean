import Verif.Spec.Basic
/-!
# New phones for a word
-/
namespace ATG

/-- new phones that can be given to the word `w`, which has none yet -/
structure NewPhones (h : Heap) (w : Ref) (c : CRef) (ps : List Ref) : Prop where
  empty : h.subs w = SL.empty
  sub : h.ct.sub (h.cls w) = some c
  sup : ∃ d, h.ct.sup c = some d ∧ h.ct.isSub (h.cls w) d = true
  cls : ∀ x ∈ ps, h.cls x = c
  label : ∀ x ∈ ps, h.label x ≠ "#"
  free : ∀ x ∈ ps, h.sup x = none ∧ h.within x = none
  nodup : ps.Nodup
  distinct : ∀ x ∈ ps, ∀ y ∈ ps, SameValue h x y → x = y

end ATG
