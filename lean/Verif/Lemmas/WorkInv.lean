import Verif.Lemmas.BookInv
import Verif.Lemmas.FuseRun
import Verif.Lemmas.FuseAlign
import Verif.Lemmas.Homely
/-!
# Textgrids whose intervals can be fused
-/
namespace ATG

/-- The intervals of the groups `gs` can be fused, and the groups can be edited. -/
structure WorkableFor (R : ClassTab → List (List CRef) → Prop) (h : Heap) (gs : List GRef) : Prop extends EditableFor R h gs where
  homed : ∀ g ∈ gs, Homed h (h.gtiers g)
  interval : ∀ g ∈ gs, ∀ t ∈ h.gtiers g, h.ct.isSub (h.tcls t) cPoint = false
  gpoint : ∀ g ∈ gs, h.gpoint g = false

/-- the same for complete hierarchies of classes -/
abbrev Workable := WorkableFor ClassRows

variable {R : ClassTab → List (List CRef) → Prop}

theorem FitGroup.index {h : Heap} {ts : List TRef} (f : FitGroup h ts) {i j : Nat} {s t : TRef} {x : Ref} (hi : ts[i]? = some s)
    (hj : ts[j]? = some t) (hs : x ∈ (h.tseq s).vals) (ht : x ∈ (h.tseq t).vals) : i = j :=
  flatten_index f.once hi hj hs ht

/-- an entry of a tier with a superset: the superset is on the tier above -/
theorem RelatedByContainment.above {h : Heap} {ts : List TRef} (r : RelatedByContainment h ts) {j : Nat} {t : TRef} {x v : Ref}
    (hj : ts[j]? = some t) (hx : x ∈ (h.tseq t).vals) (hs : h.sup x = some v) :
    ∃ i s, j = i + 1 ∧ ts[i]? = some s ∧ v ∈ (h.tseq s).vals ∧ x ∈ (h.subs v).vals := by
  match j with
  | 0 => rw [r.top t hj x hx] at hs; cases hs
  | i + 1 =>
    have hi : i < ts.length := by have := (List.getElem?_eq_some_iff.mp hj).1; omega
    obtain ⟨u, hu, hm⟩ := r.covered i _ t (List.getElem?_eq_getElem hi) hj x hx
    have := (r.sup i _ t (List.getElem?_eq_getElem hi) hj u hu x hm).1
    rw [hs] at this
    cases this
    exact ⟨i, _, rfl, List.getElem?_eq_getElem hi, hu, hm⟩

/-- the entries of the subset list of an entry are on the tier below -/
theorem FitGroup.below {h : Heap} {ts : List TRef} (f : FitGroup h ts) (r : RelatedByContainment h ts) {L : Ref → Prop} (td : TidyOn L h) {j : Nat}
    {t : TRef} {x z : Ref} (hj : ts[j]? = some t) (hx : x ∈ (h.tseq t).vals) (hz : z ∈ (h.subs x).vals) :
    ∃ t', ts[j + 1]? = some t' ∧ z ∈ (h.tseq t').vals := by
  obtain ⟨t', ht', hz'⟩ := (f.closed x z hz).mp ⟨t, List.mem_of_getElem? hj, hx⟩
  obtain ⟨k, hk⟩ := List.mem_iff_getElem?.mp ht'
  obtain ⟨i, s, rfl, hs, hv, -⟩ := r.above hk hz' (td.down x z hz)
  have := f.index hs hj hv hx
  subst this
  exact ⟨t', hk, hz'⟩

theorem FitGroup.inOrder {h : Heap} {ts : List TRef} (f : FitGroup h ts) {t : TRef} (ht : t ∈ ts) : InOrder h (h.tseq t).vals := by
  refine (f.disjoint t ht).imp_of_mem ?_
  intro x y hx hy q
  have := f.positive t ht x hx
  have := f.positive t ht y hy
  grind

theorem FitGroup.subsOrder {h : Heap} {ts : List TRef} (f : FitGroup h ts) (r : RelatedByContainment h ts) {L : Ref → Prop} (td : TidyOn L h) {j : Nat}
    {t : TRef} {x : Ref} (hj : ts[j]? = some t) (hx : x ∈ (h.tseq t).vals) : InOrder h (h.subs x).vals := by
  by_cases hn : (h.subs x).vals = []
  · rw [hn]; exact List.Pairwise.nil
  · obtain ⟨z, hz⟩ := List.exists_mem_of_ne_nil _ hn
    obtain ⟨t', hk, -⟩ := f.below r td hj hx hz
    rw [(r.subs j t t' hj hk x hx).1]
    exact List.Pairwise.sublist List.filter_sublist (f.inOrder (List.mem_of_getElem? hk))

/-- The entries `a`, `b` of the tier `t`, the `j`-th of the group `g`, are next to each other, touch, and belong to the same
    superset, or to the first tier. -/
structure FuseSpot (h : Heap) (g : GRef) (j : Nat) (t : TRef) (A : List Ref) (a b : Ref) (B : List Ref) : Prop where
  tier : (h.gtiers g)[j]? = some t
  list : (h.tseq t).vals = A ++ a :: b :: B
  touch : h.stop a = h.start b
  under : ∀ i s, j = i + 1 → (h.gtiers g)[i]? = some s → ∃ u ∈ (h.tseq s).vals, Inside h u a ∧ Inside h u b

theorem FuseSpot.sup {h : Heap} {g : GRef} {j : Nat} {t : TRef} {A B : List Ref} {a b : Ref} (fs : FuseSpot h g j t A a b B)
    (r : RelatedByContainment h (h.gtiers g)) : h.sup a = h.sup b := by
  have ha : a ∈ (h.tseq t).vals := by rw [fs.list]; simp
  have hb : b ∈ (h.tseq t).vals := by rw [fs.list]; simp
  match j, fs.tier, fs.under with
  | 0, hj, _ => rw [r.top t hj a ha, r.top t hj b hb]
  | i + 1, hj, hu =>
    have hi : i < (h.gtiers g).length := by have := (List.getElem?_eq_some_iff.mp hj).1; omega
    have hs := List.getElem?_eq_getElem hi
    obtain ⟨u, hum, q1, q2⟩ := hu i _ rfl hs
    have e := (r.subs i _ t hs hj u hum).1
    have ma : a ∈ (h.subs u).vals := by rw [e]; exact List.mem_filter.mpr ⟨ha, by simpa using q1⟩
    have mb : b ∈ (h.subs u).vals := by rw [e]; exact List.mem_filter.mpr ⟨hb, by simpa using q2⟩
    rw [(r.sup i _ t hs hj u hum a ma).1, (r.sup i _ t hs hj u hum b mb).1]

theorem FuseSpot.sideBySide {h : Heap} {g : GRef} {j : Nat} {t : TRef} {A B : List Ref} {a b : Ref}
    (fs : FuseSpot h g j t A a b B) (f : FitGroup h (h.gtiers g)) : SideBySide h A a b B := by
  have ht := List.mem_of_getElem? fs.tier
  have e := fs.list
  refine ⟨?_, ?_, ?_, fs.touch⟩ <;> rw [← e]
  · exact (f.inOrder ht).nodup
  · exact f.disjoint t ht
  · exact f.positive t ht

theorem WorkableFor.neighbours [LinkedRows R] {h : Heap} {gs : List GRef} (wk : WorkableFor R h gs) {g : GRef} (hg : g ∈ gs) {j : Nat} {t : TRef}
    {A B : List Ref} {a b : Ref} (fs : FuseSpot h g j t A a b B) :
    ∃ d, Neighbours (OnGroups h gs) h a b d ∧ TierNeighbours h t A a b B ∧
      ((j = 0 → Strung h (h.gtiers g)) → h.fol a = some (.obj b)) ∧
      (∀ t', (h.gtiers g)[j + 1]? = some t' → d = h.tcls t') := by
  have f := wk.fit g hg
  have r := wk.rel g hg
  have hm := wk.homed g hg
  have td := wk.tidy
  have ht := List.mem_of_getElem? fs.tier
  have ha : a ∈ (h.tseq t).vals := by rw [fs.list]; simp
  have hb : b ∈ (h.tseq t).vals := by rw [fs.list]; simp
  have sb := fs.sideBySide f
  obtain ⟨ne, aA, aB, bA, bB, pa, pb, hA, hB⟩ := sb.facts
  have tc := fs.touch
  have hsup := fs.sup r
  have row := wk.toEditableFor.links hg
  -- the class below
  obtain ⟨d, hd, hd'⟩ : ∃ d, h.ct.sub (h.tcls t) = some d ∧ ∀ t', (h.gtiers g)[j + 1]? = some t' → d = h.tcls t' := by
    cases hn : (h.gtiers g)[j + 1]? with
    | some t' =>
      refine ⟨h.tcls t', (row.down j _ _ (by rw [List.getElem?_map, fs.tier]; rfl) (by rw [List.getElem?_map, hn]; rfl)).1, ?_⟩
      intro t'' e; cases e; rfl
    | none =>
      have hl : j = (h.gtiers g).length - 1 := by
        have h1 := (List.getElem?_eq_some_iff.mp fs.tier).1
        have h2 := List.getElem?_eq_none_iff.mp hn
        omega
      obtain ⟨p, hp, -⟩ := row.bottom (h.tcls t) (by
        rw [List.length_map, ← hl, List.getElem?_map, fs.tier]; rfl)
      exact ⟨p, hp, by simp⟩
  have hsub : ∀ x ∈ (h.tseq t).vals, ∀ z ∈ (h.subs x).vals, h.cls z = d ∧ Inside h x z ∧ h.start z < h.stop z := by
    intro x hx z hz
    obtain ⟨t', hk, hz'⟩ := f.below r td fs.tier hx hz
    have := (r.subs j t t' fs.tier hk x hx).1
    rw [this] at hz
    exact ⟨(f.cls t' (List.mem_of_getElem? hk) z hz').trans (hd' t' hk).symm, by simpa using (List.mem_filter.mp hz).2,
      f.positive t' (List.mem_of_getElem? hk) z hz'⟩
  have hnu : ∀ z ∈ (h.tseq t).vals, ∀ w ∈ (h.tseq t).vals, h.sup z ≠ some w := by
    intro z hz w hw e
    obtain ⟨i, s, rfl, hs, hv, -⟩ := r.above fs.tier hz e
    have := f.index hs fs.tier hv hw
    omega
  refine ⟨d, ⟨td, ⟨⟨g, hg, t, ht, ha⟩, ⟨g, hg, t, ht, hb⟩⟩, ?_, ne, ⟨by grind, by grind⟩, ?_, ?_, fun z hz => (hsub a ha z hz).1, fun z hz => (hsub b hb z hz).1, ?_, ?_,
    hsup, ⟨hnu a ha a ha, hnu a ha b hb⟩⟩, ⟨fs.list, f.inOrder ht, ?_, f.label t ht, hm.home t ht a ha, hm.home t ht b hb,
    fun z hz => ⟨hnu z hz a ha, hnu z hz b hb⟩, wk.interval g hg t ht, ?_⟩, ?_, hd'⟩
  · rintro v (rfl | rfl | hv)
    · exact f.subsOrder r td fs.tier ha
    · exact f.subsOrder r td fs.tier hb
    · obtain ⟨i, s, -, hs, hv', -⟩ := r.above fs.tier ha hv
      exact f.subsOrder r td hs hv'
  · rw [f.cls t ht a ha, f.cls t ht b hb]
  · rw [f.cls t ht a ha]; exact hd
  · cases hn : (h.gtiers g)[j + 1]? with
    | some t' => left; rw [hd' t' hn]; exact hm.typed j t t' fs.tier hn a ha
    | none =>
      right; right
      apply List.eq_nil_iff_forall_not_mem.mpr
      intro z hz
      obtain ⟨t', hk, -⟩ := f.below r td fs.tier hb hz
      rw [hn] at hk; cases hk
  · intro u hu v hv
    obtain ⟨-, i1, p1⟩ := hsub a ha u hu
    obtain ⟨-, i2, p2⟩ := hsub b hb v hv
    unfold Inside at i1 i2
    constructor <;> grind
  · intro u hu v hv; rw [f.cls t ht u hu, f.cls t ht v hv]
  · intro e
    match j, fs with
    | 0, fs => exact r.top t fs.tier a ha
    | i + 1, fs =>
      exact absurd e (hm.below i t fs.tier (List.ne_nil_of_mem ha))
  · intro hc
    match j, fs with
    | 0, fs =>
      rw [(hc rfl t fs.tier A.length a (by rw [fs.list]; simp)).1, fs.list]
      simp
    | i + 1, fs =>
      have hi : i < (h.gtiers g).length := by have := (List.getElem?_eq_some_iff.mp fs.tier).1; omega
      have hs := List.getElem?_eq_getElem hi
      obtain ⟨u, hum, q1, q2⟩ := fs.under i _ rfl hs
      have e := (r.subs i _ t hs fs.tier u hum).1
      rw [fs.list, List.filter_append, List.filter_cons_of_pos (by simpa using q1), List.filter_cons_of_pos (by simpa using q2)] at e
      have l := r.linked i _ t hs fs.tier u hum
      rw [e] at l
      exact (l.next (A.filter (Inside h u ·)).length a b (by simp) (by simp)).1

theorem WorkableFor.previous {h : Heap} {gs : List GRef} (wk : WorkableFor R h gs) {g : GRef} (hg : g ∈ gs) {j : Nat} {t : TRef}
    {A B : List Ref} {a b : Ref} (fs : FuseSpot h g j t A a b B) (hj : j = 0 → Backed h (h.gtiers g)) :
    h.prev b = some (.obj a) := by
  have r := wk.rel g hg
  match j, fs, hj with
  | 0, fs, hj =>
    rw [hj rfl t fs.tier (A.length + 1) b (by rw [fs.list]; simp), fs.list]
    show some ((A ++ a :: b :: B)[A.length]?.elim Link.bumper Link.obj) = _
    simp
  | i + 1, fs, _ =>
    have hi : i < (h.gtiers g).length := by have := (List.getElem?_eq_some_iff.mp fs.tier).1; omega
    have hs := List.getElem?_eq_getElem hi
    obtain ⟨u, hum, q1, q2⟩ := fs.under i _ rfl hs
    have e := (r.subs i _ t hs fs.tier u hum).1
    rw [fs.list, List.filter_append, List.filter_cons_of_pos (by simpa using q1), List.filter_cons_of_pos (by simpa using q2)] at e
    have l := r.linked i _ t hs fs.tier u hum
    rw [e] at l
    exact (l.next (A.filter (Inside h u ·)).length a b (by simp) (by simp)).2

end ATG
