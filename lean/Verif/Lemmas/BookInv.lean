import Verif.Lemmas.BookClasses
import Verif.Spec.Book
import Verif.Props.Shift
import Verif.Lemmas.Stem
/-!
# Textgrids that can be edited
-/
namespace ATG

/-- The groups `gs` can be edited: their tiers fit together and are related by containment, the groups share nothing,
    and their classes are linked in the way `R`. Entries of tiers popped earlier may still name entries of the groups as their
    supersets. -/
structure EditableFor (R : ClassTab → List (List CRef) → Prop) (h : Heap) (gs : List GRef) : Prop where
  wfc : WFC h.ct
  nodup : gs.Nodup
  old : ∀ g ∈ gs, g < h.nG ∧ ∀ t ∈ h.gtiers g, t < h.nT ∧ ∀ x ∈ (h.tseq t).vals, x < h.nE
  sep : Separate h gs
  tidy : TidyOn (OnGroups h gs) h
  alloc : Allocated h
  allocUp : AllocatedUp h
  fit : ∀ g ∈ gs, FitGroup h (h.gtiers g)
  up : ∀ g ∈ gs, UpClosed h (h.gtiers g)
  rel : ∀ g ∈ gs, RelatedByContainment h (h.gtiers g)
  rows : R h.ct (gs.map fun g => (h.gtiers g).map h.tcls)

/-- the groups can be edited, for complete hierarchies of classes -/
abbrev Editable := EditableFor ClassRows

/-- classes of neighbouring tiers are linked to each other -/
class LinkedRows (R : ClassTab → List (List CRef) → Prop) : Prop where
  links : ∀ {ct css}, R ct css → ∀ cs ∈ css, ClassLinks ct cs

instance : LinkedRows ClassRows := ⟨fun r cs h => (r.row cs h).links⟩

/-- nothing but these links -/
def RowLinks (ct : ClassTab) (css : List (List CRef)) : Prop := ∀ cs ∈ css, ClassLinks ct cs

instance : LinkedRows RowLinks := ⟨fun r => r⟩

variable {R : ClassTab → List (List CRef) → Prop}

theorem EditableFor.links [LinkedRows R] {h : Heap} {gs : List GRef} (e : EditableFor R h gs) {g : GRef} (hg : g ∈ gs) :
    ClassLinks h.ct ((h.gtiers g).map h.tcls) := LinkedRows.links e.rows _ (List.mem_map.mpr ⟨g, hg, rfl⟩)

theorem map_eq_of_index {α β γ} {l : List α} {l' : List β} {f : α → γ} {g : β → γ} (hl : l.length = l'.length)
    (hi : ∀ (i : Nat) x y, l[i]? = some x → l'[i]? = some y → f x = g y) : l.map f = l'.map g := by
  apply List.ext_getElem?
  intro i
  rw [List.getElem?_map, List.getElem?_map]
  by_cases h : i < l.length
  · rw [List.getElem?_eq_getElem h, List.getElem?_eq_getElem (hl ▸ h)]
    exact congrArg some (hi i _ _ (List.getElem?_eq_getElem h) (List.getElem?_eq_getElem (hl ▸ h)))
  · rw [List.getElem?_eq_none (by omega), List.getElem?_eq_none (by omega)]; rfl

theorem unmoved_store (h : Heap) (fg fc fw) (ts : List TRef) :
    Unmoved h { h with agroups := fg, acont := fc, gwithin := fw } ts :=
  ⟨fun _ _ => rfl, fun _ _ => rfl, fun _ _ => rfl, fun _ _ _ _ => ⟨rfl, rfl, rfl, rfl⟩,
    fun _ _ _ _ => ⟨rfl, rfl, rfl, rfl, rfl, rfl⟩⟩

theorem EditableFor.store {h : Heap} {gs : List GRef} (e : EditableFor R h gs) (fg fc fw) :
    EditableFor R { h with agroups := fg, acont := fc, gwithin := fw } gs :=
  ⟨e.wfc, e.nodup, e.old, e.sep, ⟨e.tidy.down, e.tidy.up, e.tidy.nodup, e.tidy.distinct, e.tidy.cls, e.tidy.label⟩, e.alloc, e.allocUp,
    fun g hg => (e.fit g hg).unmoved (unmoved_store h fg fc fw _) (e.fit g hg).closed (Nat.le_refl _) (Nat.le_refl _),
    e.up, fun g hg => (e.rel g hg).unmoved (unmoved_store h fg fc fw _), e.rows⟩

theorem EditableFor.far {h : Heap} {gs : List GRef} (e : EditableFor R h gs) (g : GRef) (hg : g ∈ gs) : Far h gs g :=
  e.sep.far e.up hg

theorem Editable.row {h : Heap} {gs : List GRef} (e : Editable h gs) {g : GRef} (hg : g ∈ gs) :
    ClassRow h.ct ((h.gtiers g).map h.tcls) := e.rows.row _ (List.mem_map.mpr ⟨g, hg, rfl⟩)

/-- a group without changes -/
theorem EditableFor.kept {h h' : Heap} {gs : List GRef} (e : EditableFor R h gs) {g : GRef} (hg : g ∈ gs)
    (m : Unmoved h h' (h.gtiers g)) (hnT : h.nT ≤ h'.nT) (hnE : h.nE ≤ h'.nE)
    (hsub : ∀ v x, x ∈ (h'.subs v).vals → x ∈ (h.subs v).vals ∨ ¬ OnTiers h (h.gtiers g) v ∧ ¬ OnTiers h (h.gtiers g) x)
    (hsup : ∀ v x, h'.sup x = some v → h.sup x = some v ∨ ¬ OnTiers h (h.gtiers g) x) :
    FitGroup h' (h.gtiers g) ∧ UpClosed h' (h.gtiers g) ∧ RelatedByContainment h' (h.gtiers g) := by
  have hon : ∀ x, OnTiers h' (h.gtiers g) x ↔ OnTiers h (h.gtiers g) x := by
    intro x
    constructor
    · rintro ⟨t, ht, hx⟩; exact ⟨t, ht, by rw [← m.tseq t ht]; exact hx⟩
    · rintro ⟨t, ht, hx⟩; exact ⟨t, ht, by rw [m.tseq t ht]; exact hx⟩
  refine ⟨(e.fit g hg).unmoved m ?_ hnT hnE, ?_, (e.rel g hg).unmoved m⟩
  · intro v x hx
    rcases hsub v x hx with q | ⟨q1, q2⟩
    · exact (e.fit g hg).closed v x q
    · exact ⟨fun q => absurd q q1, fun q => absurd q q2⟩
  · intro v x hv hx
    rw [hon] at hx ⊢
    rcases hsup v x hv with q | q
    · exact e.up g hg v x q hx
    · exact absurd hx q

/-- entries of two groups are different -/
theorem EditableFor.apart {h : Heap} {gs : List GRef} (e : EditableFor R h gs) {g g' : GRef} (hg : g ∈ gs) (hg' : g' ∈ gs)
    (hne : g ≠ g') {x : Ref} (hx : OnTiers h (h.gtiers g) x) : ¬ OnTiers h (h.gtiers g') x := by
  rintro ⟨t', ht', hx'⟩
  obtain ⟨t, ht, hx⟩ := hx
  exact e.sep g hg g' hg' hne t ht x hx t' ht' hx'

theorem EditableFor.lt {h : Heap} {gs : List GRef} (e : EditableFor R h gs) {g : GRef} (hg : g ∈ gs) {x : Ref}
    (hx : OnTiers h (h.gtiers g) x) : x < h.nE := by
  obtain ⟨t, ht, hx⟩ := hx
  exact ((e.old g hg).2 t ht).2 x hx

theorem pageOf_names (h : Heap) (g : GRef) : (pageOf h g).map (·.1) = (h.gtiers g).map fun t => h.ct.name (h.tcls t) := by
  simp [pageOf]

theorem bookOf_store (h : Heap) (a : ARef) (fg fc fw) :
    bookOf { h with agroups := fg, acont := fc, gwithin := fw } a = (fg a).map (pageOf h) := rfl

/-- pages of tiers with the same class names and rows -/
theorem rowsOf_congr {h h' : Heap} {t : TRef} (hs : h'.tseq t = h.tseq t)
    (hx : ∀ x ∈ (h.tseq t).vals, h'.start x = h.start x ∧ h'.stop x = h.stop x ∧ h'.label x = h.label x) :
    rowsOf h' t = rowsOf h t := by
  unfold rowsOf
  rw [hs]
  apply List.map_congr_left
  intro x hm
  obtain ⟨q1, q2, q3⟩ := hx x hm
  rw [q1, q2, q3]

/-! ## shift -/

theorem mem_atgEntries {h : Heap} {a : ARef} {x : Ref} : x ∈ atgEntries h a ↔ OnGroups h (h.agroups a) x := by
  unfold atgEntries groupEntries OnGroups OnTiers
  simp [List.mem_flatMap]

theorem EditableFor.entries_nodup {h : Heap} {a : ARef} (e : EditableFor R h (h.agroups a)) : (atgEntries h a).Nodup := by
  unfold atgEntries
  have key : ∀ gs : List GRef, gs.Nodup → (∀ g ∈ gs, g ∈ h.agroups a) → (gs.flatMap (groupEntries h)).Nodup := by
    intro gs
    induction gs with
    | nil => intro _ _; exact List.nodup_nil
    | cons g gs ih =>
      intro nd hm
      rw [List.nodup_cons] at nd
      rw [List.flatMap_cons, List.nodup_append]
      refine ⟨?_, ih nd.2 (fun g' hg' => hm g' (by simp [hg'])), ?_⟩
      · have := (e.fit g (hm g (by simp))).once
        unfold groupEntries
        rw [List.flatMap_def]
        exact this
      · intro x hx y hy hxy
        subst hxy
        obtain ⟨g', hg', hy⟩ := List.mem_flatMap.mp hy
        obtain ⟨t, ht, hx⟩ := List.mem_flatMap.mp hx
        obtain ⟨t', ht', hy⟩ := List.mem_flatMap.mp hy
        exact e.apart (hm g (by simp)) (hm g' (by simp [hg'])) (fun q => nd.1 (q ▸ hg')) ⟨t, ht, hx⟩ ⟨t', ht', hy⟩
  exact key _ e.nodup (fun _ q => q)

theorem Aligned.moved {h h' : Heap} {us ls : List Ref} (d : Time) (al : Aligned h us ls)
    (hu : ∀ x ∈ us, h'.start x = h.start x + d ∧ h'.stop x = h.stop x + d)
    (hl : ∀ x ∈ ls, h'.start x = h.start x + d ∧ h'.stop x = h.stop x + d) : Aligned h' us ls := by
  have hin : ∀ u ∈ us, ∀ x ∈ ls, (Inside h' u x ↔ Inside h u x) := by
    intro u hum x hx
    unfold Inside
    rw [(hu u hum).1, (hu u hum).2, (hl x hx).1, (hl x hx).2]
    constructor <;> (intro q; constructor <;> grind)
  refine ⟨?_, ?_, ?_, ?_⟩
  · refine al.upperDisjoint.imp_of_mem ?_
    intro x y hx hy q
    rw [(hu x hx).2, (hu y hy).1]; grind
  · refine al.lowerDisjoint.imp_of_mem ?_
    intro x y hx hy q
    rw [(hl x hx).2, (hl y hy).1]; grind
  · intro x hx
    obtain ⟨u, hum, q⟩ := al.covered x hx
    exact ⟨u, hum, (hin u hum x hx).mpr q⟩
  · intro u hum
    have : ls.filter (Inside h' u ·) = ls.filter (Inside h u ·) := by
      apply List.filter_congr
      intro x hx
      simp only [hin u hum x hx]
    rw [this, (hu u hum).1, (hu u hum).2]
    exact (al.tiled u hum).moved d (fun x hx => hl x (List.mem_filter.mp hx).1)

/-- shifting keeps a textgrid editable -/
theorem EditableFor.shift {h : Heap} {a : ARef} (e : EditableFor R h (h.agroups a)) (d : Time) :
    ∃ h', atgShift a d h = .ok () h' ∧ h'.agroups = h.agroups ∧ EditableFor R h' (h'.agroups a) ∧
      bookOf h' a = (bookOf h a).shift d := by
  refine ⟨_, atgShift_ok a d h e.entries_nodup, rfl, ?_, ?_⟩
  · have s := shiftOn_shifted (atgEntries h a) d h
    have mv : ∀ g ∈ h.agroups a, ∀ t ∈ h.gtiers g, ∀ x ∈ (h.tseq t).vals,
        (shiftOn (atgEntries h a) d h).start x = h.start x + d ∧ (shiftOn (atgEntries h a) d h).stop x = h.stop x + d :=
      fun g hg t ht x hx => s.moved x (mem_atgEntries.mpr ⟨g, hg, t, ht, hx⟩)
    have hS : ∀ v x, x ∈ (h.subs v).vals → (v ∈ atgEntries h a ↔ x ∈ atgEntries h a) := by
      intro v x hx
      rw [mem_atgEntries, mem_atgEntries]
      constructor
      · rintro ⟨g, hg, q⟩; exact ⟨g, hg, ((e.fit g hg).closed v x hx).mp q⟩
      · rintro ⟨g, hg, q⟩; exact ⟨g, hg, ((e.fit g hg).closed v x hx).mpr q⟩
    refine ⟨e.wfc, e.nodup, e.old, e.sep, ⟨e.tidy.down, e.tidy.up, e.tidy.nodup, ?_, e.tidy.cls, e.tidy.label⟩, e.alloc,
      e.allocUp, ?_, e.up, ?_, e.rows⟩
    · intro v x hx y hy sv
      apply e.tidy.distinct v x hx y hy
      unfold SameValue at sv ⊢
      have h1 := hS v x hx
      have h2 := hS v y hy
      obtain ⟨p, q, w, z⟩ := sv
      refine ⟨p, ?_, ?_, z⟩
      · by_cases hv : v ∈ atgEntries h a
        · have a := (s.moved x (h1.mp hv)).1
          have b := (s.moved y (h2.mp hv)).1
          grind
        · have a := (s.kept x (fun e => hv (h1.mpr e))).1
          have b := (s.kept y (fun e => hv (h2.mpr e))).1
          grind
      · by_cases hv : v ∈ atgEntries h a
        · have a := (s.moved x (h1.mp hv)).2
          have b := (s.moved y (h2.mp hv)).2
          grind
        · have a := (s.kept x (fun e => hv (h1.mpr e))).2
          have b := (s.kept y (fun e => hv (h2.mpr e))).2
          grind
    · intro g hg
      have f := e.fit g hg
      refine ⟨f.once, f.cls, f.label, ?_, ?_, ?_, f.closed, f.old⟩
      · intro t ht
        refine (f.disjoint t ht).imp_of_mem ?_
        intro x y hx hy q
        have a := (mv g hg t ht x hx).2
        have b := (mv g hg t ht y hy).1
        grind
      · intro t ht x hx
        have a := mv g hg t ht x hx
        have b := f.positive t ht x hx
        grind
      · intro i t t' q1 q2
        exact (f.aligned i t t' q1 q2).moved d (mv g hg t (List.mem_of_getElem? q1)) (mv g hg t' (List.mem_of_getElem? q2))
    · intro g hg
      have r := e.rel g hg
      refine ⟨?_, ?_, r.sup, r.covered, r.top, r.contains⟩
      · intro i t t' q1 q2 u hu
        refine ⟨?_, (r.subs i t t' q1 q2 u hu).2⟩
        refine (r.subs i t t' q1 q2 u hu).1.trans ?_
        apply List.filter_congr
        intro x hx
        have m1 := mv g hg t (List.mem_of_getElem? q1) u hu
        have m2 := mv g hg t' (List.mem_of_getElem? q2) x hx
        have : Inside (shiftOn (atgEntries h a) d h) u x ↔ Inside h u x := by
          unfold Inside
          rw [m1.1, m1.2, m2.1, m2.2]
          constructor <;> (intro q; constructor <;> grind)
        simp only [this]
      · intro i t t' q1 q2 u hu
        have l := r.linked i t t' q1 q2 u hu
        exact ⟨l.next, l.first, l.last⟩
  · unfold bookOf Book.shift
    rw [List.map_map]
    apply List.map_congr_left
    intro g hg
    show pageOf _ g = (pageOf h g).map _
    unfold pageOf
    rw [List.map_map]
    apply List.map_congr_left
    intro t ht
    show (_, _) = (_, _)
    congr 1
    unfold rowsOf
    rw [List.map_map]
    apply List.map_congr_left
    intro x hx
    obtain ⟨q1, q2⟩ := (shiftOn_shifted (atgEntries h a) d h).moved x (mem_atgEntries.mpr ⟨g, hg, t, ht, hx⟩)
    show (_, _, _) = (_, _, _)
    rw [q1, q2]
    rfl

end ATG
