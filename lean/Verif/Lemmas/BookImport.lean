import Verif.Lemmas.BookInterleave
import Verif.Lemmas.BookPop
import Verif.Props.TgImport
/-!
# Textgrids that have just been made can be edited
-/
namespace ATG

/-- a class above `Top` is not one of `Bottom` -/
theorem not_top_bottom {ct : ClassTab} (w : WFC ct) : ∀ (n : Nat) (c : CRef), c ≤ n → c < ct.next →
    ct.isSub c cTop = true → ct.isSub c cBottom = false := by
  intro n
  induction n with
  | zero =>
    intro c hc hl h
    have : c = 0 := Nat.le_zero.mp hc
    subst this
    rw [isSub_root _ w.p0]
    rfl
  | succ n ih =>
    intro c hc hl h
    cases hp : ct.parent c with
    | none =>
      rw [isSub_root _ hp] at h ⊢
      have : c = cTop := by simpa using h
      rw [this]; rfl
    | some p =>
      have hlt := w.down c p hl hp
      have hpl : p < ct.next := Nat.lt_trans hlt hl
      have hpn : p ≤ n := Nat.le_of_lt_succ (Nat.lt_of_lt_of_le hlt hc)
      rw [isSub_parent w _ hl hp] at h ⊢
      rcases Bool.or_eq_true_iff.mp h with q | q
      · have : c = cTop := by simpa using q
        subst this
        have : p = 0 := by
          have := w.p1
          rw [show ct.parent cTop = ct.parent 1 from rfl, this] at hp
          exact (Option.some.inj hp).symm
        subst this
        rw [isSub_root _ w.p0]
        rfl
      · rw [ih p hpn hpl q, Bool.or_false]
        by_cases hb : c = cBottom
        · subst hb
          have : p = 0 := by
            have := w.p2
            rw [show ct.parent cBottom = ct.parent 2 from rfl, this] at hp
            exact (Option.some.inj hp).symm
          subst this
          rw [isSub_root _ w.p0] at q
          exact absurd q (by decide)
        · simpa using hb

/-- complete hierarchies whose links are set on the classes themselves -/
theorem IsHierarchy.row {ct : ClassTab} {l : List CRef} (hl : IsHierarchy ct l) (w : WFC ct) (o : OwnRow ct l)
    (plain : ∀ c ∈ l, PlainName (ct.name c)) : ClassRow ct l := by
  refine ⟨⟨hl.nodup, hl.links, ?_, ?_, ?_⟩, ?_, fun c hc => (hl.mem c hc).1, ?_, plain, ?_, ?_⟩
  · intro i c c' h1 h2
    exact ⟨(hl.mem c (List.mem_of_getElem? h1)).2.2.1, (hl.mem c' (List.mem_of_getElem? h2)).2.2.2⟩
  · intro c hc
    obtain ⟨p, h1, h2⟩ := hl.top c (by rw [List.head?_eq_getElem?]; exact hc)
    exact ⟨p, h1, Or.inl h2⟩
  · intro c hc
    obtain ⟨p, h1, h2⟩ := hl.bottom c (by rw [List.getLast?_eq_getElem?]; exact hc)
    exact ⟨p, h1, Or.inl h2⟩
  · intro c hc
    obtain ⟨a, ha⟩ := o.sub c hc
    obtain ⟨b, hb⟩ := o.sup c hc
    exact ⟨⟨a, b, ha, hb⟩, (hl.mem c hc).2.2⟩
  · intro c hc
    obtain ⟨h1, h2, -⟩ := hl.mem c hc
    exact isSub_trans w (interval_hier w) _ _ (Nat.le_refl _) h1 h2
  · intro c hc
    have hm := List.mem_of_head? hc
    obtain ⟨p, hp⟩ := o.sup c hm
    obtain ⟨p', h1, h2⟩ := hl.top c hc
    rw [sup_own hp, Option.some.injEq] at h1
    subst h1
    have hlt := w.supLt c p (hl.mem c hm).1 hp
    exact ⟨p, hp, h2, not_top_bottom w _ _ (Nat.le_refl _) hlt h2,
      isSub_trans w (top_hier w) _ _ (Nat.le_refl _) hlt h2, o.top c p hc hp⟩
  · intro c hc
    have hm := List.mem_of_getLast? hc
    obtain ⟨p, hp⟩ := o.sub c hm
    obtain ⟨p', h1, h2⟩ := hl.bottom c hc
    rw [sub_own hp, Option.some.injEq] at h1
    subst h1
    have hlt := w.subLt c p (hl.mem c hm).1 hp
    refine ⟨p, hp, ⟨?_, isSub_trans w (bottom_hier w) _ _ (Nat.le_refl _) hlt h2, o.bottom c p hc hp⟩, ?_⟩
    · cases q : ct.isSub p cTop with
      | false => rfl
      | true => rw [not_top_bottom w _ _ (Nat.le_refl _) hlt q] at h2; cases h2
    · intro q
      rw [(hl.mem p q).2.2.2] at h2
      cases h2

/-- the row of the classes without the lowest ones -/
theorem ClassRow.upper {ct : ClassTab} {cs low : List CRef} (r : ClassRow ct (cs ++ low)) (hne : cs ≠ []) (tl : ClassLinks ct cs) :
    ClassRow ct cs := by
  have hin : ∀ c ∈ cs, c ∈ cs ++ low := fun c hc => List.mem_append_left _ hc
  refine ⟨tl, fun c hc => r.own c (hin c hc), fun c hc => r.lt c (hin c hc), fun c hc => r.part c (hin c hc),
    fun c hc => r.plain c (hin c hc), ?_, ?_⟩
  · intro c hc
    exact r.top c (by rw [List.head?_append, hc]; rfl)
  · intro c hc
    cases low with
    | nil => rw [List.append_nil] at r; exact r.bottom c hc
    | cons y ys =>
      have hl : 0 < cs.length := List.length_pos_iff.mpr hne
      rw [List.getLast?_eq_getElem?] at hc
      have hm := List.mem_of_getElem? hc
      obtain ⟨⟨a, b, oa, -⟩, -⟩ := r.own c (hin c hm)
      have hy : y ∈ cs ++ y :: ys := by simp
      have := (r.links.down (cs.length - 1) c y (by rw [List.getElem?_append_left (by omega)]; exact hc)
        (by rw [List.getElem?_append_right (by omega), show cs.length - 1 + 1 - cs.length = 0 by omega]; rfl)).1
      rw [sub_own oa, Option.some.injEq] at this
      subst this
      refine ⟨a, oa, ⟨(r.own a hy).2.1, r.part a hy, (r.plain a hy).1⟩, fun q => ?_⟩
      have nd := r.links.distinct
      rw [List.nodup_append] at nd
      exact nd.2.2 a q a (by simp) rfl

theorem TopPart.classLinks {ct : ClassTab} {cs : List CRef} (tp : TopPart ct cs) : ClassLinks ct cs := by
  refine ⟨tp.nodup, fun i c c' h1 h2 => tp.links h1 h2, ?_, ?_, ?_⟩
  · intro i c c' h1 h2
    exact ⟨(tp.mem (List.mem_of_getElem? h1)).2.2.1, (tp.mem (List.mem_of_getElem? h2)).2.2.2⟩
  · intro c hc
    obtain ⟨p, h1, h2⟩ := tp.top (by rw [List.head?_eq_getElem?]; exact hc)
    exact ⟨p, h1, Or.inl h2⟩
  · intro c hc
    exact tp.next (by rw [List.getLast?_eq_getElem?]; exact hc)

theorem OwnClasses.rows {h : Heap} {gs : List GRef} (o : OwnClasses h gs) :
    ClassRows h.ct (gs.map fun g => (h.gtiers g).map h.tcls) := by
  obtain ⟨full, gc, tp, ow⟩ := o.good
  have same := o.same
  generalize (gs.map fun g => (h.gtiers g).map h.tcls) = css at tp same ⊢
  have hf : ∀ cs ∈ css, ∀ c ∈ cs, c ∈ full.flatten := by
    intro cs hcs c hc
    obtain ⟨L, m, -, hp⟩ := tp.mem hcs
    exact List.mem_flatten.mpr ⟨L, m, hp.subset hc⟩
  refine ⟨?_, ?_, ?_, ?_⟩
  · intro cs hcs
    obtain ⟨L, m, hne, low, rfl⟩ := tp.mem hcs
    exact ((gc.hier _ m).row o.wfc (ow _ m) fun c hc => gc.plain c (List.mem_flatten.mpr ⟨_, m, hc⟩)).upper hne
      (TopPart.classLinks ⟨hne, low, gc.hier _ m⟩)
  · intro cs hcs
    have nd := (tp.top gc.hier cs hcs).nodup
    rw [List.Nodup, List.pairwise_map]
    refine List.Pairwise.imp_of_mem ?_ nd
    intro c d hc hd hne e
    exact hne (gc.names c (hf _ hcs c hc) d (hf _ hcs d hd) e)
  · intro cs hcs cs' hcs' c hc c' hc' e
    have := gc.names c (hf _ hcs c hc) c' (hf _ hcs' c' hc') e
    subst this
    exact same cs hcs cs' hcs' c hc hc'
  · intro cs hcs c hl p hp cs' hcs' hm
    obtain ⟨L, m, hne, low, rfl⟩ := tp.mem hcs
    obtain ⟨L', m', hne', hp'⟩ := tp.mem hcs'
    have hsub := sub_own hp
    cases low with
    | nil =>
      obtain ⟨b, h1, h2⟩ := (gc.hier _ m).bottom c (by rw [List.append_nil]; exact hl)
      rw [hsub, Option.some.injEq] at h1
      subst h1
      rw [((gc.hier _ m').mem p (hp'.subset hm)).2.2.2] at h2
      cases h2
    | cons y ys =>
      have hpos : 0 < cs.length := List.length_pos_iff.mpr hne
      rw [List.getLast?_eq_getElem?] at hl
      have := ((gc.hier _ m).links (cs.length - 1) c y (by rw [List.getElem?_append_left (by omega)]; exact hl)
        (by rw [List.getElem?_append_right (by omega), show cs.length - 1 + 1 - cs.length = 0 by omega]; rfl)).1
      rw [hsub, Option.some.injEq] at this
      subst this
      have hu := (gc.hier _ m).unique (gc.hier _ m') (c := p) (by simp) (hp'.subset hm)
      obtain ⟨low', e⟩ := hp'
      have nd := (gc.hier _ m).nodup
      rw [List.nodup_append] at nd
      have hcs : cs = cs' := by
        cases cs with
        | nil => exact absurd rfl hne
        | cons a as =>
          cases cs' with
          | nil => exact absurd rfl hne'
          | cons a' as' =>
            rw [← hu, List.cons_append, List.cons_append, List.cons.injEq] at e
            exact same _ hcs _ hcs' a (by simp) (by simp [e.1])
      exact nd.2.2 p (hcs ▸ hm) p (by simp) rfl

theorem GapGrid.editableFor {R : ClassTab → List (List CRef) → Prop} {h : Heap} {gs : List GRef} (gr : GapGrid h gs) (w : WFC h.ct)
    (old : ∀ g ∈ gs, g < h.nG ∧ ∀ t ∈ h.gtiers g, t < h.nT) (rows : R h.ct (gs.map fun g => (h.gtiers g).map h.tcls)) :
    EditableFor R h gs := by
  have hold : ∀ g ∈ gs, ∀ t ∈ h.gtiers g, t < h.nT ∧ ∀ x ∈ (h.tseq t).vals, x < h.nE := fun g hg t ht =>
    ⟨(old g hg).2 t ht, ((gr.groups g hg).tiers t ht).old⟩
  refine ⟨w, gr.nodup, fun g hg => ⟨(old g hg).1, hold g hg⟩, gr.separate, gr.tidy.on _, gr.alloc,
    gr.tidy.allocatedUp gr.alloc, ?_, ?_, fun g hg => (gr.groups g hg).related, rows⟩
  · intro g hg
    have gg := gr.groups g hg
    refine ⟨gg.aligned.once, gg.aligned.cls, gg.aligned.label, ?_, ?_, gg.aligned.aligned, ?_, hold g hg⟩
    · intro t ht
      have l := (gg.tiers t ht).laid.2
      rw [List.pairwise_map] at l
      exact l
    · intro t ht x hx
      exact (gg.tiers t ht).laid.1 (h.span x) (List.mem_map_of_mem hx)
    · intro v x hx
      exact gr.closed g hg v x ((gr.tidy.agree v x).mp hx)
  · intro g hg v x e hx
    exact (gr.closed g hg v x e).mpr hx

theorem GapGrid.editable {h : Heap} {gs : List GRef} (gr : GapGrid h gs) (o : OwnClasses h gs) : Editable h gs :=
  gr.editableFor o.wfc o.old o.rows

theorem TopOwn.rows {h : Heap} {gs : List GRef} (o : TopOwn h gs) : RowLinks h.ct (gs.map fun g => (h.gtiers g).map h.tcls) := by
  intro cs hcs
  obtain ⟨g, hg, rfl⟩ := List.mem_map.mp hcs
  exact (o.part g hg).classLinks

end ATG
