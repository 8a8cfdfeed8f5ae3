import Verif.Lemmas.BothWays
import Verif.Lemmas.Reload
import Verif.Lemmas.Filled
/-!
# Edits with both kinds of marks keep tiers without gaps
-/
namespace ATG

theorem Draft.unmark_pages (d : Draft) (i : Nat) : ∀ q ∈ d.unmark i, ∃ q' ∈ d, q.1 = q'.1 := by
  intro q hq
  unfold Draft.unmark at hq
  obtain ⟨j, hj⟩ := List.mem_iff_getElem?.mp hq
  rw [List.getElem?_modify] at hj
  obtain ⟨q', h1, h2⟩ := Option.map_eq_some_iff.mp hj
  refine ⟨q', List.mem_of_getElem? h1, ?_⟩
  subst h2
  split <;> rfl

theorem Draft.unmark_ne {d : Draft} (hne : d ≠ []) (i : Nat) : d.unmark i ≠ [] := by
  unfold Draft.unmark
  intro e
  have := congrArg List.length e
  rw [List.length_modify] at this
  exact hne (List.length_eq_zero_iff.mp this)

theorem Change.actBoth_spans {q q' : Draft × Draft} {lo hi : Time} (s : q.1.Spans lo hi) (hne : q.1 ≠ []) (e : Change)
    (h : e.actBoth q = some q') : (∃ lo' hi', q'.1.Spans lo' hi') ∧ q'.1 ≠ [] := by
  have usual : ((e.act q.1).bind fun d' => (e.act q.2).map fun b' => (d', b')) = some q' →
      (∃ lo' hi', q'.1.Spans lo' hi') ∧ q'.1 ≠ [] := fun h => e.act_spans s hne (actBoth_both h).1
  cases e with
  | edit e => exact usual h
  | touch e =>
    cases e with
    | relabel lab i j k => exact usual h
    | fuse J i j k =>
      match j, h, usual with
      | j + 1, h, usual => exact usual h
      | 0, h, _ =>
        obtain ⟨x, h1, h2⟩ := Option.bind_eq_some_iff.mp h
        obtain ⟨y, -, h4⟩ := Option.map_eq_some_iff.mp h2
        subst h4
        obtain ⟨z1, z2⟩ := s.onPage Page.fuse_spans h1
        exact ⟨⟨lo, hi, z1⟩, z2 hne⟩
    | fuseLeft J i j k =>
      match j, h, usual with
      | j + 1, h, usual => exact usual h
      | 0, h, _ =>
        obtain ⟨x, h1, h2⟩ := Option.bind_eq_some_iff.mp h
        obtain ⟨y, -, h4⟩ := Option.map_eq_some_iff.mp h2
        subst h4
        obtain ⟨z1, z2⟩ := s.onPage (fun p p' s h => by
          match k, h with
          | k + 1, h => exact Page.fuse_spans p p' s h) h1
        refine ⟨⟨lo, hi, ?_⟩, Draft.unmark_ne (z2 hne) i⟩
        intro q hq
        obtain ⟨q', hq', e⟩ := Draft.unmark_pages x i q hq
        rw [e]
        exact z1 q' hq'

theorem Change.actBothAll_spans : ∀ (es : List Change) {q q' : Draft × Draft} {lo hi : Time}, q.1.Spans lo hi → q.1 ≠ [] →
    Change.actBothAll es q = some q' → (∃ lo' hi', q'.1.Spans lo' hi') ∧ q'.1 ≠ []
  | [], _, _, lo, hi, s, hne, h => by cases h; exact ⟨⟨lo, hi, s⟩, hne⟩
  | e :: es, _, _, _, _, s, hne, h => by
    obtain ⟨d1, h1, h2⟩ := Option.bind_eq_some_iff.mp h
    obtain ⟨⟨_, _, s1⟩, hne1⟩ := e.actBoth_spans s hne h1
    exact Change.actBothAll_spans es s1 hne1 h2

/-- edits with both kinds of marks leave no group without tiers -/
theorem Change.actBoth_filled {q q' : Draft × Draft} (s : q.1.Filled) (nd : ∀ p ∈ q.1, (p.1.map (·.1)).Nodup) (e : Change)
    (h : e.actBoth q = some q') : q'.1.Filled := by
  have usual : ((e.act q.1).bind fun d' => (e.act q.2).map fun b' => (d', b')) = some q' → q'.1.Filled :=
    fun h => e.act_filled s nd (actBoth_both h).1
  cases e with
  | edit e => exact usual h
  | touch e =>
    cases e with
    | relabel lab i j k => exact usual h
    | fuse J i j k =>
      match j, h, usual with
      | j + 1, h, usual => exact usual h
      | 0, h, _ =>
        obtain ⟨x, h1, h2⟩ := Option.bind_eq_some_iff.mp h
        obtain ⟨y, -, h4⟩ := Option.map_eq_some_iff.mp h2
        subst h4
        exact s.onPage Page.fuse_length h1
    | fuseLeft J i j k =>
      match j, h, usual with
      | j + 1, h, usual => exact usual h
      | 0, h, _ =>
        obtain ⟨x, h1, h2⟩ := Option.bind_eq_some_iff.mp h
        obtain ⟨y, -, h4⟩ := Option.map_eq_some_iff.mp h2
        subst h4
        have z := s.onPage (fun p p' h => by
          match k, h with
          | k + 1, h => exact Page.fuse_length p p' h) h1
        intro q hq
        obtain ⟨q', hq', e⟩ := Draft.unmark_pages x i q hq
        rw [e]
        exact z q' hq'

end ATG
