import Verif.Lemmas.NewTier
import Verif.Spec.Import
/-!
# The tiers of one group
-/
namespace ATG

/-- the heap after the interval tiers `l` have been made -/
structure Built (h h' : Heap) (l : List (PTier × CRef)) : Prop where
  frame : h' = { h with nE := h'.nE, cls := h'.cls, start := h'.start, stop := h'.stop, label := h'.label,
                        fol := h'.fol, prev := h'.prev, subs := h'.subs, sup := h'.sup, intier := h'.intier,
                        within := h'.within, cont := h'.cont, nT := h.nT + l.length, tseq := h'.tseq,
                        tname := h'.tname, tcls := h'.tcls, tsup := h'.tsup, tsub := h'.tsub,
                        twithin := h'.twithin, tcont := h'.tcont }
  nE : h.nE ≤ h'.nE
  flat : ((List.range' h.nT l.length).map fun t => (h'.tseq t).vals).flatten = List.range' h.nE (h'.nE - h.nE)
  tier : ∀ (i : Nat) name raw c, l[i]? = some ((name, raw), c) → h'.tname (h.nT + i) = name ∧ h'.tcls (h.nT + i) = c ∧
    h'.tsup (h.nT + i) = h.ct.sup c ∧ h'.tsub (h.nT + i) = h.ct.sub c ∧ (h'.tseq (h.nT + i)).ecls = some c ∧
    (h'.tseq (h.nT + i)).vals.map (fun r => (h'.start r, h'.stop r, h'.label r)) = raw ∧
    ∀ x ∈ (h'.tseq (h.nT + i)).vals, h'.cls x = c
  fresh : ∀ r, h.nE ≤ r → r < h'.nE → (h'.subs r).vals = [] ∧ h'.sup r = none
  old : ∀ r, r < h.nE ∨ h'.nE ≤ r → h'.cls r = h.cls r ∧ h'.start r = h.start r ∧ h'.stop r = h.stop r ∧
    h'.label r = h.label r ∧ h'.fol r = h.fol r ∧ h'.prev r = h.prev r ∧ h'.subs r = h.subs r ∧
    h'.sup r = h.sup r ∧ h'.within r = h.within r ∧ h'.cont r = h.cont r
  other : ∀ u, u < h.nT → h'.tseq u = h.tseq u ∧ h'.tname u = h.tname u ∧ h'.tcls u = h.tcls u ∧
    h'.tsup u = h.tsup u ∧ h'.tsub u = h.tsub u ∧ h'.twithin u = h.twithin u
  intier : ∀ r, r < h.nE → h'.intier r = h.intier r
  free : ∀ i, i < l.length → h'.twithin (h.nT + i) = none
  home : ∀ i, i < l.length → ∀ x ∈ (h'.tseq (h.nT + i)).vals, h'.intier x = some (h.nT + i)
  linked : ∀ i, i < l.length → DoublyLinked h' (h'.tseq (h.nT + i)).vals
  rooted : ∀ (i : Nat) q s, l[i]? = some q → h.ct.sup q.2 = some s → h.ct.isSub s cTop = true →
    ∀ x ∈ (h'.tseq (h.nT + i)).vals, h'.within x = some (.tier (h.nT + i))

theorem buildTiers_run : ∀ (l : List (PTier × CRef)) (h : Heap),
    (∀ q ∈ l, h.ct.isSub q.2 cPoint = false ∧ (∃ s, h.ct.sup q.2 = some s) ∧ q.1.2 ≠ [] ∧
      (∀ p ∈ q.1.2, p.2.2 ≠ "#") ∧ (q.1.2.Pairwise fun a b => a.1 ≤ b.1) ∧ ∀ p ∈ q.1.2, p.1 < p.2.1) →
    ∃ h', buildTiers l h = .ok (List.range' h.nT l.length, []) h' ∧ Built h h' l
  | [], h, _ => by
    refine ⟨h, rfl, rfl, Nat.le_refl _, by simp, ?_, ?_, fun r _ => ⟨rfl, rfl, rfl, rfl, rfl, rfl, rfl, rfl, rfl, rfl⟩,
      fun u _ => ⟨rfl, rfl, rfl, rfl, rfl, rfl⟩, fun _ _ => rfl, fun i hi => absurd hi (Nat.not_lt_zero i),
      fun i hi => absurd hi (Nat.not_lt_zero i), fun i hi => absurd hi (Nat.not_lt_zero i),
      fun i q s hi => by simp at hi⟩
    · intro i name raw c hi; simp at hi
    · intro r h1 h2; exact absurd h2 (Nat.not_lt.mpr h1)
  | ((name, raw), c) :: l, h, hl => by
    obtain ⟨hp, ⟨s, hs⟩, hne, hlab, hsort, hlen⟩ := hl ((name, raw), c) (by simp)
    obtain ⟨h1, e1, n⟩ := newTierFrom_run raw c s name h hp hs hne hlab hsort
    have hct : h1.ct = h.ct := by rw [n.frame]
    have hnT : h1.nT = h.nT + 1 := by rw [n.frame]
    obtain ⟨h2, e2, b⟩ := buildTiers_run l h1 (by rw [hct]; exact fun q hq => hl q (by simp [hq]))
    have hrng : ∀ r, r ∈ List.range' h.nE raw.length ↔ h.nE ≤ r ∧ r < h1.nE := by
      intro r; rw [List.mem_range'_1, n.nE]
    have hlt : h.nT < h1.nT := by rw [hnT]; exact Nat.lt_succ_self _
    have hseq : h2.tseq h.nT = ⟨List.range' h.nE raw.length, some c⟩ := (b.other h.nT hlt).1.trans n.tseq
    have hle : h.nE ≤ h1.nE := by rw [n.nE]; exact Nat.le_add_right _ _
    refine ⟨h2, ?_, ?_, Nat.le_trans hle b.nE, ?_, ?_, ?_, ?_, ?_, ?_, ?_, ?_, ?_, ?_⟩
    · unfold buildTiers
      mstep M.get_apply h
      rw [if_neg (by rw [hp]; simp), if_pos (by
        unfold ofKind
        apply List.all_eq_true.mpr
        intro p hq
        have : p.1 ≠ p.2.1 := fun q => by have := hlen p hq; rw [q] at this; exact absurd this (Rat.lt_irrefl)
        simp [this])]
      mstep e1
      mstep e2
      rw [hnT]
      rfl
    · rw [b.frame, n.frame]
      simp only [List.length_cons, Nat.add_assoc, Nat.add_comm 1]
    · rw [List.length_cons, List.range'_succ, List.map_cons, List.flatten_cons, hseq, ← hnT, b.flat]
      show List.range' h.nE raw.length ++ List.range' h1.nE (h2.nE - h1.nE) = List.range' h.nE (h2.nE - h.nE)
      rw [n.nE, show h.nE + raw.length = h.nE + 1 * raw.length by rw [Nat.one_mul], List.range'_append]
      congr 1
      have := b.nE; have := n.nE
      romega
    · intro i name' raw' c' hi
      match i with
      | 0 =>
        simp only [List.getElem?_cons_zero, Option.some.injEq, Prod.mk.injEq] at hi
        obtain ⟨⟨rfl, rfl⟩, rfl⟩ := hi
        obtain ⟨-, o2, o3, o4, o5, -⟩ := b.other h.nT hlt
        have hold : ∀ r ∈ List.range' h.nE raw.length, r < h1.nE := fun r hr => ((hrng r).mp hr).2
        refine ⟨o2.trans n.tname, o3.trans n.tcls, (o4.trans n.tsup).trans hs.symm, o5.trans n.tsub, ?_, ?_, ?_⟩
        · show (h2.tseq h.nT).ecls = _
          rw [hseq]
        · show (h2.tseq h.nT).vals.map _ = _
          rw [hseq]
          refine Eq.trans (List.map_congr_left fun r hr => ?_) n.values
          obtain ⟨-, q1, q2, q3, -⟩ := b.old r (Or.inl (hold r hr))
          rw [q1, q2, q3]
        · show ∀ x ∈ (h2.tseq h.nT).vals, _
          rw [hseq]
          intro x hx
          rw [(b.old x (Or.inl (hold x hx))).1]
          exact (n.fresh x hx).1
      | i + 1 =>
        have := b.tier i name' raw' c' (by simpa using hi)
        rw [hnT, hct, show h.nT + 1 + i = h.nT + (i + 1) by rw [Nat.add_assoc, Nat.add_comm 1]] at this
        exact this
    · intro r q1 q2
      by_cases hr : r < h1.nE
      · obtain ⟨-, -, -, -, -, -, o7, o8, -⟩ := b.old r (Or.inl hr)
        rw [o7, o8]
        exact (n.fresh r ((hrng r).mpr ⟨q1, hr⟩)).2
      · exact b.fresh r (Nat.le_of_not_lt hr) q2
    · intro r hr
      have hr1 : r ∉ List.range' h.nE raw.length := by
        rw [hrng]
        have := b.nE
        romega
      have hr2 : r < h1.nE ∨ h2.nE ≤ r := by
        have := b.nE
        romega
      obtain ⟨a1, a2, a3, a4, a5, a6, a7, a8, a9, a10⟩ := n.old r hr1
      obtain ⟨b1, b2, b3, b4, b5, b6, b7, b8, b9, b10⟩ := b.old r hr2
      exact ⟨b1.trans a1, b2.trans a2, b3.trans a3, b4.trans a4, b5.trans a5, b6.trans a6, b7.trans a7, b8.trans a8,
        b9.trans a9, b10.trans a10⟩
    · intro u hu
      obtain ⟨a1, a2, a3, a4, a5, a6⟩ := n.other u (Nat.ne_of_lt hu)
      obtain ⟨b1, b2, b3, b4, b5, b6⟩ := b.other u (Nat.lt_trans hu hlt)
      exact ⟨b1.trans a1, b2.trans a2, b3.trans a3, b4.trans a4, b5.trans a5, b6.trans a6⟩
    · intro r hr
      rw [b.intier r (Nat.lt_of_lt_of_le hr hle), n.intier r]
      rw [hrng]
      exact fun q => absurd hr (Nat.not_lt.mpr q.1)
    · intro i hi
      match i with
      | 0 => exact (b.other h.nT hlt).2.2.2.2.2.trans n.twithin
      | i + 1 =>
        have := b.free i (by simpa using hi)
        rw [hnT, show h.nT + 1 + i = h.nT + (i + 1) by rw [Nat.add_assoc, Nat.add_comm 1]] at this
        exact this
    · intro i hi
      match i with
      | 0 =>
        show ∀ x ∈ (h2.tseq h.nT).vals, h2.intier x = some h.nT
        rw [hseq]
        intro x hx
        rw [b.intier x ((hrng x).mp hx).2]
        exact n.home x hx
      | i + 1 =>
        have := b.home i (by simpa using hi)
        rw [hnT, show h.nT + 1 + i = h.nT + (i + 1) by rw [Nat.add_assoc, Nat.add_comm 1]] at this
        exact this
    · intro i hi
      match i with
      | 0 =>
        show DoublyLinked h2 (h2.tseq h.nT).vals
        rw [hseq]
        have ho := fun x (hx : x ∈ List.range' h.nE raw.length) => b.old x (Or.inl ((hrng x).mp hx).2)
        exact n.linked.congr (fun x hx => (ho x hx).2.2.2.2.1) fun x hx => (ho x hx).2.2.2.2.2.1
      | i + 1 =>
        have := b.linked i (by simpa using hi)
        rw [hnT, show h.nT + 1 + i = h.nT + (i + 1) by rw [Nat.add_assoc, Nat.add_comm 1]] at this
        exact this
    · intro i q s' hi hs' ht
      match i with
      | 0 =>
        simp only [List.getElem?_cons_zero, Option.some.injEq] at hi
        subst hi
        show ∀ x ∈ (h2.tseq h.nT).vals, h2.within x = some (.tier h.nT)
        rw [hseq]
        intro x hx
        rw [(b.old x (Or.inl ((hrng x).mp hx).2)).2.2.2.2.2.2.2.2.1]
        have : s' = s := Option.some.inj (hs'.symm.trans hs)
        subst this
        exact n.rooted ht x hx
      | i + 1 =>
        have := b.rooted i q s' (by simpa using hi) (by rw [hct]; exact hs') (by rw [hct]; exact ht)
        rw [hnT, show h.nT + 1 + i = h.nT + (i + 1) by rw [Nat.add_assoc, Nat.add_comm 1]] at this
        exact this

/-- old tiers and their entries after new tiers -/
theorem Built.unmoved {h h' : Heap} {l : List (PTier × CRef)} (b : Built h h' l) {us : List TRef} (hu : ∀ t ∈ us, t < h.nT)
    (ho : ∀ t ∈ us, ∀ x ∈ (h.tseq t).vals, x < h.nE) : Unmoved h h' us := by
  refine ⟨fun t ht => (b.other t (hu t ht)).1, fun t ht => (b.other t (hu t ht)).2.2.1,
    fun t ht => (b.other t (hu t ht)).2.1, ?_, ?_⟩
  · intro t ht x hxm
    obtain ⟨a1, a2, a3, a4, -⟩ := b.old x (Or.inl (ho t ht x hxm))
    exact ⟨a2, a3, a4, a1⟩
  · intro t ht x hxm
    obtain ⟨a1, a2, a3, a4, a5, a6, a7, a8, a9, a10⟩ := b.old x (Or.inl (ho t ht x hxm))
    exact ⟨by rw [a7], a8, a9, a10, a5, a6⟩

theorem Built.tidy {h h' : Heap} {l : List (PTier × CRef)} (b : Built h h' l) (td : Tidy h) (ac : Allocated h) :
    Tidy h' ∧ Allocated h' := by
  have hsub : ∀ v x, x ∈ (h'.subs v).vals → x ∈ (h.subs v).vals ∧ v < h.nE ∧ x < h.nE := by
    intro v x hm
    by_cases hv : h.nE ≤ v ∧ v < h'.nE
    · rw [(b.fresh v hv.1 hv.2).1] at hm; cases hm
    · have hv : v < h.nE ∨ h'.nE ≤ v := by romega
      rw [(b.old v hv).2.2.2.2.2.2.1] at hm
      exact ⟨hm, ac v x hm⟩
  have hsub' : ∀ v, ∀ x ∈ (h'.subs v).vals, x ∈ (h.subs v).vals ∧ h'.start x = h.start x ∧ h'.stop x = h.stop x ∧
      h'.label x = h.label x ∧ h'.cls x = h.cls x := by
    intro v x hm
    obtain ⟨m, -, q⟩ := hsub v x hm
    obtain ⟨a1, a2, a3, a4, -⟩ := b.old x (Or.inl q)
    exact ⟨m, a2, a3, a4, a1⟩
  refine ⟨⟨?_, ?_, ?_, ?_, ?_⟩, ?_⟩
  · intro v x
    constructor
    · intro hm
      obtain ⟨m, -, q⟩ := hsub v x hm
      rw [(b.old x (Or.inl q)).2.2.2.2.2.2.2.1]
      exact (td.agree v x).mp m
    · intro hs
      by_cases hxr : h.nE ≤ x ∧ x < h'.nE
      · rw [(b.fresh x hxr.1 hxr.2).2] at hs; cases hs
      · rw [(b.old x (by romega)).2.2.2.2.2.2.2.1] at hs
        have m := (td.agree v x).mpr hs
        rw [(b.old v (Or.inl (ac v x m).1)).2.2.2.2.2.2.1]
        exact m
  · intro v
    by_cases hv : h.nE ≤ v ∧ v < h'.nE
    · rw [(b.fresh v hv.1 hv.2).1]; exact List.nodup_nil
    · rw [(b.old v (by romega)).2.2.2.2.2.2.1]; exact td.nodup v
  · intro v x hxm y hym sv
    obtain ⟨m1, a1, a2, a3, a4⟩ := hsub' v x hxm
    obtain ⟨m2, b1, b2, b3, b4⟩ := hsub' v y hym
    refine td.distinct v x m1 y m2 ?_
    unfold SameValue Heap.isPoint at sv ⊢
    rw [a1, a2, a3, a4, b1, b2, b3, b4, show h'.ct = h.ct by rw [b.frame]] at sv
    exact sv
  · intro v x hxm y hym
    obtain ⟨m1, a1, a2, a3, a4⟩ := hsub' v x hxm
    obtain ⟨m2, b1, b2, b3, b4⟩ := hsub' v y hym
    rw [a4, b4]; exact td.cls v x m1 y m2
  · intro v x hxm
    obtain ⟨m1, a1, a2, a3, a4⟩ := hsub' v x hxm
    rw [a3]; exact td.label v x m1
  · intro v x hm
    obtain ⟨-, l1, l2⟩ := hsub v x hm
    exact ⟨Nat.lt_of_lt_of_le l1 b.nE, Nat.lt_of_lt_of_le l2 b.nE⟩

theorem Built.grid {h h' : Heap} {l : List (PTier × CRef)} (b : Built h h' l) {gs : List GRef} (gr : GapGrid h gs)
    (hlt : ∀ g ∈ gs, ∀ t ∈ h.gtiers g, t < h.nT) : GapGrid h' gs := by
  have hgt : h'.gtiers = h.gtiers := by rw [b.frame]
  have hct : h'.ct = h.ct := by rw [b.frame]
  obtain ⟨td, ac⟩ := b.tidy gr.tidy gr.alloc
  have hum : ∀ g ∈ gs, Unmoved h h' (h.gtiers g) := fun g hg =>
    b.unmoved (hlt g hg) fun t ht => ((gr.groups g hg).tiers t ht).old
  have hon : ∀ g ∈ gs, ∀ x, OnTiers h' (h.gtiers g) x ↔ OnTiers h (h.gtiers g) x := by
    intro g hg x
    constructor
    · rintro ⟨t, ht, hx⟩
      rw [(hum g hg).tseq t ht] at hx
      exact ⟨t, ht, hx⟩
    · rintro ⟨t, ht, hx⟩
      exact ⟨t, ht, by rw [(hum g hg).tseq t ht]; exact hx⟩
  refine ⟨gr.nodup, by rw [hgt]; exact gr.tiers, ?_, ?_, ?_, ?_, td, ac⟩
  · intro k hk k2 hk2 hne t ht x hx t' ht' hx'
    rw [hgt] at ht ht'
    rw [(hum k hk).tseq t ht] at hx
    rw [(hum k2 hk2).tseq t' ht'] at hx'
    exact gr.separate k hk k2 hk2 hne t ht x hx t' ht' hx'
  · intro g hg
    rw [hgt]
    refine (gr.groups g hg).kept (hum g hg) hct b.nE ?_ (by rw [b.frame]) (by rw [b.frame]) (by rw [b.frame])
    intro t ht
    obtain ⟨-, -, -, o4, o5, o6⟩ := b.other t (hlt g hg t ht)
    exact ⟨o4, o5, o6⟩
  · intro g hg t ht
    rw [hgt] at ht
    rw [hct, (hum g hg).tcls t ht]
    exact gr.interval g hg t ht
  · intro g hg v x hs
    rw [hgt, hon g hg, hon g hg]
    have hx : x ∈ (h'.subs v).vals := (td.agree v x).mpr hs
    have hx' : x ∈ (h.subs v).vals := by
      by_cases hv : h.nE ≤ v ∧ v < h'.nE
      · rw [(b.fresh v hv.1 hv.2).1] at hx; cases hx
      · rw [(b.old v (by romega)).2.2.2.2.2.2.1] at hx
        exact hx
    exact gr.closed g hg v x ((gr.tidy.agree v x).mp hx')

end ATG
