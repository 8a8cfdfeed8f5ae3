import Verif.Lemmas.AddTiers
/-!
# Adding groups
-/
namespace ATG

theorem filter_eq_nil_of {α} {p : α → Bool} {l : List α} (hh : ∀ x ∈ l, p x = false) : l.filter p = [] := by
  rw [List.filter_eq_nil_iff]
  intro x hx; rw [hh x hx]; simp

/-- aligned tiers one after the other are aligned -/
theorem Aligned.append {h : Heap} {us ls us' ls' : List Ref} (a : Aligned h us ls) (b : Aligned h us' ls')
    (hl : ∀ x ∈ ls, h.start x < h.stop x) (hl' : ∀ x ∈ ls', h.start x < h.stop x)
    (h1 : ∀ u ∈ us, ∀ v ∈ us', h.stop u ≤ h.start v) (h2 : ∀ x ∈ ls, ∀ y ∈ ls', h.stop x ≤ h.start y)
    (h3 : ∀ u ∈ us, ∀ y ∈ ls', h.stop u ≤ h.start y) (h4 : ∀ x ∈ ls, ∀ v ∈ us', h.stop x ≤ h.start v) :
    Aligned h (us ++ us') (ls ++ ls') := by
  constructor
  · exact List.pairwise_append.mpr ⟨a.upperDisjoint, b.upperDisjoint, h1⟩
  · exact List.pairwise_append.mpr ⟨a.lowerDisjoint, b.lowerDisjoint, h2⟩
  · intro x hx
    rcases List.mem_append.mp hx with hx | hx
    · obtain ⟨u, hu, hi⟩ := a.covered x hx
      exact ⟨u, List.mem_append_left _ hu, hi⟩
    · obtain ⟨u, hu, hi⟩ := b.covered x hx
      exact ⟨u, List.mem_append_right _ hu, hi⟩
  · intro u hu
    rw [List.filter_append]
    rcases List.mem_append.mp hu with hu | hu
    · rw [filter_eq_nil_of (l := ls'), List.append_nil]
      · exact a.tiled u hu
      · intro y hy
        have e1 := h3 u hu y hy
        have e2 := hl' y hy
        simp only [Inside]
        grind
    · rw [filter_eq_nil_of (l := ls), List.nil_append]
      · exact b.tiled u hu
      · intro y hy
        have e1 := h4 y hy u hu
        have e2 := hl y hy
        simp only [Inside]
        grind

theorem PlainTiers.addable {h : Heap} {ts us : List TRef} (p : PlainTiers h ts) (q : PlainTiers h us)
    (cs : Consecutive h ts us) (al : AlignedTiers h ts) (al' : AlignedTiers h us) (i : Nat) (t u : TRef)
    (ht : ts[i]? = some t) (hu : us[i]? = some u) : Addable h t u (h.tcls t) := by
  have mt := List.mem_of_getElem? ht
  have mu := List.mem_of_getElem? hu
  have hc := cs.tcls i t u ht hu
  have nodup : ∀ {ts : List TRef} {t : TRef}, AlignedTiers h ts → t ∈ ts → (h.tseq t).vals.Nodup :=
    fun a m => (List.pairwise_flatten.mp a.once).1 _ (List.mem_map.mpr ⟨_, m, rfl⟩)
  constructor
  · exact ⟨p.old t mt, q.old u mu⟩
  · exact ⟨rfl, hc⟩
  · exact p.interval t mt
  · exact p.sup t mt
  · exact p.ecls t mt
  · exact p.ne t mt
  · rintro x (hx | hx)
    · exact al.cls t mt x hx
    · rw [al'.cls u mu x hx, hc]
  · rintro x (hx | hx)
    · exact al.label t mt x hx
    · exact al'.label u mu x hx
  · exact ⟨nodup al mt, nodup al' mu⟩
  · refine (p.disjoint t mt).imp_of_mem ?_
    intro x y hx hy hxy
    have := p.dur t mt x hx
    grind

theorem PlainTiers.new {h : Heap} {ts us : List TRef} (p : PlainTiers h ts)
    (cs : Consecutive h ts us) (t u : TRef) (mt : t ∈ ts) (mu : u ∈ us) :
    newOf h (h.tseq t).vals (h.tseq u).vals = (h.tseq u).vals := by
  unfold newOf
  rw [List.filter_eq_self]
  intro x hx
  simp only [Bool.not_eq_eq_eq_not, Bool.not_true, slContains_false_iff]
  rintro (h1 | ⟨y, hy, -, e, -⟩)
  · exact cs.apart t mt x h1 u mu hx
  · have := cs.after t mt y hy u mu x hx
    have := p.dur t mt y hy
    grind

theorem PlainTiers.sum_sorted {h : Heap} {ts us : List TRef} (p : PlainTiers h ts) (q : PlainTiers h us)
    (cs : Consecutive h ts us) (t u : TRef) (mt : t ∈ ts) (mu : u ∈ us) :
    slSort h ((h.tseq t).vals ++ (h.tseq u).vals) = (h.tseq t).vals ++ (h.tseq u).vals := by
  apply slSort_of_sorted
  unfold SortedByStart
  rw [List.pairwise_append]
  refine ⟨?_, ?_, ?_⟩
  · refine (p.disjoint t mt).imp_of_mem ?_
    intro x y hx hy hxy
    have := p.dur t mt x hx
    grind
  · refine (q.disjoint u mu).imp_of_mem ?_
    intro x y hx hy hxy
    have := q.dur u mu x hx
    grind
  · intro x hx y hy
    have := cs.after t mt x hx u mu y hy
    have := p.dur t mt x hx
    grind

theorem Consecutive.classCheck {h : Heap} {g g' : GRef} (cs : Consecutive h (h.gtiers g) (h.gtiers g')) :
    classCheck h g g' = true := by
  unfold ATG.classCheck
  rw [Bool.and_eq_true, beq_iff_eq, beq_iff_eq]
  refine ⟨cs.length.symm, ?_⟩
  apply List.ext_getElem?
  intro i
  rw [List.getElem?_map, List.getElem?_map]
  by_cases hi : i < (h.gtiers g).length
  · have hi' : i < (h.gtiers g').length := by rw [cs.length]; exact hi
    rw [List.getElem?_eq_getElem hi, List.getElem?_eq_getElem hi']
    simp only [Option.map_some, Option.some.injEq]
    rw [cs.tcls i _ _ (List.getElem?_eq_getElem hi) (List.getElem?_eq_getElem hi')]
  · rw [List.getElem?_eq_none (by omega), List.getElem?_eq_none (by rw [cs.length]; omega)]

/-- sums of consecutive groups: the tiers before they are put into the new group -/
theorem addTiers_consecutive {h : Heap} {ts us : List TRef} (p : PlainTiers h ts) (q : PlainTiers h us)
    (cs : Consecutive h ts us) (ch : ClassChain h ts) (al : AlignedTiers h ts) (al' : AlignedTiers h us)
    (td : Tidy h) :
    ∃ ns h1, addTiers (ts.zip us) h = .ok ns h1 ∧ TierSums h h1 ∧
      ns.length = ts.length ∧ ns.Nodup ∧ (∀ n ∈ ns, h.nT ≤ n) ∧
      (∀ (i : Nat) t u n, ts[i]? = some t → us[i]? = some u → ns[i]? = some n →
        (h1.tseq n).vals = (h.tseq t).vals ++ (h.tseq u).vals ∧ h1.tcls n = h.tcls t) ∧
      ClassChain h1 ns ∧ AlignedTiers h1 ns ∧ Tidy h1 := by
  obtain ⟨ns, h1, e, s, en, r, -⟩ := addTiers_ok (ts.zip us) h (fun pr hp => by
    obtain ⟨i, hi⟩ := List.mem_iff_getElem?.mp hp
    rw [List.getElem?_zip_eq_some] at hi
    exact ⟨_, p.addable q cs al al' i _ _ hi.1 hi.2⟩)
  have hlen : (ts.zip us).length = ts.length := by rw [List.length_zip, cs.length, Nat.min_self]
  rw [hlen] at en
  have lns : ns.length = ts.length := by rw [en]; simp
  have at_ : ∀ (i : Nat) n, ns[i]? = some n → n = h.nT + i ∧ ∃ t u, ts[i]? = some t ∧ us[i]? = some u := by
    intro i n hn
    have hi : i < ts.length := by rw [← lns]; exact getElem?_lt hn
    rw [en, List.getElem?_map, List.getElem?_range hi] at hn
    simp only [Option.map_some, Option.some.injEq] at hn
    exact ⟨hn.symm, ts[i], us[i]'(by rw [cs.length]; exact hi), List.getElem?_eq_getElem hi,
      List.getElem?_eq_getElem _⟩
  -- everything known about the new tier number `i`
  have all : ∀ (i : Nat) n t u, ns[i]? = some n → ts[i]? = some t → us[i]? = some u →
      (h1.tseq n).vals = (h.tseq t).vals ++ (h.tseq u).vals ∧ h1.tcls n = h.tcls t ∧
        h1.tsup n = h.tsup t ∧ h1.tsub n = h.tsub t := by
    intro i n t u hn ht hu
    obtain ⟨rfl, -⟩ := at_ i n hn
    obtain ⟨r1, r2, r3, r4⟩ := r i (t, u) (by rw [List.getElem?_zip_eq_some]; exact ⟨ht, hu⟩)
    have mt := List.mem_of_getElem? ht
    have mu := List.mem_of_getElem? hu
    exact ⟨r1.trans ((congrArg (fun l => slSort h ((h.tseq t).vals ++ l)) (p.new cs t u mt mu)).trans
      (p.sum_sorted q cs t u mt mu)), r2, r3.trans (p.tsup t mt).symm, r4.trans (p.tsub t mt).symm⟩
  have map_tcls : ns.map h1.tcls = ts.map h.tcls := by
    apply List.ext_getElem (by simp [lns])
    intro i hi hi'
    rw [List.length_map] at hi hi'
    simp only [List.getElem_map]
    obtain ⟨-, t, u, ht, hu⟩ := at_ i ns[i] (List.getElem?_eq_getElem hi)
    rw [(all i _ t u (List.getElem?_eq_getElem hi) ht hu).2.1]
    rw [List.getElem?_eq_getElem hi'] at ht
    rw [Option.some.inj ht]
  have mem_tcls : ∀ c, (∀ t' ∈ ts, h.tcls t' ≠ c) → ∀ n ∈ ns, h1.tcls n ≠ c := by
    intro c hc n hn ec
    have : c ∈ ns.map h1.tcls := List.mem_map.mpr ⟨n, hn, ec⟩
    rw [map_tcls] at this
    obtain ⟨t, ht, et⟩ := List.mem_map.mp this
    exact hc t ht et
  refine ⟨ns, h1, e, s, lns, ?_, ?_, ?_, ?_, ?_, ?_⟩
  · rw [en, List.nodup_iff_pairwise_ne, List.pairwise_map]
    exact List.nodup_range.imp (fun hne hab => hne (Nat.add_left_cancel hab))
  · intro n hn
    obtain ⟨i, hi⟩ := List.mem_iff_getElem?.mp hn
    rw [(at_ i n hi).1]; exact Nat.le_add_right _ _
  · intro i t u n ht hu hn
    exact ⟨(all i n t u hn ht hu).1, (all i n t u hn ht hu).2.1⟩
  · constructor
    · rw [map_tcls]; exact ch.distinct
    · intro i n n' hn hn'
      obtain ⟨-, t, u, ht, hu⟩ := at_ i n hn
      obtain ⟨-, t', u', ht', hu'⟩ := at_ (i + 1) n' hn'
      obtain ⟨-, a2, a3, a4⟩ := all i n t u hn ht hu
      obtain ⟨-, b2, b3, b4⟩ := all (i + 1) n' t' u' hn' ht' hu'
      rw [a2, a4, b2, b3]; exact ch.down i t t' ht ht'
    · intro i n n' hn hn'
      obtain ⟨-, t, u, ht, hu⟩ := at_ i n hn
      obtain ⟨-, t', u', ht', hu'⟩ := at_ (i + 1) n' hn'
      rw [(all i n t u hn ht hu).2.1, (all (i + 1) n' t' u' hn' ht' hu').2.1, s.ct]
      exact ch.inner i t t' ht ht'
    · intro n hn
      obtain ⟨-, t, u, ht, hu⟩ := at_ 0 n hn
      rw [(all 0 n t u hn ht hu).2.2.1, s.ct]
      obtain ⟨c, h2, h3⟩ := ch.top t ht
      exact ⟨c, h2, h3.imp id (mem_tcls c)⟩
    · intro n hn
      rw [lns] at hn
      obtain ⟨-, t, u, ht, hu⟩ := at_ _ n hn
      rw [(all _ n t u hn ht hu).2.2.2, s.ct]
      obtain ⟨c, h2, h3⟩ := ch.bottom t ht
      exact ⟨c, h2, h3.imp id (mem_tcls c)⟩
  · constructor
    · -- every entry once
      rw [List.nodup_iff_pairwise_ne, List.pairwise_flatten, List.forall_mem_map, List.pairwise_map]
      have o1 := al.once
      have o2 := al'.once
      rw [List.nodup_iff_pairwise_ne, List.pairwise_flatten, List.forall_mem_map, List.pairwise_map] at o1 o2
      constructor
      · intro n hn
        obtain ⟨i, hi⟩ := List.mem_iff_getElem?.mp hn
        obtain ⟨-, t, u, ht, hu⟩ := at_ i n hi
        rw [(all i n t u hi ht hu).1]
        have o := (p.addable q cs al al' i t u ht hu).nodup
        rwa [p.new cs t u (List.mem_of_getElem? ht) (List.mem_of_getElem? hu)] at o
      · rw [List.pairwise_iff_getElem]
        intro i j hi hj hij x hx y hy
        obtain ⟨-, t, u, ht, hu⟩ := at_ i _ (List.getElem?_eq_getElem hi)
        obtain ⟨-, t', u', ht', hu'⟩ := at_ j _ (List.getElem?_eq_getElem hj)
        rw [(all i _ t u (List.getElem?_eq_getElem hi) ht hu).1] at hx
        rw [(all j _ t' u' (List.getElem?_eq_getElem hj) ht' hu').1] at hy
        have mt := List.mem_of_getElem? ht
        have mu := List.mem_of_getElem? hu
        have mt' := List.mem_of_getElem? ht'
        have mu' := List.mem_of_getElem? hu'
        have p1 := (List.pairwise_iff_getElem.mp o1.2) i j (getElem?_lt ht) (getElem?_lt ht') hij
        have p2 := (List.pairwise_iff_getElem.mp o2.2) i j (getElem?_lt hu) (getElem?_lt hu') hij
        rw [(List.getElem?_eq_some_iff.mp ht).2, (List.getElem?_eq_some_iff.mp ht').2] at p1
        rw [(List.getElem?_eq_some_iff.mp hu).2, (List.getElem?_eq_some_iff.mp hu').2] at p2
        rcases List.mem_append.mp hx with hx | hx <;> rcases List.mem_append.mp hy with hy | hy
        · exact p1 x hx y hy
        · rintro rfl; exact cs.apart t mt x hx u' mu' hy
        · rintro rfl; exact cs.apart t' mt' x hy u mu hx
        · exact p2 x hx y hy
    · intro n hn x hx
      obtain ⟨i, hi⟩ := List.mem_iff_getElem?.mp hn
      obtain ⟨-, t, u, ht, hu⟩ := at_ i n hi
      have a := all i n t u hi ht hu
      rw [a.1] at hx
      rw [a.2.1, s.cls]
      exact (p.addable q cs al al' i t u ht hu).cls x (List.mem_append.mp hx)
    · intro n hn x hx
      obtain ⟨i, hi⟩ := List.mem_iff_getElem?.mp hn
      obtain ⟨-, t, u, ht, hu⟩ := at_ i n hi
      have a := all i n t u hi ht hu
      rw [a.1] at hx
      rw [s.label]
      exact (p.addable q cs al al' i t u ht hu).label x (List.mem_append.mp hx)
    · intro i n n' hn hn'
      obtain ⟨-, t, u, ht, hu⟩ := at_ i n hn
      obtain ⟨-, t', u', ht', hu'⟩ := at_ (i + 1) n' hn'
      rw [(all i n t u hn ht hu).2.1, (all (i + 1) n' t' u' hn' ht' hu').2.1, s.ct]
      exact al.chain i t t' ht ht'
    · intro i n n' hn hn'
      obtain ⟨-, t, u, ht, hu⟩ := at_ i n hn
      obtain ⟨-, t', u', ht', hu'⟩ := at_ (i + 1) n' hn'
      rw [(all i n t u hn ht hu).1, (all (i + 1) n' t' u' hn' ht' hu').1]
      have mt := List.mem_of_getElem? ht
      have mu := List.mem_of_getElem? hu
      have mt' := List.mem_of_getElem? ht'
      have mu' := List.mem_of_getElem? hu'
      exact ((al.aligned i t t' ht ht').append (al'.aligned i u u' hu hu') (p.dur t' mt') (q.dur u' mu')
        (fun x hx y hy => cs.after t mt x hx u mu y hy) (fun x hx y hy => cs.after t' mt' x hx u' mu' y hy)
        (fun x hx y hy => cs.after t mt x hx u' mu' y hy)
        (fun x hx y hy => cs.after t' mt' x hx u mu y hy)).congr s.start s.stop
  · exact td.congr s.subs s.sup s.start s.stop s.cls s.label s.ct

end ATG
