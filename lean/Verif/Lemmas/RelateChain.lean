import Verif.Lemmas.RelateRun
import Verif.Lemmas.Classes
import Verif.Lemmas.Clone
/-!
# Relating a chain of aligned tiers
-/
namespace ATG

/-- the pairs (upper interval, lower intervals inside it) -/
def blockPairs (h : Heap) (upper lower : List Ref) : List (Ref × List Ref) :=
  upper.map fun u => (u, lower.filter (Inside h u ·))

theorem Aligned.blocks_nodup {h : Heap} {upper lower : List Ref} (al : Aligned h upper lower)
    (hl : lower.Nodup) : ((blockPairs h upper lower).map (·.2)).flatten.Nodup := by
  rw [List.nodup_iff_pairwise_ne, List.pairwise_flatten]
  unfold blockPairs
  rw [List.map_map]
  constructor
  · intro l hl'
    obtain ⟨u, hu, rfl⟩ := List.mem_map.mp hl'
    exact hl.sublist List.filter_sublist
  · rw [List.pairwise_map]
    refine al.upperDisjoint.imp_of_mem ?_
    intro u v _ _ huv x hx y hy hxy
    simp only [Function.comp_apply] at hx hy
    rw [List.mem_filter] at hx hy
    subst hxy
    have h1 := al.pos x hx.1
    have h2 : Inside h u x := by simpa using hx.2
    have h3 : Inside h v x := by simpa using hy.2
    unfold Inside at h2 h3
    grind

theorem relatePair_ok (upper lower : TRef) (delay : Bool) (h : Heap) (d : CRef)
    (al : Aligned h (h.tseq upper).vals (h.tseq lower).vals)
    (hu : (h.tseq upper).vals.Nodup) (hl : (h.tseq lower).vals.Nodup)
    (hs : ∀ x ∈ (h.tseq lower).vals, h.sup x = none)
    (hlab : ∀ x ∈ (h.tseq lower).vals, h.label x ≠ "#")
    (hc : ∀ x ∈ (h.tseq lower).vals, h.cls x = d)
    (hsub : ∀ u ∈ (h.tseq upper).vals, h.ct.sub (h.cls u) = some d) :
    ∃ h', relatePair upper lower delay h = .ok () h' ∧
      Relates h h' (blockPairs h (h.tseq upper).vals (h.tseq lower).vals) := by
  unfold relatePair
  by_cases hz : (h.tspans upper).length = 0 ∨ (h.tspans lower).length = 0
  · have hup : (h.tseq upper).vals = [] := by
      rcases hz with hz | hz
      · simpa [Heap.tspans] using hz
      · have hz : (h.tseq lower).vals = [] := by simpa [Heap.tspans] using hz
        cases hv : (h.tseq upper).vals with
        | nil => rfl
        | cons u us =>
          have := al.tiled u (by rw [hv]; simp)
          rw [hz] at this
          exact this.elim
    refine ⟨h, ?_, ?_⟩
    · mstep M.get_apply h
      rw [if_pos (by simpa using hz)]
      rfl
    · rw [hup]; exact relates_nil h
  · have hsl := al.slices
    have hlen : (h.tspans upper).length = (h.tseq upper).vals.length := by simp [Heap.tspans]
    let L := (h.tseq upper).vals.map fun u => (h.tseq lower).vals.filter (Inside h u ·)
    have hL : ∀ l ∈ L, ∃ u ∈ (h.tseq upper).vals, l = (h.tseq lower).vals.filter (Inside h u ·) := by
      intro l hl'
      obtain ⟨u, hu', rfl⟩ := List.mem_map.mp hl'
      exact ⟨u, hu', rfl⟩
    have hLs : ∀ l ∈ L, SortedByStart h l := by
      intro l hl'
      obtain ⟨u, hu', rfl⟩ := hL l hl'
      exact (al.tiled u hu').byStart
    have hsub' : ∀ l ∈ L, ∀ x ∈ l, x ∈ (h.tseq lower).vals := by
      intro l hl' x hx
      obtain ⟨u, hu', rfl⟩ := hL l hl'
      exact (List.mem_filter.mp hx).1
    have hfinal := forL_relate delay lower (blockPairs h (h.tseq upper).vals (h.tseq lower).vals) h
      (by unfold blockPairs; rw [List.map_map]; simpa [Function.comp_def] using hu)
      (al.blocks_nodup hl)
      (by
        intro p hp
        obtain ⟨u, hu', rfl⟩ := List.mem_map.mp hp
        exact (al.tiled u hu').ne)
      (by
        intro p hp
        obtain ⟨u, hu', rfl⟩ := List.mem_map.mp hp
        exact (al.tiled u hu').byStart)
      (by
        intro p hp x hx
        obtain ⟨u, hu', rfl⟩ := List.mem_map.mp hp
        have hx' := (List.mem_filter.mp hx).1
        refine ⟨hs x hx', hlab x hx', d, hsub u hu', ?_⟩
        rw [hc x hx']; exact isSub_refl _ _)
      (by
        intro p hp x hx y hy
        obtain ⟨u, hu', rfl⟩ := List.mem_map.mp hp
        rw [hc x (List.mem_filter.mp hx).1, hc y (List.mem_filter.mp hy).1])
    obtain ⟨h', e, r⟩ := hfinal
    refine ⟨h', ?_, r⟩
    mstep M.get_apply h
    rw [if_neg (by simpa using hz)]
    rw [hlen]
    unfold Heap.tspans
    rw [hsl, al.noMismatch]
    mstep mkSlices_ok h L hLs (by
      intro l hl' x hx y hy
      rw [hc x (hsub' l hl' x hx), hc y (hsub' l hl' y hy)])
    mstep closeAllGaps_ok h _ (by
      intro s hs'
      obtain ⟨l, hl', rfl⟩ := List.mem_map.mp hs'
      obtain ⟨u, hu', rfl⟩ := hL l hl'
      exact (al.tiled u hu').noGap)
    mstep M.get_apply h
    have hd : (List.map (fun p : Time × Time => p.2 - p.1)
        (List.map (fun x => (h.start x, h.stop x)) (h.tseq upper).vals)) =
        List.map (fun s : SL => totalDur h s.vals) (L.map fun l => ⟨l, headCls h l⟩) := by
      rw [List.map_map, List.map_map, List.map_map]
      apply List.map_congr_left
      intro u hu'
      simp only [Function.comp_apply]
      rw [(al.tiled u hu').dur]
    rw [hd, allcloseL_self]
    have hz2 : (h.tseq upper).vals.zip (L.map fun l => (⟨l, headCls h l⟩ : SL)) =
        (blockPairs h (h.tseq upper).vals (h.tseq lower).vals).map
          fun p => (p.1, (⟨p.2, headCls h p.2⟩ : SL)) := by
      show (h.tseq upper).vals.zip (((h.tseq upper).vals.map _).map _) = _
      unfold blockPairs
      generalize (h.tseq upper).vals = us
      induction us with
      | nil => rfl
      | cons u us ih => simp only [List.map_cons, List.zip_cons_cons, ih]
    rw [hz2]
    exact e

theorem Relates.append {h h1 h2 : Heap} {P Q : List (Ref × List Ref)} (a : Relates h h1 P)
    (b : Relates h1 h2 Q) (hu : ∀ p ∈ P, ∀ q ∈ Q, p.1 ≠ q.1)
    (hl : ∀ p ∈ P, ∀ q ∈ Q, ∀ x ∈ p.2, x ∉ q.2) : Relates h h2 (P ++ Q) := by
  constructor
  · rw [b.frame, a.frame]
  · intro p hp
    rcases List.mem_append.mp hp with hp | hp
    · rw [(b.otherUpper p.1 (fun q hq => (hu p hp q hq).symm)).1]; exact a.subs p hp
    · exact b.subs p hp
  · intro p hp
    rcases List.mem_append.mp hp with hp | hp
    · apply (a.linked p hp).congr
      · intro x hx; exact (b.otherLower x (fun q hq => hl p hp q hq x hx)).2.2.1
      · intro x hx; exact (b.otherLower x (fun q hq => hl p hp q hq x hx)).2.2.2
    · exact b.linked p hp
  · intro p hp x hx
    rcases List.mem_append.mp hp with hp | hp
    · have := b.otherLower x (fun q hq => hl p hp q hq x hx)
      rw [this.1, this.2.1]; exact a.sup p hp x hx
    · exact b.sup p hp x hx
  · intro v hv
    have h1 := b.otherUpper v (fun q hq => hv q (by simp [hq]))
    have h2 := a.otherUpper v (fun q hq => hv q (by simp [hq]))
    rw [h1.1, h1.2, h2.1, h2.2]; exact ⟨rfl, rfl⟩
  · intro x hx
    have h1 := b.otherLower x (fun q hq => hx q (by simp [hq]))
    have h2 := a.otherLower x (fun q hq => hx q (by simp [hq]))
    rw [h1.1, h1.2.1, h1.2.2.1, h1.2.2.2, h2.1, h2.2.1, h2.2.2.1, h2.2.2.2]
    exact ⟨rfl, rfl, rfl, rfl⟩
  · intro p hp
    rcases List.mem_append.mp hp with hp | hp
    · rw [(b.otherUpper p.1 (fun q hq => (hu p hp q hq).symm)).2]; exact a.contains p hp
    · exact b.contains p hp
  · intro p hp x hx
    rcases List.mem_append.mp hp with hp | hp
    · rw [(b.otherUpper p.1 (fun q hq => (hu p hp q hq).symm)).1]; exact a.typed p hp x hx
    · rw [b.typed p hp x hx, a.frame]

/-- the pairs of a whole chain of tiers -/
def chainPairs (h : Heap) : List TRef → List (Ref × List Ref)
  | [] => []
  | [_] => []
  | u :: l :: rest => blockPairs h (h.tseq u).vals (h.tseq l).vals ++ chainPairs h (l :: rest)

theorem chainPairs_congr {h h' : Heap} (e1 : h'.start = h.start) (e2 : h'.stop = h.stop)
    (e3 : h'.tseq = h.tseq) : ∀ ts, chainPairs h' ts = chainPairs h ts
  | [] => rfl
  | [_] => rfl
  | u :: l :: rest => by
    unfold chainPairs
    rw [chainPairs_congr e1 e2 e3 (l :: rest), e3]
    congr 1
    unfold blockPairs
    apply List.map_congr_left
    intro x _
    congr 1
    apply List.filter_congr
    intro y _
    simp only [Inside, e1, e2]

theorem mem_chainPairs {h : Heap} : ∀ {ts : List TRef} {p}, p ∈ chainPairs h ts →
    ∃ i t t', ts[i]? = some t ∧ ts[i + 1]? = some t' ∧ p.1 ∈ (h.tseq t).vals ∧
      p.2 = (h.tseq t').vals.filter (Inside h p.1 ·)
  | [], _, hp => by simp [chainPairs] at hp
  | [_], _, hp => by simp [chainPairs] at hp
  | u :: l :: rest, p, hp => by
    unfold chainPairs at hp
    rcases List.mem_append.mp hp with hp | hp
    · obtain ⟨v, hv, rfl⟩ := List.mem_map.mp hp
      exact ⟨0, u, l, rfl, rfl, hv, rfl⟩
    · obtain ⟨i, t, t', h1, h2, h3⟩ := mem_chainPairs hp
      exact ⟨i + 1, t, t', by simpa using h1, by simpa using h2, h3⟩

theorem chainPairs_mem {h : Heap} : ∀ {ts : List TRef} {i t t' u}, ts[i]? = some t → ts[i + 1]? = some t' →
    u ∈ (h.tseq t).vals → (u, (h.tseq t').vals.filter (Inside h u ·)) ∈ chainPairs h ts
  | [], _, _, _, _, h1, _, _ => by simp at h1
  | [_], i, _, _, _, _, h2, _ => by simp at h2
  | a :: b :: rest, 0, t, t', u, h1, h2, hu => by
    simp at h1 h2; subst h1; subst h2
    unfold chainPairs
    exact List.mem_append.mpr (Or.inl (List.mem_map.mpr ⟨u, hu, rfl⟩))
  | a :: b :: rest, i + 1, t, t', u, h1, h2, hu => by
    unfold chainPairs
    exact List.mem_append.mpr (Or.inr (chainPairs_mem (by simpa using h1) (by simpa using h2) hu))

theorem AlignedTiers.tail {h : Heap} {t : TRef} {ts : List TRef} (a : AlignedTiers h (t :: ts)) :
    AlignedTiers h ts := by
  constructor
  · have := a.once
    rw [List.map_cons, List.flatten_cons] at this
    exact (List.nodup_append.mp this).2.1
  · intro s hs; exact a.cls s (by simp [hs])
  · intro s hs; exact a.label s (by simp [hs])
  · intro i s s' h1 h2; exact a.chain (i + 1) s s' (by simpa using h1) (by simpa using h2)
  · intro i s s' h1 h2; exact a.aligned (i + 1) s s' (by simpa using h1) (by simpa using h2)

theorem AlignedTiers.nodup {h : Heap} {ts : List TRef} (a : AlignedTiers h ts) :
    ∀ t ∈ ts, (h.tseq t).vals.Nodup := by
  intro t ht
  have := a.once
  rw [List.nodup_iff_pairwise_ne, List.pairwise_flatten] at this
  exact this.1 _ (List.mem_map.mpr ⟨t, ht, rfl⟩)

theorem Aligned.congr {h h' : Heap} {us ls : List Ref} (a : Aligned h us ls) (e1 : h'.start = h.start)
    (e2 : h'.stop = h.stop) : Aligned h' us ls := by
  have ht : ∀ l x y, Tiles h l x y → Tiles h' l x y := by
    intro l
    induction l with
    | nil => intro x y t; exact t
    | cons z zs ih =>
      cases zs with
      | nil => intro x y t; simp only [Tiles] at t ⊢; rw [e1, e2]; exact t
      | cons w ws =>
        intro x y t
        rw [Tiles] at t ⊢
        rw [e1, e2]; exact ⟨t.1, t.2.1, ih _ _ t.2.2⟩
  constructor
  · rw [e1, e2]; exact a.upperDisjoint
  · rw [e1, e2]; exact a.lowerDisjoint
  · intro x hx; unfold Inside; rw [e1, e2]; exact a.covered x hx
  · intro u hu
    have hf : ls.filter (Inside h' u ·) = ls.filter (Inside h u ·) := by
      apply List.filter_congr
      intro y _
      simp only [Inside, e1, e2]
    rw [hf, e1, e2]; exact ht _ _ _ (a.tiled u hu)

theorem AlignedTiers.congr {h h' : Heap} {ts : List TRef} (a : AlignedTiers h ts) (e1 : h'.start = h.start)
    (e2 : h'.stop = h.stop) (e3 : h'.tseq = h.tseq) (e4 : h'.cls = h.cls) (e5 : h'.tcls = h.tcls)
    (e6 : h'.label = h.label) (e7 : h'.ct = h.ct) : AlignedTiers h' ts := by
  constructor
  · rw [e3]; exact a.once
  · rw [e3, e4, e5]; exact a.cls
  · rw [e3, e6]; exact a.label
  · rw [e5, e7]; exact a.chain
  · intro i t t' h1 h2
    rw [e3]; exact (a.aligned i t t' h1 h2).congr e1 e2

theorem flatten_disjoint {α} {A : List α} {L : List (List α)} (h : (A :: L).flatten.Nodup) :
    ∀ B ∈ L, ∀ x ∈ A, x ∉ B := by
  intro B hB x hx hxB
  rw [List.flatten_cons] at h
  exact (List.nodup_append.mp h).2.2 x hx x (List.mem_flatten.mpr ⟨B, hB, hxB⟩) rfl

theorem relateChain_ok (delay : Bool) : ∀ (ts : List TRef) (h : Heap), AlignedTiers h ts →
    (∀ t ∈ ts.tail, ∀ x ∈ (h.tseq t).vals, h.sup x = none) →
    ∃ h', relateChain delay ts h = .ok () h' ∧ Relates h h' (chainPairs h ts)
  | [], h, _, _ => ⟨h, rfl, relates_nil h⟩
  | [_], h, _, _ => ⟨h, rfl, relates_nil h⟩
  | u :: l :: rest, h, a, hs => by
    obtain ⟨h1, e1, r1⟩ := relatePair_ok u l delay h (h.tcls l) (a.aligned 0 u l rfl rfl)
      (a.nodup u (by simp)) (a.nodup l (by simp)) (hs l (by simp)) (a.label l (by simp))
      (a.cls l (by simp)) (by
        intro x hx
        rw [a.cls u (by simp) x hx]; exact a.chain 0 u l rfl rfl)
    have f1 := r1.frame
    have a1 : AlignedTiers h1 (l :: rest) := by
      apply a.tail.congr <;> rw [f1]
    have hseq1 : h1.tseq = h.tseq := by rw [f1]
    have hdl := flatten_disjoint a.tail.once
    obtain ⟨h2, e2, r2⟩ := relateChain_ok delay (l :: rest) h1 a1 (by
      intro t ht x hx
      rw [hseq1] at hx
      have ht' : t ∈ rest := by simpa using ht
      rw [(r1.otherLower x (by
        intro p hp hxp
        obtain ⟨v, hv, rfl⟩ := List.mem_map.mp hp
        have hxl := (List.mem_filter.mp hxp).1
        exact hdl _ (List.mem_map.mpr ⟨t, ht', rfl⟩) x hxl hx)).1]
      exact hs t (by simp [ht']) x hx)
    refine ⟨h2, ?_, ?_⟩
    · unfold relateChain
      mstep e1
      exact e2
    · rw [chainPairs_congr (by rw [f1]) (by rw [f1]) hseq1] at r2
      unfold chainPairs
      apply r1.append r2
      · intro p hp q hq e
        obtain ⟨v, hv, rfl⟩ := List.mem_map.mp hp
        obtain ⟨i, t, t', g1, g2, g3, _⟩ := mem_chainPairs hq
        have hm : t ∈ l :: rest := List.mem_of_getElem? g1
        have hd := flatten_disjoint a.once
        rw [← e] at g3
        exact hd _ (List.mem_map.mpr ⟨t, hm, rfl⟩) v hv g3
      · intro p hp q hq x hx hxq
        obtain ⟨v, hv, rfl⟩ := List.mem_map.mp hp
        obtain ⟨i, t, t', g1, g2, g3, g4⟩ := mem_chainPairs hq
        rw [g4] at hxq
        have hm : t' ∈ rest := List.mem_of_getElem? (i := i) (by simpa using g2)
        exact hdl _ (List.mem_map.mpr ⟨t', hm, rfl⟩) x (List.mem_filter.mp hx).1 (List.mem_filter.mp hxq).1

end ATG
