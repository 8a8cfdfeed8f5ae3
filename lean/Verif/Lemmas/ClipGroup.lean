import Verif.Lemmas.ClipSame
import Verif.Lemmas.ClipValue
import Verif.Lemmas.SnapPair
import Verif.Lemmas.SpanLists
import Verif.Lemmas.GroupAligned
import Verif.Lemmas.Arrange
import Verif.Lemmas.GroupSweep
import Verif.Lemmas.Reclone
/-!
# Making a group of two tiers whose boundaries do not match
-/
namespace ATG

theorem relatePair_exact (upper lower : TRef) (delay : Bool) (h : Heap) (d : CRef)
    (al : Aligned h (h.tseq upper).vals (h.tseq lower).vals)
    (hl : (h.tseq lower).vals.Nodup)
    (hs : ∀ x ∈ (h.tseq lower).vals, h.sup x = none)
    (hlab : ∀ x ∈ (h.tseq lower).vals, h.label x ≠ "#")
    (hc : ∀ x ∈ (h.tseq lower).vals, h.cls x = d)
    (hsub : ∀ u ∈ (h.tseq upper).vals, h.ct.sub (h.cls u) = some d) :
    relatePair upper lower delay h = .ok () (relatedAll h (blockPairs h (h.tseq upper).vals (h.tseq lower).vals)) := by
  unfold relatePair
  by_cases hz : (h.tspans upper).length = 0 ∨ (h.tspans lower).length = 0
  · have hup : (h.tseq upper).vals = [] := by
      rcases hz with hz | hz
      · simpa [Heap.tspans] using hz
      · have hz : (h.tseq lower).vals = [] := by simpa [Heap.tspans] using hz
        cases hv : (h.tseq upper).vals with
        | nil => rfl
        | cons u us =>
          have := al.tiled u (by rw [hv]; simp)
          rw [hz] at this
          exact this.elim
    mstep M.get_apply h
    rw [if_pos (by simpa using hz), hup]
    rfl
  · have hsl := al.slices
    have hlen : (h.tspans upper).length = (h.tseq upper).vals.length := by simp [Heap.tspans]
    let L := (h.tseq upper).vals.map fun u => (h.tseq lower).vals.filter (Inside h u ·)
    have hL : ∀ l ∈ L, ∃ u ∈ (h.tseq upper).vals, l = (h.tseq lower).vals.filter (Inside h u ·) := by
      intro l hl'
      obtain ⟨u, hu', rfl⟩ := List.mem_map.mp hl'
      exact ⟨u, hu', rfl⟩
    have hLs : ∀ l ∈ L, SortedByStart h l := by
      intro l hl'
      obtain ⟨u, hu', rfl⟩ := hL l hl'
      exact (al.tiled u hu').byStart
    have hsub' : ∀ l ∈ L, ∀ x ∈ l, x ∈ (h.tseq lower).vals := by
      intro l hl' x hx
      obtain ⟨u, hu', rfl⟩ := hL l hl'
      exact (List.mem_filter.mp hx).1
    have e := forL_related delay lower (blockPairs h (h.tseq upper).vals (h.tseq lower).vals) h
      (al.blocks_nodup hl)
      (by
        intro p hp
        obtain ⟨u, hu', rfl⟩ := List.mem_map.mp hp
        exact (al.tiled u hu').ne)
      (by
        intro p hp
        obtain ⟨u, hu', rfl⟩ := List.mem_map.mp hp
        exact (al.tiled u hu').byStart)
      (by
        intro p hp x hx
        obtain ⟨u, hu', rfl⟩ := List.mem_map.mp hp
        have hx' := (List.mem_filter.mp hx).1
        refine ⟨hs x hx', hlab x hx', d, hsub u hu', ?_⟩
        rw [hc x hx']; exact isSub_refl _ _)
      (by
        intro p hp x hx y hy
        obtain ⟨u, hu', rfl⟩ := List.mem_map.mp hp
        rw [hc x (List.mem_filter.mp hx).1, hc y (List.mem_filter.mp hy).1])
    mstep M.get_apply h
    rw [if_neg (by simpa using hz)]
    rw [hlen]
    unfold Heap.tspans
    rw [hsl, al.noMismatch]
    mstep mkSlices_ok h L hLs (by
      intro l hl' x hx y hy
      rw [hc x (hsub' l hl' x hx), hc y (hsub' l hl' y hy)])
    mstep closeAllGaps_ok h _ (by
      intro s hs'
      obtain ⟨l, hl', rfl⟩ := List.mem_map.mp hs'
      obtain ⟨u, hu', rfl⟩ := hL l hl'
      exact (al.tiled u hu').noGap)
    mstep M.get_apply h
    have hd : (List.map (fun p : Time × Time => p.2 - p.1)
        (List.map (fun x => (h.start x, h.stop x)) (h.tseq upper).vals)) =
        List.map (fun s : SL => totalDur h s.vals) (L.map fun l => ⟨l, headCls h l⟩) := by
      rw [List.map_map, List.map_map, List.map_map]
      apply List.map_congr_left
      intro u hu'
      simp only [Function.comp_apply]
      rw [(al.tiled u hu').dur]
    rw [hd, allcloseL_self]
    have hz2 : (h.tseq upper).vals.zip (L.map fun l => (⟨l, headCls h l⟩ : SL)) =
        (blockPairs h (h.tseq upper).vals (h.tseq lower).vals).map
          fun p => (p.1, (⟨p.2, headCls h p.2⟩ : SL)) := by
      show (h.tseq upper).vals.zip (((h.tseq upper).vals.map _).map _) = _
      unfold blockPairs
      generalize (h.tseq upper).vals = us
      induction us with
      | nil => rfl
      | cons u us ih => simp only [List.map_cons, List.zip_cons_cons, ih]
    rw [hz2]
    exact e

theorem arrangeUp_congr {h k : Heap} (e1 : k.tsup = h.tsup) (e2 : k.ct = h.ct) (e3 : k.tcls = h.tcls) (tiers : List TRef) :
    ∀ (n : Nat) (t : TRef), arrangeUp k tiers n t = arrangeUp h tiers n t
  | 0, _ => rfl
  | n + 1, t => by
    unfold arrangeUp
    rw [e1, e2, e3]
    simp only [arrangeUp_congr e1 e2 e3 tiers n]

theorem arrangeDown_congr {h k : Heap} (e1 : k.tsub = h.tsub) (e2 : k.ct = h.ct) (e3 : k.tcls = h.tcls) (tiers : List TRef) :
    ∀ (n : Nat) (t : TRef), arrangeDown k tiers n t = arrangeDown h tiers n t
  | 0, _ => rfl
  | n + 1, t => by
    unfold arrangeDown
    rw [e1, e2, e3]
    simp only [arrangeDown_congr e1 e2 e3 tiers n]

theorem arrange_congr {h k : Heap} (e1 : k.tsup = h.tsup) (e0 : k.tsub = h.tsub) (e2 : k.ct = h.ct) (e3 : k.tcls = h.tcls)
    (tiers : List TRef) : arrange k tiers = arrange h tiers := by
  unfold arrange
  simp only [arrangeUp_congr e1 e2 e3, arrangeDown_congr e0 e2 e3]

/-- the heap with a new group object -/
def withGroup (h : Heap) : Heap := { h with
    nG := h.nG + 1
    gtiers := upd h.gtiers h.nG []
    gcont := upd h.gcont h.nG none
    gpoint := upd h.gpoint h.nG false
    gwithin := upd h.gwithin h.nG none }

theorem newGroup_fresh {us : List TRef} {b : Bool} {h h' : Heap} (ha : arrange h us = .ok (us, b))
    (hs : ∀ t ∈ us, ∀ x ∈ (h.tseq t).vals, h.sup x = none)
    (hr : relateChain false us (seated (withGroup h) h.nG us b) = .ok () h') : newGroup us h = .ok h.nG h' := by
  unfold newGroup
  mstep (show newGroupObj false h = .ok h.nG (withGroup h) from rfl)
  have e : groupInit h.nG us false (withGroup h) = .ok () h' := by
    unfold groupInit
    mstep M.get_apply _
    rw [show arrange (withGroup h) us = .ok (us, b) from (arrange_congr (h := h) (k := withGroup h) rfl rfl rfl rfl us).trans ha]
    dsimp only
    have es : (if b then setContainsGroup h.nG us else pure ()) (withGroup h) =
        .ok () (if b then contained (withGroup h) h.nG us else withGroup h) := by
      cases b
      · rfl
      · exact setContainsGroup_ok h.nG us _
    mstep es
    mstep (show M.modify (fun k => { k with gtiers := upd k.gtiers h.nG us })
      (if b then contained (withGroup h) h.nG us else withGroup h) = .ok () (seated (withGroup h) h.nG us b) by cases b <;> rfl)
    have e0 := seated_frame (withGroup h) h.nG us b
    have q1 : (seated (withGroup h) h.nG us b).tseq = h.tseq := by rw [e0]; rfl
    have q2 : (seated (withGroup h) h.nG us b).sup = h.sup := by rw [e0]; rfl
    mstep forL_noop us _ (seated (withGroup h) h.nG us b) (by
      intro t ht
      mstep M.get_apply _
      refine forL_noop _ _ _ fun x hx => removeSuperset_none x _ ?_
      rw [q1] at hx
      rw [q2]
      exact hs t ht x hx)
    exact hr
  mstep e
  rfl

theorem seated_retime (h : Heap) (s e : Ref → Time) (g : GRef) (us : List TRef) (b : Bool) :
    seated (withGroup (h.retime s e)) g us b = (seated (withGroup h) g us b).retime s e := by
  cases b <;> rfl

theorem slices_map {α β} (f : α → β) (asg : List Nat) (l : List α) (n : Nat) :
    slices asg (l.map f) n = (slices asg l n).map (List.map f) := by
  unfold slices
  rw [List.map_map]
  apply List.map_congr_left
  intro i _
  simp only [Function.comp_apply]
  split
  · rfl
  · unfold pySlice; rw [List.map_take, List.map_drop]

/-- the times and the label of an entry -/
def Heap.entry (h : Heap) (r : Ref) : Time × Time × String := (h.start r, h.stop r, h.label r)

theorem entry_spans (h : Heap) (l : List Ref) : rawSpans (l.map h.entry) = l.map h.span := by
  unfold rawSpans; rw [List.map_map]; rfl

theorem mismatched_of {k : Heap} {U L : List Ref} {lo hi : Time}
    (tu : TilesS (rawSpans (U.map k.entry)) lo hi) (tl : TilesS (rawSpans (L.map k.entry)) lo hi)
    (owns : ∀ w ∈ U.map k.entry, ∃ p ∈ L.map k.entry, ∀ v ∈ U.map k.entry, v ≠ w → common p v < common p w)
    (hin : ¬ ∀ p ∈ L.map k.entry, ∃ w ∈ U.map k.entry, w.1 ≤ p.1 ∧ p.2.1 ≤ w.2.1) : Mismatched k U L := by
  refine ⟨?_, ⟨lo, hi, (tiles_spans k L lo hi).mpr (by rw [← entry_spans]; exact tl)⟩, ?_, ?_⟩
  · have := sortedSpans_of_laid tu.laid
    rw [entry_spans] at this
    exact this
  · intro x hx
    obtain ⟨p, hp, q⟩ := owns (k.entry x) (List.mem_map_of_mem hx)
    obtain ⟨y, hy, rfl⟩ := List.mem_map.mp hp
    refine ⟨y, hy, fun v hv hne => ?_⟩
    have hne2 : k.entry v ≠ k.entry x := by
      intro he
      have hnd := rows_nodup tu
      obtain ⟨i, hi⟩ := List.mem_iff_getElem?.mp hv
      obtain ⟨j, hj⟩ := List.mem_iff_getElem?.mp hx
      have h1 : (U.map k.entry)[i]? = some (k.entry v) := by rw [List.getElem?_map, hi]; rfl
      have h2 : (U.map k.entry)[j]? = some (k.entry v) := by rw [List.getElem?_map, hj, he]; rfl
      have : i = j := nodup_index hnd h1 h2
      subst this
      rw [hi] at hj
      exact hne (Option.some.inj hj)
    exact q (k.entry v) (List.mem_map_of_mem hv) hne2
  · apply Classical.byContradiction
    intro hno
    apply hin
    intro p hp
    obtain ⟨x, hx, rfl⟩ := List.mem_map.mp hp
    apply Classical.byContradiction
    intro hno2
    exact hno ⟨x, hx, fun w hw hi => hno2 ⟨k.entry w, List.mem_map_of_mem hw, hi⟩⟩

/-- Relating two tiers with different boundaries does the same as relating what is left of them. -/
theorem relatePair_clip {k : Heap} {s e : Ref → Time} {u l : TRef} {lo hi : Time} {d : CRef}
    (tu : TilesS ((k.tseq u).vals.map k.span) lo hi) (tl : TilesS ((k.tseq l).vals.map k.span) lo hi)
    (owns : ∀ w ∈ (k.tseq u).vals.map k.entry, ∃ p ∈ (k.tseq l).vals.map k.entry,
      ∀ v ∈ (k.tseq u).vals.map k.entry, v ≠ w → common p v < common p w)
    (ru : (k.tseq u).vals.map (k.retime s e).entry =
      uppersLeft ((k.tseq u).vals.map k.entry) (partsOf ((k.tseq u).vals.map k.entry) ((k.tseq l).vals.map k.entry)))
    (rl : (k.tseq l).vals.map (k.retime s e).entry =
      (partsLeft ((k.tseq u).vals.map k.entry) (partsOf ((k.tseq u).vals.map k.entry) ((k.tseq l).vals.map k.entry))).flatten)
    (ho : ∀ x, x ∉ (k.tseq u).vals → x ∉ (k.tseq l).vals → s x = k.start x ∧ e x = k.stop x)
    (hnu : (k.tseq u).vals.Nodup) (hnl : (k.tseq l).vals.Nodup)
    (hul : ∀ x ∈ (k.tseq u).vals, x ∉ (k.tseq l).vals)
    (hs : ∀ x ∈ (k.tseq l).vals, k.sup x = none)
    (hlab : ∀ x ∈ (k.tseq l).vals, k.label x ≠ "#")
    (hc : ∀ x ∈ (k.tseq l).vals, k.cls x = d)
    (hsub : ∀ x ∈ (k.tseq u).vals, k.ct.sub (k.cls x) = some d) :
    ∃ k', relatePair u l false k = .ok () k' ∧ relatePair u l false (k.retime s e) = .ok () k' := by
  generalize hU : (k.tseq u).vals = U at *
  generalize hL : (k.tseq l).vals = L at *
  rw [← entry_spans] at tu tl
  have dv := divided_partsOf tu tl owns
  have al := dv.left_aligned tu tl
  rw [← ru, ← rl, entry_spans, entry_spans, ← aligned_spans] at al
  have e2 := relatePair_exact u l false (k.retime s e) d (by
      show Aligned _ (k.tseq u).vals (k.tseq l).vals
      rw [hU, hL]; exact al)
    (by show (k.tseq l).vals.Nodup; rw [hL]; exact hnl)
    (by show ∀ x ∈ (k.tseq l).vals, _; rw [hL]; exact hs)
    (by show ∀ x ∈ (k.tseq l).vals, _; rw [hL]; exact hlab)
    (by show ∀ x ∈ (k.tseq l).vals, _; rw [hL]; exact hc)
    (by show ∀ x ∈ (k.tseq u).vals, _; rw [hU]; exact hsub)
  refine ⟨_, ?_, e2⟩
  by_cases hin : ∀ p ∈ L.map k.entry, ∃ w ∈ U.map k.entry, w.1 ≤ p.1 ∧ p.2.1 ≤ w.2.1
  · rw [dv.uppersLeft_same tu tl hin] at ru
    rw [dv.partsLeft_same tl hin, dv.flat] at rl
    have hk : k.retime s e = k := by
      have hx : ∀ x, s x = k.start x ∧ e x = k.stop x := by
        have key : ∀ M : List Ref, M.map (k.retime s e).entry = M.map k.entry → ∀ x ∈ M, s x = k.start x ∧ e x = k.stop x := by
          intro M hM x hx
          have := List.map_inj_left.mp hM x hx
          simp only [Heap.entry, Heap.retime, Prod.mk.injEq] at this
          exact ⟨this.1, this.2.1⟩
        intro x
        by_cases h1 : x ∈ U
        · exact key U ru x h1
        · by_cases h2 : x ∈ L
          · exact key L rl x h2
          · exact ho x h1 h2
      have h1 : s = k.start := funext fun x => (hx x).1
      have h2 : e = k.stop := funext fun x => (hx x).2
      rw [h1, h2]
      rfl
    rw [hk] at e2 ⊢
    exact e2
  · have hune : U ≠ [] := by
      intro q
      have := tu.ne
      rw [q] at this
      exact this rfl
    have mm := mismatched_of tu tl owns hin
    obtain ⟨k', Ls, q1, sn, hsl, hfl, hlen, hnel, -⟩ := relatePair_slices u l k d (by rw [hU, hL]; exact mm) (by rw [hU]; exact hnu)
      (by rw [hL]; exact hnl) (by rw [hU, hL]; exact hul) (by rw [hL]; exact hs) (by rw [hL]; exact hlab) (by rw [hL]; exact hc)
      (by rw [hU]; exact hsub) (by rw [hU]; exact hune)
    rw [hU] at hsl sn hlen
    rw [hL] at hfl hsl
    have hparts : partsOf (U.map k.entry) (L.map k.entry) = Ls.map (List.map k.entry) := by
      unfold partsOf
      rw [slices_map, entry_spans, entry_spans, List.length_map]
      exact congrArg _ hsl
    rw [hparts] at ru rl dv
    have hget : ∀ (i : Nat) x m, U[i]? = some x → Ls[i]? = some m → (U.map k.entry)[i]? = some (k.entry x) ∧
        (Ls.map (List.map k.entry))[i]? = some (m.map k.entry) := by
      intro i x m h1 h2
      rw [List.getElem?_map, List.getElem?_map, h1, h2]
      exact ⟨rfl, rfl⟩
    have hup : ∀ (i : Nat) x m, U[i]? = some x → Ls[i]? = some m → (k.retime s e).entry x = clipUpper (k.entry x) (m.map k.entry) := by
      intro i x m h1 h2
      obtain ⟨g1, g2⟩ := hget i x m h1 h2
      have := uppersLeft_get g1 g2
      rw [← ru, List.getElem?_map, h1] at this
      exact Option.some.inj this
    have hlow : Ls.map (List.map (k.retime s e).entry) = partsLeft (U.map k.entry) (Ls.map (List.map k.entry)) := by
      rw [List.eq_iff_flatten_eq]
      constructor
      · rw [← rl, ← hfl, List.map_flatten]
      · apply List.ext_getElem?
        intro i
        rw [List.getElem?_map, List.getElem?_map, List.getElem?_map]
        cases h2 : Ls[i]? with
        | none =>
          rw [List.getElem?_eq_none (l := partsLeft _ _)]
          · rfl
          · rw [partsLeft_length dv, List.length_map, ← hlen]; exact List.getElem?_eq_none_iff.mp h2
        | some m =>
          have hi : i < U.length := by rw [← hlen]; exact (List.getElem?_eq_some_iff.mp h2).1
          obtain ⟨g1, g2⟩ := hget i _ m (List.getElem?_eq_getElem hi) h2
          rw [partsLeft_get g1 g2]
          simp
    have hlow2 : ∀ (i : Nat) x m, U[i]? = some x → Ls[i]? = some m → ∀ y ∈ m, (k.retime s e).entry y = clip (k.entry x) (k.entry y) := by
      intro i x m h1 h2 y hy
      obtain ⟨g1, g2⟩ := hget i x m h1 h2
      have := partsLeft_get g1 g2
      rw [← hlow, List.getElem?_map, h2, List.map_map] at this
      have := List.map_inj_left.mp (Option.some.inj this) y hy
      exact this
    have hwhere : ∀ y ∈ L, ∃ (i : Nat) (x : Ref) (m : List Ref), U[i]? = some x ∧ Ls[i]? = some m ∧ y ∈ m := by
      intro y hy
      rw [← hfl] at hy
      obtain ⟨m, hm, hy⟩ := List.mem_flatten.mp hy
      obtain ⟨i, hi⟩ := List.mem_iff_getElem?.mp hm
      have hi' : i < U.length := by rw [← hlen]; exact (List.getElem?_eq_some_iff.mp hi).1
      exact ⟨i, _, m, List.getElem?_eq_getElem hi', hi, hy⟩
    have hzip : ∀ (i : Nat) x m, U[i]? = some x → Ls[i]? = some m → (x, m) ∈ U.zip Ls := fun i x m h1 h2 =>
      List.mem_of_getElem? (i := i) (List.getElem?_zip_eq_some.mpr ⟨h1, h2⟩)
    have hunzip : ∀ p ∈ U.zip Ls, p.1 ∈ U ∧ p.2 ∈ Ls := fun p hp => List.of_mem_zip hp
    have hmL : ∀ m ∈ Ls, ∀ y ∈ m, y ∈ L := by
      intro m hm y hy
      rw [← hfl]
      exact List.mem_flatten.mpr ⟨m, hm, hy⟩
    have hpos : ∀ (i : Nat) x m, U[i]? = some x → Ls[i]? = some m → ∀ y ∈ m, k.start x < k.stop y ∧ k.start y < k.stop x := by
      intro i x m h1 h2 y hy
      obtain ⟨g1, g2⟩ := hget i x m h1 h2
      have c1 := dv.common_pos tu tl g1 g2 (List.mem_map_of_mem (f := k.entry) hy)
      unfold common shared Heap.entry at c1
      simp only at c1
      constructor <;> grind
    have hnext : ∀ (i : Nat) m, Ls[i]? = some m → ∃ c d, Tiles k m c d := by
      intro i m h2
      have : (Ls.map (List.map k.entry))[i]? = some (m.map k.entry) := by rw [List.getElem?_map, h2]; rfl
      obtain ⟨c, d, t⟩ := dv.tiles tl this
      rw [entry_spans] at t
      exact ⟨c, d, (tiles_spans k m c d).mpr t⟩
    have hs1 : k'.start = s := by
      funext y
      by_cases h1 : y ∈ U
      · obtain ⟨i, hi⟩ := List.mem_iff_getElem?.mp h1
        have hi' : i < Ls.length := by rw [hlen]; exact (List.getElem?_eq_some_iff.mp hi).1
        have hm := List.getElem?_eq_getElem hi'
        generalize Ls[i] = m at hm
        have hne := hnel m (List.mem_of_getElem? hm)
        have a1 := List.head?_eq_some_head hne
        have a2 := List.getLast?_eq_some_getLast hne
        rw [(sn.start _ (hzip i y m hi hm) _ a1).1]
        have := congrArg Prod.fst (hup i y m hi hm)
        unfold clipUpper at this
        rw [List.head?_map, List.getLast?_map, a1, a2] at this
        exact this.symm
      · by_cases h2 : y ∈ L
        · by_cases hh : ∃ (i : Nat) (x : Ref) (m : List Ref), U[i]? = some x ∧ Ls[i]? = some m ∧ m.head? = some y
          · obtain ⟨i, x, m, g1, g2, g3⟩ := hh
            rw [(sn.start _ (hzip i x m g1 g2) y g3).2]
            exact (congrArg Prod.fst (hlow2 i x m g1 g2 y (List.mem_of_mem_head? g3))).symm
          · obtain ⟨i, x, m, g1, g2, g3⟩ := hwhere y h2
            rw [sn.otherStart y (by
              intro p hp
              refine ⟨fun q => h1 (q ▸ (hunzip p hp).1), fun q => ?_⟩
              obtain ⟨j, hj⟩ := List.mem_iff_getElem?.mp hp
              obtain ⟨b1, b2⟩ := List.getElem?_zip_eq_some.mp hj
              exact hh ⟨j, p.1, p.2, b1, b2, q⟩)]
            have e1 : s y = max (k.start x) (k.start y) := congrArg Prod.fst (hlow2 i x m g1 g2 y g3)
            rw [e1]
            obtain ⟨j, hj⟩ := List.mem_iff_getElem?.mp g3
            match j, hj with
            | 0, hj => exact absurd ⟨i, x, m, g1, g2, by rw [List.head?_eq_getElem?]; exact hj⟩ hh
            | j + 1, hj =>
              have hj' : j < m.length := by have := (List.getElem?_eq_some_iff.mp hj).1; omega
              have hz := List.getElem?_eq_getElem hj'
              obtain ⟨c, d, t⟩ := hnext i m g2
              have n1 := t.next j _ y hz hj
              have n2 := (hpos i x m g1 g2 m[j] (List.getElem_mem hj')).1
              grind
        · rw [sn.otherStart y (fun p hp => ⟨fun q => h1 (q ▸ (hunzip p hp).1), fun q => h2 (hmL p.2 (hunzip p hp).2 y (List.mem_of_mem_head? q))⟩)]
          exact (ho y h1 h2).1.symm
    have hs2 : k'.stop = e := by
      funext y
      by_cases h1 : y ∈ U
      · obtain ⟨i, hi⟩ := List.mem_iff_getElem?.mp h1
        have hi' : i < Ls.length := by rw [hlen]; exact (List.getElem?_eq_some_iff.mp hi).1
        have hm := List.getElem?_eq_getElem hi'
        generalize Ls[i] = m at hm
        have hne := hnel m (List.mem_of_getElem? hm)
        have a1 := List.head?_eq_some_head hne
        have a2 := List.getLast?_eq_some_getLast hne
        rw [(sn.stop _ (hzip i y m hi hm) _ a2).1]
        have := congrArg (fun q => q.2.1) (hup i y m hi hm)
        unfold clipUpper at this
        rw [List.head?_map, List.getLast?_map, a1, a2] at this
        exact this.symm
      · by_cases h2 : y ∈ L
        · by_cases hh : ∃ (i : Nat) (x : Ref) (m : List Ref), U[i]? = some x ∧ Ls[i]? = some m ∧ m.getLast? = some y
          · obtain ⟨i, x, m, g1, g2, g3⟩ := hh
            rw [(sn.stop _ (hzip i x m g1 g2) y g3).2]
            exact (congrArg (fun q => q.2.1) (hlow2 i x m g1 g2 y (List.mem_of_getLast? g3))).symm
          · obtain ⟨i, x, m, g1, g2, g3⟩ := hwhere y h2
            rw [sn.otherStop y (by
              intro p hp
              refine ⟨fun q => h1 (q ▸ (hunzip p hp).1), fun q => ?_⟩
              obtain ⟨j, hj⟩ := List.mem_iff_getElem?.mp hp
              obtain ⟨b1, b2⟩ := List.getElem?_zip_eq_some.mp hj
              exact hh ⟨j, p.1, p.2, b1, b2, q⟩)]
            have e1 : e y = min (k.stop x) (k.stop y) := congrArg (fun q => q.2.1) (hlow2 i x m g1 g2 y g3)
            rw [e1]
            obtain ⟨j, hj⟩ := List.mem_iff_getElem?.mp g3
            by_cases hlast : j + 1 < m.length
            · have hz := List.getElem?_eq_getElem hlast
              obtain ⟨c, d, t⟩ := hnext i m g2
              have n1 := t.next j y _ hj hz
              have n2 := (hpos i x m g1 g2 m[j + 1] (List.getElem_mem hlast)).2
              grind
            · refine absurd ⟨i, x, m, g1, g2, ?_⟩ hh
              have := (List.getElem?_eq_some_iff.mp hj).1
              rw [List.getLast?_eq_getElem?, show m.length - 1 = j by omega]
              exact hj
        · rw [sn.otherStop y (fun p hp => ⟨fun q => h1 (q ▸ (hunzip p hp).1), fun q => h2 (hmL p.2 (hunzip p hp).2 y (List.mem_of_getLast? q))⟩)]
          exact (ho y h1 h2).2.symm
    have hbp : blockPairs (k.retime s e) U L = U.zip Ls := by
      have hf := filter_parts (k.retime s e).span (U.map (k.retime s e).span) Ls (by rw [List.length_map, hlen])
        (by
          have := uppersLeft_order (parts := Ls.map (List.map k.entry)) tu
          rw [← ru, entry_spans] at this
          exact this)
        (by
          intro i x m h1 h2
          have := dv.left_tiles tu tl i x (m.map (k.retime s e).span) (by rw [← ru, entry_spans]; exact h1) (by
            rw [← hlow, List.getElem?_map, List.getElem?_map, h2]
            exact congrArg some (entry_spans _ _))
          exact this)
      rw [hfl, List.map_map] at hf
      conv => rhs; rw [← hf]
      unfold blockPairs
      rw [show U.zip (List.map ((fun u => List.filter (fun x => decide (InsideS u ((k.retime s e).span x))) L) ∘ (k.retime s e).span) U) =
        (U.map id).zip (List.map ((fun u => List.filter (fun x => decide (InsideS u ((k.retime s e).span x))) L) ∘ (k.retime s e).span) U)
        by rw [List.map_id], List.zip_map']
      rfl
    rw [q1]
    congr 1
    rw [show (k.retime s e).tseq = k.tseq from rfl, hU, hL, hbp, relatedAll_retime, sn.exact, hs1, hs2]

end ATG
