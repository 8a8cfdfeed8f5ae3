import Verif.Lemmas.Snap
import Verif.Spec.Mismatch
/-!
# Relating two tiers whose boundaries do not match: the whole pair
-/
namespace ATG

theorem Tiles.sortedSpans {h : Heap} {l : List Ref} {a b : Time} (t : Tiles h l a b) :
    SortedSpans (l.map fun x => (h.start x, h.stop x)) := by
  unfold SortedSpans
  rw [List.pairwise_map]
  have hp := t.sorted
  rw [List.pairwise_iff_getElem] at hp ⊢
  intro i j hi hj hij
  have h1 := hp i j hi hj hij
  have h2 := (t.mem l[i] (List.getElem_mem hi)).2.1
  have h3 := (t.mem l[j] (List.getElem_mem hj)).2.1
  constructor <;> grind

theorem mismatch_iff (h : Heap) (upper lower : List Ref) (hne : upper ≠ []) :
    anyMismatch (upper.map fun u => (h.start u, h.stop u)) (lower.map fun x => (h.start x, h.stop x)) = true ↔
    ∃ x ∈ lower, ∀ u ∈ upper, ¬ Inside h u x := by
  unfold anyMismatch
  rw [List.any_eq_true]
  constructor
  · rintro ⟨l, hl, hm⟩
    obtain ⟨x, hx, rfl⟩ := List.mem_map.mp hl
    refine ⟨x, hx, ?_⟩
    intro u hu hi
    cases e : maxL ((upper.map fun u => (h.start u, h.stop u)).map (overlap (h.start x, h.stop x))) with
    | none => rw [e] at hm; simp at hm
    | some m =>
      rw [e] at hm
      have h1 := ((maxL_iff _ _).mp e).2 (overlap (h.start x, h.stop x) (h.start u, h.stop u))
        (List.mem_map.mpr ⟨_, List.mem_map.mpr ⟨u, hu, rfl⟩, rfl⟩)
      have hself : overlap (h.start x, h.stop x) (h.start u, h.stop u) = h.stop x - h.start x := by
        unfold overlap Inside at *; simp only; grind
      simp only [decide_eq_true_eq] at hm; grind
  · rintro ⟨x, hx, hn⟩
    refine ⟨_, List.mem_map.mpr ⟨x, hx, rfl⟩, ?_⟩
    cases e : maxL ((upper.map fun u => (h.start u, h.stop u)).map (overlap (h.start x, h.stop x))) with
    | none =>
      cases upper with
      | nil => exact absurd rfl hne
      | cons u us => simp [maxL] at e
    | some m =>
      have h1 := ((maxL_iff _ _).mp e).1
      rw [List.map_map, List.mem_map] at h1
      obtain ⟨u, hu, rfl⟩ := h1
      have := hn u hu
      unfold Inside at this
      simp only [Function.comp_apply, decide_eq_true_eq]
      unfold overlap
      simp only
      grind

/-- the slices handed to the upper intervals -/
theorem Mismatched.slices {h : Heap} {upper lower : List Ref} (mm : Mismatched h upper lower)
    (hu : upper.Nodup) (hne : upper ≠ []) :
    ∃ L : List (List Ref),
      slices (containers (upper.map fun u => (h.start u, h.stop u)) (lower.map fun x => (h.start x, h.stop x)))
        lower upper.length = L ∧
      L.flatten = lower ∧ L.length = upper.length ∧ (∀ l ∈ L, l ≠ []) ∧
      ∀ (k : Nat) u l, upper[k]? = some u → L[k]? = some l → ∀ x ∈ l, ∀ v ∈ upper,
        shared (h.start x, h.stop x) (h.start v, h.stop v) ≤ shared (h.start x, h.stop x) (h.start u, h.stop u) := by
  obtain ⟨a, b, tl⟩ := mm.tiled
  have hp := C23_partition (upper.map fun u => (h.start u, h.stop u)) (lower.map fun x => (h.start x, h.stop x))
    lower (by simpa using hne) mm.order tl.sortedSpans (by simp)
  have hg := C23_greatest (upper.map fun u => (h.start u, h.stop u)) (lower.map fun x => (h.start x, h.stop x))
    (by simpa using hne)
  have hlen : (upper.map fun u => (h.start u, h.stop u)).length = upper.length := by simp
  rw [hlen] at hp
  generalize hc : containers (upper.map fun u => (h.start u, h.stop u)) (lower.map fun x => (h.start x, h.stop x)) = asg at *
  obtain ⟨h1, h2, h3⟩ := hp
  refine ⟨_, rfl, h1, h2, ?_, ?_⟩
  · intro l hl hnil
    obtain ⟨k, hk, e⟩ := List.mem_iff_getElem.mp hl
    have hk' : k < upper.length := by omega
    have e1 := h3 k hk'
    rw [List.getElem?_eq_getElem hk, e, hnil] at e1
    obtain ⟨x, hx, ho⟩ := mm.owns upper[k] (List.getElem_mem hk')
    obtain ⟨i, hi, ei⟩ := List.mem_iff_getElem.mp hx
    obtain ⟨k', s', g1, g2, g3, g4⟩ := hg i (h.start x, h.stop x) (by
      rw [List.getElem?_map, List.getElem?_eq_getElem hi, ei]; rfl)
    rw [List.getElem?_map] at g2
    cases hu' : upper[k']? with
    | none => simp [hu'] at g2
    | some u' =>
      simp only [hu', Option.map_some, Option.some.injEq] at g2
      have hk2 : k' < upper.length := (List.getElem?_eq_some_iff.mp hu').1
      have he2 : upper[k'] = u' := (List.getElem?_eq_some_iff.mp hu').2
      have hsame : u' = upper[k] := by
        apply Classical.byContradiction
        intro hn
        have q1 := ho u' (List.mem_of_getElem? hu') hn
        have q2 := g3 (h.start upper[k], h.stop upper[k]) (List.mem_map.mpr ⟨_, List.getElem_mem hk', rfl⟩)
        rw [← g2] at q2
        grind
      have hkk : k' = k := (List.getElem_inj hu).mp (he2.trans hsame)
      subst hkk
      have hmem : x ∈ List.map (fun x => x.1) (List.filter (fun p => p.2 == k') (lower.zip asg)) := by
        refine List.mem_map.mpr ⟨(x, k'), List.mem_filter.mpr ⟨?_, by simp⟩, rfl⟩
        have hi2 : i < asg.length := (List.getElem?_eq_some_iff.mp g1).1
        have : (lower.zip asg)[i]'(by simp; omega) = (x, k') := by
          rw [List.getElem_zip, ei, (List.getElem?_eq_some_iff.mp g1).2]
        rw [← this]
        exact List.getElem_mem _
      rw [← Option.some.inj e1] at hmem
      simp at hmem
  · intro k u l hk hl x hx v hv
    have hk' : k < upper.length := (List.getElem?_eq_some_iff.mp hk).1
    rw [h3 k hk'] at hl
    rw [← Option.some.inj hl] at hx
    obtain ⟨⟨y, j⟩, hy, rfl⟩ := List.mem_map.mp hx
    obtain ⟨hz, hj⟩ := List.mem_filter.mp hy
    have hj : j = k := by simpa using hj
    subst hj
    obtain ⟨i, hi, e⟩ := List.mem_iff_getElem.mp hz
    rw [List.getElem_zip] at e
    have hil : i < lower.length := by simp at hi; omega
    have hia : i < asg.length := by simp at hi; omega
    have e1 : lower[i] = y := congrArg Prod.fst e
    have e2 : asg[i] = j := congrArg Prod.snd e
    obtain ⟨k', s', g1, g2, g3, g4⟩ := hg i (h.start y, h.stop y) (by
      rw [List.getElem?_map, List.getElem?_eq_getElem hil, e1]; rfl)
    rw [List.getElem?_eq_getElem hia, e2] at g1
    cases g1
    rw [List.getElem?_map, hk] at g2
    have g2 : (h.start u, h.stop u) = s' := by simpa using g2
    rw [g2]
    exact g3 _ (List.mem_map.mpr ⟨v, hv, rfl⟩)

theorem zip_eq_map_snd {α β γ} (f : β → γ) : ∀ (l : List α) (m : List β),
    l.zip (m.map f) = (l.zip m).map fun p => (p.1, f p.2)
  | [], _ => by simp
  | _ :: _, [] => by simp
  | a :: l, b :: m => by simp [zip_eq_map_snd f l m]

/-- with the parts themselves -/
theorem relatePair_slices (upper lower : TRef) (h : Heap) (d : CRef)
    (mm : Mismatched h (h.tseq upper).vals (h.tseq lower).vals)
    (hnu : (h.tseq upper).vals.Nodup) (hnl : (h.tseq lower).vals.Nodup)
    (hul : ∀ u ∈ (h.tseq upper).vals, u ∉ (h.tseq lower).vals)
    (hs : ∀ x ∈ (h.tseq lower).vals, h.sup x = none)
    (hlab : ∀ x ∈ (h.tseq lower).vals, h.label x ≠ "#")
    (hc : ∀ x ∈ (h.tseq lower).vals, h.cls x = d)
    (hsub : ∀ u ∈ (h.tseq upper).vals, h.ct.sub (h.cls u) = some d) (hne : (h.tseq upper).vals ≠ []) :
    ∃ h' L, relatePair upper lower false h = .ok () h' ∧ Snaps h h' ((h.tseq upper).vals.zip L) ∧
      slices (containers ((h.tseq upper).vals.map fun u => (h.start u, h.stop u))
        ((h.tseq lower).vals.map fun x => (h.start x, h.stop x))) (h.tseq lower).vals (h.tseq upper).vals.length = L ∧
      L.flatten = (h.tseq lower).vals ∧ L.length = (h.tseq upper).vals.length ∧ (∀ l ∈ L, l ≠ []) ∧
      ∀ (k : Nat) u l, (h.tseq upper).vals[k]? = some u → L[k]? = some l → ∀ x ∈ l,
        ∀ v ∈ (h.tseq upper).vals,
        shared (h.start x, h.stop x) (h.start v, h.stop v) ≤ shared (h.start x, h.stop x) (h.start u, h.stop u) := by
  obtain ⟨L, hL, hfl, hlen, hnel, hmax⟩ := mm.slices hnu hne
  obtain ⟨a, b, tl⟩ := mm.tiled
  have hlt : ∀ l ∈ L, ∃ c d, Tiles h l c d := by
    intro l hl
    rw [← hfl] at tl
    exact tl.part l hl (hnel l hl)
  have hin : ∀ l ∈ L, ∀ x ∈ l, x ∈ (h.tseq lower).vals := by
    intro l hl x hx
    rw [← hfl]; exact List.mem_flatten.mpr ⟨l, hl, hx⟩
  have hzl : ∀ p ∈ (h.tseq upper).vals.zip L, p.1 ∈ (h.tseq upper).vals ∧ p.2 ∈ L := fun p hp => List.of_mem_zip hp
  have m1 : ((h.tseq upper).vals.zip L).map (·.1) = (h.tseq upper).vals := List.map_fst_zip (by omega)
  have m2 : ((h.tseq upper).vals.zip L).map (·.2) = L := List.map_snd_zip (by omega)
  have key := fun sq => forL_snap sq lower d ((h.tseq upper).vals.zip L) h (by rw [m1]; exact hnu)
    (by rw [m2, hfl]; exact hnl)
    (by
      intro p hp q hq hx
      exact hul p.1 (hzl p hp).1 (hin q.2 (hzl q hq).2 p.1 hx))
    (by intro p hp; exact hlt p.2 (hzl p hp).2)
    (by intro p hp; exact hsub p.1 (hzl p hp).1)
    (by
      intro p hp x hx
      have := hin p.2 (hzl p hp).2 x hx
      exact ⟨hs x this, hlab x this, hc x this⟩)
  have hlne : (h.tseq lower).vals ≠ [] := tl.ne
  let sq := !allcloseL ((h.tspans upper).map fun p => p.2 - p.1)
    ((L.map fun l => (⟨l, headCls h l⟩ : SL)).map fun s => totalDur h s.vals)
  obtain ⟨h', e, sn⟩ := key sq
  refine ⟨h', L, ?_, sn, hL, hfl, hlen, hnel, hmax⟩
  unfold relatePair
  mstep M.get_apply h
  rw [if_neg (by simp [Heap.tspans, hne, hlne])]
  have hlen' : (h.tspans upper).length = (h.tseq upper).vals.length := by simp [Heap.tspans]
  simp only [hlen']
  rw [show containers (h.tspans upper) (h.tspans lower) = containers
    ((h.tseq upper).vals.map fun u => (h.start u, h.stop u)) ((h.tseq lower).vals.map fun x => (h.start x, h.stop x)) from rfl, hL]
  rw [show anyMismatch (h.tspans upper) (h.tspans lower) = true from
    (mismatch_iff h _ _ hne).mpr mm.crosses]
  mstep mkSlices_ok h L (fun l hl => by obtain ⟨c, d, t⟩ := hlt l hl; exact t.byStart)
    (by intro l hl x hx y hy; rw [hc x (hin l hl x hx), hc y (hin l hl y hy)])
  mstep closeAllGaps_ok h _ (by
    intro s hs'
    obtain ⟨l, hl', rfl⟩ := List.mem_map.mp hs'
    obtain ⟨c, d, t⟩ := hlt l hl'
    exact t.noGap)
  mstep M.get_apply h
  rw [zip_eq_map_snd]
  exact e

theorem relatePair_snap (upper lower : TRef) (h : Heap) (d : CRef)
    (mm : Mismatched h (h.tseq upper).vals (h.tseq lower).vals)
    (hnu : (h.tseq upper).vals.Nodup) (hnl : (h.tseq lower).vals.Nodup)
    (hul : ∀ u ∈ (h.tseq upper).vals, u ∉ (h.tseq lower).vals)
    (hs : ∀ x ∈ (h.tseq lower).vals, h.sup x = none)
    (hlab : ∀ x ∈ (h.tseq lower).vals, h.label x ≠ "#")
    (hc : ∀ x ∈ (h.tseq lower).vals, h.cls x = d)
    (hsub : ∀ u ∈ (h.tseq upper).vals, h.ct.sub (h.cls u) = some d) (hne : (h.tseq upper).vals ≠ []) :
    ∃ h' L, relatePair upper lower false h = .ok () h' ∧ Snaps h h' ((h.tseq upper).vals.zip L) ∧
      L.flatten = (h.tseq lower).vals ∧ L.length = (h.tseq upper).vals.length ∧ (∀ l ∈ L, l ≠ []) ∧
      ∀ (k : Nat) u l, (h.tseq upper).vals[k]? = some u → L[k]? = some l → ∀ x ∈ l,
        ∀ v ∈ (h.tseq upper).vals,
        shared (h.start x, h.stop x) (h.start v, h.stop v) ≤ shared (h.start x, h.stop x) (h.start u, h.stop u) := by
  obtain ⟨h', L, q1, q2, -, q3⟩ := relatePair_slices upper lower h d mm hnu hnl hul hs hlab hc hsub hne
  exact ⟨h', L, q1, q2, q3⟩

end ATG
