import Verif.Lemmas.Total
import Verif.Lemmas.SeqList
import Verif.Model.Base
/-!
# C38: export and import of a tier
-/
namespace ATG

/-- C38, import: a `SequenceTier` made from praatio triples in order of their starts lists exactly these
    triples in this order (also when labels are `"#"` or repeated), under the given name and class, and
    leaves all older entries and tiers as they were. -/
theorem C38_import (triples : List (Time × Time × String)) (c s : CRef) (name : String) (h : Heap)
    (hci : h.ct.isSub c cPoint = false) (hs : h.ct.sup c = some s)
    (hsorted : triples.Pairwise fun a b => a.1 ≤ b.1) :
    ∃ t h', newTierFrom triples c name h = .ok t h' ∧ t = h.nT ∧
      returnTier h' t = triples ∧ h'.tname t = name ∧ h'.tcls t = c ∧
      (∀ x ∈ (h'.tseq t).vals, h.nE ≤ x ∧ x < h'.nE ∧ h'.cls x = c) ∧
      (∀ r < h.nE, h'.start r = h.start r ∧ h'.stop r = h.stop r ∧ h'.label r = h.label r ∧
        h'.cls r = h.cls r ∧ h'.subs r = h.subs r ∧ h'.sup r = h.sup r) ∧
      (∀ u < h.nT, h'.tseq u = h.tseq u ∧ h'.tname u = h.tname u ∧ h'.tcls u = h.tcls u) := by
  let h1 : Heap := { h with
    nT := h.nT + 1
    tseq := upd h.tseq h.nT SL.empty
    tcont := upd h.tcont h.nT .unset
    twithin := upd h.twithin h.nT none }
  obtain ⟨rs, h2, e2, hrs, hn2, hmap, hnew, hold, hfr⟩ := newEntries_ok c triples h1
  have hct : h2.ct = h.ct := by rw [hfr]
  have hnd : rs.Nodup := by rw [hrs]; exact List.nodup_range'
  have hge : ∀ r ∈ rs, h.nE ≤ r := by
    intro r hr; rw [hrs, List.mem_range'_1] at hr; exact hr.1
  have hlt : ∀ r ∈ rs, r < h2.nE := by
    intro r hr; rw [hrs, List.mem_range'_1] at hr; rw [hn2]; exact hr.2
  obtain ⟨h3, e3, f3, hseq, htc, htn, hts, htb, hcls⟩ := tierInit_total h.nT rs c s name h2
    (by rw [hct]; exact hci) (by rw [hct]; exact hs)
    (by intro x hx; simp [Heap.isPoint, (hnew x hx).1, hct, hci]) hnd
  have hval : h3.start = h2.start ∧ h3.stop = h2.stop ∧ h3.label = h2.label ∧ h3.nE = h2.nE ∧
      h3.subs = h2.subs ∧ h3.sup = h2.sup := by
    rw [f3.1]; simp
  obtain ⟨v1, v2, v3, v4, v5, v6⟩ := hval
  have hsort : slSort h2 rs = rs := by
    apply slSort_of_sorted
    have : (rs.map fun r => (h2.start r, h2.stop r, h2.label r)).Pairwise fun a b => a.1 ≤ b.1 := by
      rw [hmap]; exact hsorted
    rw [List.pairwise_map] at this
    exact this
  rw [hsort] at hseq
  refine ⟨h.nT, h3, ?_, rfl, ?_, htn, htc, ?_, ?_, ?_⟩
  · unfold newTierFrom
    mstep (show newTierObj h = .ok h.nT h1 from rfl)
    mstep e2
    mstep e3
    rfl
  · unfold returnTier
    rw [hseq, v1, v2, v3]; exact hmap
  · intro x hx
    rw [hseq] at hx
    refine ⟨hge x hx, by rw [v4]; exact hlt x hx, ?_⟩
    rw [hcls]; simp only []; rw [if_pos hx]
  · intro r hr
    have hnm : r ∉ rs := fun hm => by have := hge r hm; omega
    obtain ⟨a1, a2, a3, a4, _, _, a7, a8, _, _, _⟩ := hold r hr
    rw [v1, v2, v3, v5, v6, hcls]
    simp only []
    rw [if_neg hnm, a1, a2, a3, a4, a7, a8]
    simp [h1]
  · intro u hu
    have hne : u ≠ h.nT := by omega
    obtain ⟨b1, b2, _, _, b5, _⟩ := f3.2 u hne
    rw [b1, b2, b5, hfr]
    simp [h1, upd, hne]

/-- C38: rebuilding a tier from what `return_tier` exports gives the same triples in the same order, and the
    tier itself is untouched. -/
theorem C38_round_trip (t : TRef) (c s : CRef) (name : String) (h : Heap) (ht : t < h.nT)
    (hci : h.ct.isSub c cPoint = false) (hs : h.ct.sup c = some s)
    (hsorted : SortedByStart h (h.tseq t).vals) (hlive : ∀ x ∈ (h.tseq t).vals, x < h.nE) :
    ∃ t' h', newTierFrom (returnTier h t) c name h = .ok t' h' ∧ t' ≠ t ∧
      returnTier h' t' = returnTier h t ∧ returnTier h' t = returnTier h t := by
  obtain ⟨t', h', e, ht', hr, _, _, _, hold, htold⟩ := C38_import (returnTier h t) c s name h hci hs (by
    unfold returnTier; rw [List.pairwise_map]; exact hsorted)
  refine ⟨t', h', e, by rw [ht']; exact Nat.ne_of_gt ht, hr, ?_⟩
  unfold returnTier
  rw [(htold t ht).1]
  apply List.map_congr_left
  intro x hx
  obtain ⟨a, b, c, _⟩ := hold x (hlive x hx)
  rw [a, b, c]

/-- C38, export: the exported triples are those of the entries, position by position. -/
theorem C38_export (h : Heap) (t : TRef) (i : Nat) (p : Time × Time × String) :
    (returnTier h t)[i]? = some p ↔
      ∃ x, (h.tseq t).vals[i]? = some x ∧ p.1 = h.start x ∧ p.2.1 = h.stop x ∧ p.2.2 = h.label x := by
  unfold returnTier
  rw [List.getElem?_map, Option.map_eq_some_iff]
  constructor
  · rintro ⟨x, hx, rfl⟩; exact ⟨x, hx, rfl, rfl, rfl⟩
  · rintro ⟨x, hx, h1, h2, h3⟩; exact ⟨x, hx, by simp [← h1, ← h2, ← h3]⟩

/-- A tier with a `"#"` label and two equal entries goes through unchanged. -/
def exRound : Heap := run0 (do
  let _ ← newTierFrom [(0, 1, "#"), (1, 2, "a"), (1, 2, "a")] cWord "words")
example : exRound.ct.isSub cWord cPoint = false ∧ (exRound.ct.sup cWord).isSome ∧
    returnTier exRound 0 = [(0, 1, "#"), (1, 2, "a"), (1, 2, "a")] ∧
    SortedByStart exRound (exRound.tseq 0).vals := by decide +kernel

end ATG
