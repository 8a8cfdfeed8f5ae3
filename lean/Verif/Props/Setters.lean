import Verif.Model.Base
import Verif.Lemmas.Frame
/-!
# C63: assigning the times of a tier (`sequences/tiers.py:195-213`)
-/
namespace ATG

theorem forL_assignStart (ps : List (Time × Ref)) : ∀ (h : Heap), (ps.map (·.2)).Nodup →
    ∃ f, M.forL ps (fun p => setStart p.2 p.1) h = .ok () { h with start := f } ∧
      (∀ p ∈ ps, f p.2 = p.1) ∧ ∀ x, x ∉ ps.map (·.2) → f x = h.start x := by
  induction ps with
  | nil => intro h _; exact ⟨h.start, rfl, by simp, fun _ _ => rfl⟩
  | cons p ps ih =>
    intro h hnd
    rw [List.map_cons, List.nodup_cons] at hnd
    obtain ⟨f, e, h1, h2⟩ := ih { h with start := upd h.start p.2 p.1 } hnd.2
    refine ⟨f, ?_, ?_, ?_⟩
    · rw [M.forL_cons]
      exact e
    · intro q hq
      rcases List.mem_cons.mp hq with rfl | hq
      · rw [h2 _ hnd.1]; exact upd_same _ _ _
      · exact h1 q hq
    · intro x hx
      rw [List.map_cons, List.mem_cons, not_or] at hx
      rw [h2 x hx.2]; exact upd_ne _ _ _ _ hx.1

theorem forL_assignStop (ps : List (Time × Ref)) : ∀ (h : Heap), (ps.map (·.2)).Nodup →
    ∃ f, M.forL ps (fun p => setStop p.2 p.1) h = .ok () { h with stop := f } ∧
      (∀ p ∈ ps, f p.2 = p.1) ∧ ∀ x, x ∉ ps.map (·.2) → f x = h.stop x := by
  induction ps with
  | nil => intro h _; exact ⟨h.stop, rfl, by simp, fun _ _ => rfl⟩
  | cons p ps ih =>
    intro h hnd
    rw [List.map_cons, List.nodup_cons] at hnd
    obtain ⟨f, e, h1, h2⟩ := ih { h with stop := upd h.stop p.2 p.1 } hnd.2
    refine ⟨f, ?_, ?_, ?_⟩
    · rw [M.forL_cons]
      exact e
    · intro q hq
      rcases List.mem_cons.mp hq with rfl | hq
      · rw [h2 _ hnd.1]; exact upd_same _ _ _
      · exact h1 q hq
    · intro x hx
      rw [List.map_cons, List.mem_cons, not_or] at hx
      rw [h2 x hx.2]; exact upd_ne _ _ _ _ hx.1

theorem map_of_zip {f : Ref → Time} : ∀ (l : List Ref) (times : List Time), l.length = times.length →
    (∀ p ∈ times.zip l, f p.2 = p.1) → l.map f = times
  | [], [], _, _ => rfl
  | x :: l, t :: times, hl, hf => by
    rw [List.map_cons, hf (t, x) (by simp), map_of_zip l times (by simpa using hl)
      fun p hp => hf p (by simp [hp])]

/-- C63: assigning as many times as there are entries makes exactly these the starts, in the order of the
    tier, and changes nothing else. -/
theorem C63_starts (h : Heap) (t : TRef) (times : List Time) (hnd : (h.tseq t).vals.Nodup)
    (hl : times.length = (h.tseq t).vals.length) :
    ∃ f, setStarts t times h = .ok () { h with start := f } ∧ (h.tseq t).vals.map f = times ∧
      ∀ x, x ∉ (h.tseq t).vals → f x = h.start x := by
  have hz : (times.zip (h.tseq t).vals).map (·.2) = (h.tseq t).vals := List.map_snd_zip (by omega)
  obtain ⟨f, e, h1, h2⟩ := forL_assignStart (times.zip (h.tseq t).vals) h (by rw [hz]; exact hnd)
  rw [hz] at h2
  refine ⟨f, ?_, map_of_zip _ _ hl.symm h1, h2⟩
  unfold setStarts
  refine Eq.trans (M.bind_ok (M.get_apply h)) ?_
  rw [if_pos hl.symm]
  exact e

/-- C63 for the ends -/
theorem C63_ends (h : Heap) (t : TRef) (times : List Time) (hnd : (h.tseq t).vals.Nodup)
    (hl : times.length = (h.tseq t).vals.length) :
    ∃ f, setEnds t times h = .ok () { h with stop := f } ∧ (h.tseq t).vals.map f = times ∧
      ∀ x, x ∉ (h.tseq t).vals → f x = h.stop x := by
  have hz : (times.zip (h.tseq t).vals).map (·.2) = (h.tseq t).vals := List.map_snd_zip (by omega)
  obtain ⟨f, e, h1, h2⟩ := forL_assignStop (times.zip (h.tseq t).vals) h (by rw [hz]; exact hnd)
  rw [hz] at h2
  refine ⟨f, ?_, map_of_zip _ _ hl.symm h1, h2⟩
  unfold setEnds
  refine Eq.trans (M.bind_ok (M.get_apply h)) ?_
  rw [if_pos hl.symm]
  exact e

/-- C63: a different number of times is refused and changes nothing. -/
theorem C63_length (h : Heap) (t : TRef) (times : List Time) (hl : times.length ≠ (h.tseq t).vals.length) :
    setStarts t times h = .err .exc h ∧ setEnds t times h = .err .exc h := by
  constructor
  · unfold setStarts
    refine Eq.trans (M.bind_ok (M.get_apply h)) ?_
    rw [if_neg fun e => hl e.symm]
    rfl
  · unfold setEnds
    refine Eq.trans (M.bind_ok (M.get_apply h)) ?_
    rw [if_neg fun e => hl e.symm]
    rfl

/-- two words -/
def exTwoWords : Heap := run0 (do
  let _ ← newTierFrom [(0, 1, "a"), (1, 2, "b")] cWord "Word")

example : (exTwoWords.tseq 0).vals.Nodup ∧ (setStarts 0 [1/2, 1] exTwoWords).heap.tstarts 0 = [1/2, 1] ∧
    (setStarts 0 [1/2] exTwoWords).out = .error .exc := by decide +kernel

/-- Nothing is checked or sorted: with its starts exchanged the tier is out of order, the first word is still
    linked to precede the second although it starts later, and it has no duration. -/
theorem C63_order_violated :
    let h := (setStarts 0 [1, 0] exTwoWords).heap
    (h.tseq 0).vals = [0, 1] ∧ h.tstarts 0 = [1, 0] ∧ h.fol 0 = some (.obj 1) ∧ h.start 0 = h.stop 0 := by
  decide +kernel

end ATG
