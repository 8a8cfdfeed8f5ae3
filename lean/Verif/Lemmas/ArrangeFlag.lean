import Verif.Lemmas.Arrange
import Verif.Spec.Group
/-!
# When a group is what its tiers are within
-/
namespace ATG

theorem ToBottom.congr {h h' : Heap} {ts : List TRef} (hct : h'.ct = h.ct) (ht : ∀ t ∈ ts, h'.tsub t = h.tsub t) :
    ToBottom h' ts ↔ ToBottom h ts := by
  unfold ToBottom
  rw [hct]
  constructor
  · intro q t e
    rw [← ht t (List.mem_of_getLast? e)]; exact q t e
  · intro q t e
    rw [ht t (List.mem_of_getLast? e)]; exact q t e

theorem arrangeDown_flag {h : Heap} {tiers : List TRef} : ∀ (n : Nat) (cur : TRef) (l : List TRef) (b : Bool),
    arrangeDown h tiers n cur = .ok (l, b) → ∀ t c, l.getLast? = some t → h.tsub t = some c →
      b = h.ct.isSub c cBottom := by
  intro n
  induction n with
  | zero => intro cur l b e; unfold arrangeDown at e; cases e
  | succ n ih =>
    intro cur l b e t c ht hc
    unfold arrangeDown at e
    cases hs : h.tsub cur with
    | none => rw [hs] at e; cases e
    | some d =>
      rw [hs] at e
      simp only at e
      by_cases hb : h.ct.isSub d cBottom = true
      · rw [if_pos hb] at e
        cases e
        have : cur = t := by simpa using ht
        subst this
        rw [hs] at hc
        cases hc
        exact hb.symm
      · rw [if_neg hb] at e
        cases hf : tiers.find? (fun t => h.tcls t == d) with
        | none =>
          rw [hf] at e
          cases e
          have : cur = t := by simpa using ht
          subst this
          rw [hs] at hc
          cases hc
          simpa using hb
        | some u =>
          rw [hf] at e
          simp only at e
          cases hr : arrangeDown h tiers n u with
          | error x => rw [hr] at e; cases e
          | ok p =>
            obtain ⟨l', b'⟩ := p
            rw [hr] at e
            cases e
            refine ih u l' b hr t c ?_ hc
            cases l' with
            | nil =>
              exfalso
              cases n with
              | zero => unfold arrangeDown at hr; cases hr
              | succ n =>
                unfold arrangeDown at hr
                cases h1 : h.tsub u with
                | none => rw [h1] at hr; cases hr
                | some d' =>
                  rw [h1] at hr
                  simp only at hr
                  by_cases hb' : h.ct.isSub d' cBottom = true
                  · rw [if_pos hb'] at hr; cases hr
                  · rw [if_neg hb'] at hr
                    cases h2 : tiers.find? (fun t => h.tcls t == d') with
                    | none => rw [h2] at hr; cases hr
                    | some w =>
                      rw [h2] at hr
                      simp only at hr
                      cases h3 : arrangeDown h tiers n w with
                      | error x => rw [h3] at hr; cases hr
                      | ok q => rw [h3] at hr; cases hr
            | cons y ys => rw [← ht, List.getLast?_cons_cons]

theorem arrange_flag {h : Heap} {tiers l : List TRef} {b : Bool} (e : arrange h tiers = .ok (l, b)) {t : TRef} {c : CRef}
    (ht : l.getLast? = some t) (hc : h.tsub t = some c) : b = h.ct.isSub c cBottom := by
  unfold arrange at e
  cases tiers with
  | nil => cases e
  | cons t0 rest =>
    simp only at e
    cases hu : arrangeUp h (t0 :: rest) ((t0 :: rest).length + 1) t0 with
    | error x => rw [hu] at e; cases e
    | ok top =>
      rw [hu] at e
      exact arrangeDown_flag _ _ _ _ e t c ht hc


theorem arrange_toBottom {h : Heap} {tiers ts : List TRef} {b : Bool} (ch : ClassChain h ts) (hne : ts ≠ [])
    (e : arrange h tiers = .ok (ts, b)) : b = true ↔ ToBottom h ts := by
  obtain ⟨t, ht⟩ : ∃ t, ts.getLast? = some t := by
    cases hl : ts.getLast? with
    | none => exact absurd (List.getLast?_eq_none_iff.mp hl) hne
    | some t => exact ⟨t, rfl⟩
  obtain ⟨c, hc, -⟩ := ch.bottom t (by rw [← List.getLast?_eq_getElem?]; exact ht)
  rw [arrange_flag e ht hc]
  constructor
  · intro q u hu
    rw [ht] at hu
    cases hu
    exact ⟨c, hc, q⟩
  · intro q
    obtain ⟨d, hd, hb⟩ := q t ht
    rw [hc] at hd
    cases hd
    exact hb

/-- Each tier of a group that does not reach down to `Bottom` has a class that is not right above `Bottom`. -/
theorem ClassChain.above {h : Heap} {ts : List TRef} (ch : ClassChain h ts) (hlow : ¬ ToBottom h ts) :
    ∀ u ∈ ts, ∃ c, h.tsub u = some c ∧ h.ct.isSub c cBottom = false := by
  intro u hu
  obtain ⟨i, hi⟩ := List.mem_iff_getElem?.mp hu
  obtain ⟨hlt, -⟩ := List.getElem?_eq_some_iff.mp hi
  by_cases hl : i = ts.length - 1
  · subst hl
    obtain ⟨c, hc, -⟩ := ch.bottom u hi
    refine ⟨c, hc, ?_⟩
    cases hb : h.ct.isSub c cBottom with
    | false => rfl
    | true =>
      refine absurd (fun t ht => ?_) hlow
      rw [List.getLast?_eq_getElem?, hi] at ht
      cases ht
      exact ⟨c, hc, hb⟩
  · obtain ⟨u', hu'⟩ : ∃ u', ts[i + 1]? = some u' := ⟨_, List.getElem?_eq_getElem (by omega)⟩
    exact ⟨_, (ch.down i u u' hi hu').1, (ch.inner i u u' hi hu').2⟩

end ATG
