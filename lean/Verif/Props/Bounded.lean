import Verif.Lemmas.Bounded
import Verif.Model.Base
import Verif.Model.Textgrid
/-!
# C29 for groups of any depth: appending terminates
-/
namespace ATG

/-- C29 (what holds): an append needs at most one more nested call than there are pairs of a tier of the group and an entry
    related to the appended one that is not on it, however deep the hierarchy, and whatever the times, classes and
    relations are; so it raises no `RecursionError` if that many calls may be nested. (It may raise another error.)

    `_partial`: no two of the entries have the same times and label; see `C29_diverges_violated`. -/
theorem C29_bounded_partial (n : Nat) (h : Heap) (T : List TRef) (E : List Ref) (r : Reach h T E) (d : Distinct h T E)
    (t : TRef) (x : Ref) (ht : t ∈ T) (hx : x ∈ E) (hn : (absent h T E).length < n) :
    (tierAppendN n t x h).out ≠ .error .recursionError := by
  obtain ⟨he, -⟩ := tierAppendN_bounded T E n t x h ht hx r d hn
  cases q : tierAppendN n t x h with
  | ok a h' => simp [Res.out]
  | err e h' =>
    intro p
    injection p with p
    exact he e h' q p

/-- C29: the bound in terms of the number of tiers and entries -/
theorem C29_terminates_partial (h : Heap) (T : List TRef) (E : List Ref) (r : Reach h T E) (d : Distinct h T E) (t : TRef) (x : Ref)
    (ht : t ∈ T) (hx : x ∈ E) : ∀ n, T.length * E.length < n → (tierAppendN n t x h).out ≠ .error .recursionError := by
  intro n hn
  refine C29_bounded_partial n h T E r d t x ht hx (Nat.lt_of_le_of_lt ?_ hn)
  refine Nat.le_trans (List.length_filter_le _ _) (Nat.le_of_eq ?_)
  clear r d ht hn
  induction T with
  | nil => simp
  | cons u T ih => simp [List.flatMap_cons, ih, Nat.succ_mul, Nat.add_comm]

/-- C29 (what holds): an append that returns has only added relatives of the appended entry to tiers; no entry has left a
    tier, and no time, label or relation has changed. -/
theorem C29_gains_partial (n : Nat) (h h' : Heap) (T : List TRef) (E : List Ref) (r : Reach h T E) (d : Distinct h T E)
    (t : TRef) (x : Ref) (ht : t ∈ T) (hx : x ∈ E) (hn : (absent h T E).length < n) (e : tierAppendN n t x h = .ok () h') :
    h'.start = h.start ∧ h'.stop = h.stop ∧ h'.label = h.label ∧ h'.subs = h.subs ∧ h'.sup = h.sup ∧
    (∀ u, ∀ y ∈ (h.tseq u).vals, y ∈ (h'.tseq u).vals) ∧ ∀ u, ∀ y ∈ (h'.tseq u).vals, y ∈ (h.tseq u).vals ∨ y ∈ E := by
  have g := (tierAppendN_bounded T E n t x h ht hx r d hn).2 h' e
  exact ⟨g.start, g.stop, g.label, g.subs, g.sup, g.keep, g.new⟩

/-! ## The outcome does not depend on the recursion limit -/

/-- the same outcome, unless the first runs into the recursion limit -/
def Within {α} (m m' : M α) : Prop := ∀ h, m h = m' h ∨ ∃ h', m h = .err .recursionError h'

namespace Within
theorem refl {α} (m : M α) : Within m m := fun _ => .inl rfl
theorem bind {α β} {m m' : M α} {f f' : α → M β} (hm : Within m m') (hf : ∀ a, Within (f a) (f' a)) : Within (m >>= f) (m' >>= f') := by
  intro h
  rw [M.bind_apply, M.bind_apply]
  rcases hm h with e | ⟨h', e⟩
  · rw [e]
    cases m' h with
    | ok a h1 => exact hf a h1
    | err er h1 => exact .inl rfl
  · rw [e]
    exact .inr ⟨h', rfl⟩
theorem forL {α} {f f' : α → M Unit} (hf : ∀ a, Within (f a) (f' a)) : ∀ l, Within (M.forL l f) (M.forL l f')
  | [] => refl _
  | a :: l => bind (hf a) fun _ => forL hf l
theorem ite {α} {c : Prop} [Decidable c] {a b a' b' : M α} (ha : Within a a') (hb : Within b b') :
    Within (if c then a else b) (if c then a' else b') := by split <;> assumption
end Within

theorem tierAppendN_within : ∀ (n : Nat) (t : TRef) (x : Ref), Within (tierAppendN n t x) (tierAppendN (n + 1) t x)
  | 0, _, _ => fun h => .inr ⟨h, rfl⟩
  | n + 1, t, x => by
    have ih := tierAppendN_within n
    rw [tierAppendN, tierAppendN.eq_2 t x (n + 1)]
    refine .bind (.refl _) fun h => .ite (.ite (.refl _) (.bind (.refl _) fun _ => .bind (.refl _) fun _ => .bind (.refl _) fun h2 =>
      .bind (.ite ?_ (.refl _)) fun _ => .bind (.refl _) fun h3 => ?_)) (.refl _)
    · cases withinTruthy h2 t with
      | none => exact .refl _
      | some g => exact .forL (fun y => .bind (.refl _) fun u => ih u y) _
    · cases h3.sup x with
      | none => exact .refl _
      | some s =>
        refine .ite ?_ (.refl _)
        cases withinTruthy h3 t with
        | none => exact .refl _
        | some g => exact .bind (.refl _) fun u => ih u s

/-- C29: a higher recursion limit changes nothing but `RecursionError`. -/
theorem C29_limit (n m : Nat) (hnm : n ≤ m) (t : TRef) (x : Ref) (h : Heap)
    (hn : (tierAppendN n t x h).out ≠ .error .recursionError) : tierAppendN m t x h = tierAppendN n t x h := by
  induction m with
  | zero => rw [Nat.le_zero.mp hnm]
  | succ m ih =>
    by_cases q : n = m + 1
    · rw [q]
    · have im := ih (by omega)
      rcases tierAppendN_within m t x h with e | ⟨h', e⟩
      · rw [← e, im]
      · rw [im] at e
        rw [e] at hn
        exact absurd rfl hn

/-- three tiers, and a phrase with its words and phones to be appended -/
def exThreeDeep : Heap := run0 (do
  let cs ← liftC fun ct => customClasses ct ["A", "B", "C"] []
  let a := cs.getD 0 0
  let b := cs.getD 1 0
  let c := cs.getD 2 0
  let t ← newTierFrom [(0, 4, "p")] a "A"
  let u ← newTierFrom [(0, 2, "v"), (2, 4, "w")] b "B"
  let v ← newTierFrom [(0, 1, "i"), (1, 2, "j"), (2, 4, "k")] c "C"
  let _ ← newGroup [t, u, v]
  let x ← newEntry a 4 8 "q"
  let y ← newEntry b 4 6 "x"
  let z ← newEntry b 6 8 "y"
  let i ← newEntry c 4 5 "l"
  let j ← newEntry c 5 6 "m"
  setSubsetList y [i, j]
  setSubsetList x [y, z])

/-- the hypotheses are met; the word `x` is appended to the second tier, which brings the phrase, the other word and the
    phones; `T.length * E.length` is 15 -/
theorem exThreeDeep_reach : Reach exThreeDeep [0, 1, 2] [6, 7, 8, 9, 10] ∧ Distinct exThreeDeep [0, 1, 2] [6, 7, 8, 9, 10] ∧
    (absent exThreeDeep [0, 1, 2] [6, 7, 8, 9, 10]).length = 15 ∧
    (tierAppendN 16 1 7 exThreeDeep).out = .ok () ∧
    ([0, 1, 2].map fun t => ((tierAppendN 16 1 7 exThreeDeep).heap.tseq t).vals) = [[0, 6], [1, 2, 7, 8], [3, 4, 5, 9, 10]] := by
  have hs : ∀ x ∈ ([6, 7, 8, 9, 10] : List Ref), ∀ y ∈ (exThreeDeep.sup x).toList, y ∈ ([6, 7, 8, 9, 10] : List Ref) := by decide +kernel
  have ht : ∀ t ∈ ([0, 1, 2] : List TRef), ∀ g ∈ (exThreeDeep.twithin t).toList, ∀ u ∈ exThreeDeep.gtiers g, u ∈ ([0, 1, 2] : List TRef) := by
    decide +kernel
  refine ⟨⟨by decide +kernel, fun x hx y hy => hs x hx y (by rw [hy]; simp), fun t h1 g hg => ht t h1 g (by rw [hg]; simp)⟩,
    ⟨by decide +kernel, by decide +kernel⟩, by decide +kernel, by decide +kernel, by decide +kernel⟩

end ATG
