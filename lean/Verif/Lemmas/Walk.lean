import Verif.Lemmas.Arrange
/-!
# The searches of `_arrange_tiers` stop within as many steps as there are tiers, or never
-/
namespace ATG

/-- `n` steps of `next` can be made from `s` -/
def walk (next : TRef → Option TRef) : Nat → TRef → Bool
  | 0, _ => true
  | n + 1, s => match next s with
    | none => false
    | some t => walk next n t

theorem walk_down (next : TRef → Option TRef) (n : Nat) : ∀ s, walk next (n + 1) s = true → walk next n s = true := by
  induction n with
  | zero => intro s _; rfl
  | succ n ih =>
    intro s hw
    unfold walk at hw ⊢
    cases hn : next s with
    | none => rw [hn] at hw; simp at hw
    | some t => rw [hn] at hw; exact ih t hw

theorem walk_le (next : TRef → Option TRef) (m n : Nat) (hmn : m ≤ n) (s : TRef) (h : walk next n s = true) :
    walk next m s = true := by
  induction hmn with
  | refl => exact h
  | step _ ih => exact ih (walk_down next _ s h)

theorem walk_stable (next : TRef → Option TRef) (l : List TRef) (hl : ∀ s t, next s = some t → t ∈ l) (k : Nat)
    (hk : ∀ s ∈ l, walk next (k + 1) s = walk next k s) : ∀ d, ∀ s ∈ l, walk next (k + d) s = walk next k s := by
  intro d
  induction d with
  | zero => intro s _; rfl
  | succ d ih =>
    intro s hs
    rw [← hk s hs]
    show walk next (k + d + 1) s = walk next (k + 1) s
    unfold walk
    cases hn : next s with
    | none => rfl
    | some t => exact ih t (hl s t hn)

theorem filter_lt_of_imp {α} (p q : α → Bool) (l : List α) (h : ∀ x ∈ l, p x = true → q x = true)
    (hx : ∃ x ∈ l, p x = false ∧ q x = true) : (l.filter p).length < (l.filter q).length := by
  induction l with
  | nil => simp at hx
  | cons a l ih =>
    have hle : (l.filter p).length ≤ (l.filter q).length := by
      have : ∀ m : List α, (∀ x ∈ m, p x = true → q x = true) → (m.filter p).length ≤ (m.filter q).length := by
        intro m
        induction m with
        | nil => simp
        | cons b m ihm =>
          intro hm
          have := ihm (fun x hx => hm x (by simp [hx]))
          have hb := hm b (by simp)
          rw [List.filter_cons, List.filter_cons]
          split <;> split <;> simp_all <;> omega
      exact this l fun x hx => h x (by simp [hx])
    have ha := h a (by simp)
    rw [List.filter_cons, List.filter_cons]
    obtain ⟨x, hxm, h1, h2⟩ := hx
    rcases List.mem_cons.mp hxm with hxm | hxm
    · subst hxm; simp [h1, h2]; omega
    · have := ih (fun x hx => h x (by simp [hx])) ⟨x, hxm, h1, h2⟩
      split <;> split <;> simp_all <;> omega

/-- more steps than there are tiers: endless -/
theorem walk_forever (next : TRef → Option TRef) (l : List TRef) (hl : ∀ s t, next s = some t → t ∈ l)
    (s : TRef) (hs : s ∈ l) (hw : walk next (l.length + 1) s = true) : ∀ n, walk next n s = true := by
  have hstab : ∃ k, k ≤ l.length ∧ ∀ s ∈ l, walk next (k + 1) s = walk next k s := by
    apply Decidable.byContradiction
    intro hno
    have hcnt : ∀ k, k ≤ l.length + 1 → (l.filter (walk next k)).length + k ≤ l.length := by
      intro k
      induction k with
      | zero => intro _; simp; exact List.length_filter_le _ _
      | succ k ih =>
        intro hk
        have h1 := ih (by omega)
        have : ∃ x ∈ l, walk next (k + 1) x = false ∧ walk next k x = true := by
          apply Decidable.byContradiction
          intro hne
          refine hno ⟨k, by omega, ?_⟩
          intro x hx
          cases h2 : walk next (k + 1) x with
          | true => exact (walk_down next k x h2).symm
          | false =>
            cases h3 : walk next k x with
            | true => exact absurd ⟨x, hx, h2, h3⟩ hne
            | false => rfl
        have := filter_lt_of_imp (walk next (k + 1)) (walk next k) l (fun x _ => walk_down next k x) this
        omega
    have := hcnt (l.length + 1) (by omega)
    omega
  obtain ⟨k, hk, hst⟩ := hstab
  intro n
  have hkw : walk next k s = true := walk_le next k (l.length + 1) (by omega) s hw
  by_cases hn : n ≤ k
  · exact walk_le next n k hn s hkw
  · have : n = k + (n - k) := by omega
    rw [this, walk_stable next l hl k hst _ s hs]; exact hkw

/-- one step of the first search -/
def nextUp (h : Heap) (tiers : List TRef) (s : TRef) : Option TRef :=
  match h.tsup s with
  | none => none
  | some c => if h.ct.isSub c cTop then none else tiers.find? (fun t => h.tcls t == c)

/-- one step of the second search -/
def nextDown (h : Heap) (tiers : List TRef) (s : TRef) : Option TRef :=
  match h.tsub s with
  | none => none
  | some c => if h.ct.isSub c cBottom then none else tiers.find? (fun t => h.tcls t == c)

theorem nextUp_mem {h : Heap} {tiers : List TRef} (s t : TRef) (e : nextUp h tiers s = some t) : t ∈ tiers := by
  unfold nextUp at e
  split at e
  · simp at e
  · split at e
    · simp at e
    · exact List.mem_of_find?_eq_some e

theorem nextDown_mem {h : Heap} {tiers : List TRef} (s t : TRef) (e : nextDown h tiers s = some t) : t ∈ tiers := by
  unfold nextDown at e
  split at e
  · simp at e
  · split at e
    · simp at e
    · exact List.mem_of_find?_eq_some e

theorem arrangeUp_walk (h : Heap) (tiers : List TRef) (n : Nat) : ∀ s,
    arrangeUp h tiers n s = .error .recursionError ↔ walk (nextUp h tiers) n s = true := by
  induction n with
  | zero => intro s; simp [arrangeUp, walk]
  | succ n ih =>
    intro s
    unfold arrangeUp walk nextUp
    cases h.tsup s with
    | none => simp
    | some c =>
      simp only []
      by_cases hc : h.ct.isSub c cTop = true
      · simp [hc]
      · rw [if_neg hc, if_neg hc]
        cases tiers.find? (fun t => h.tcls t == c) with
        | none => simp
        | some t => exact ih t

theorem arrangeDown_walk (h : Heap) (tiers : List TRef) (n : Nat) : ∀ s,
    arrangeDown h tiers n s = .error .recursionError ↔ walk (nextDown h tiers) n s = true := by
  induction n with
  | zero => intro s; simp [arrangeDown, walk]
  | succ n ih =>
    intro s
    unfold arrangeDown walk nextDown
    cases h.tsub s with
    | none => simp
    | some c =>
      simp only []
      by_cases hc : h.ct.isSub c cBottom = true
      · simp [hc]
      · rw [if_neg hc, if_neg hc]
        cases tiers.find? (fun t => h.tcls t == c) with
        | none => simp
        | some t =>
          refine Iff.trans ?_ (ih t)
          simp only []
          cases arrangeDown h tiers n t with
          | error e => simp
          | ok r => simp

theorem arrangeUp_forever (h : Heap) (tiers : List TRef) (s : TRef) (hs : s ∈ tiers)
    (e : arrangeUp h tiers (tiers.length + 1) s = .error .recursionError) :
    ∀ n, arrangeUp h tiers n s = .error .recursionError := by
  intro n
  rw [arrangeUp_walk] at e ⊢
  exact walk_forever _ tiers nextUp_mem s hs e n

theorem arrangeDown_forever (h : Heap) (tiers : List TRef) (s : TRef) (hs : s ∈ tiers)
    (e : arrangeDown h tiers (tiers.length + 1) s = .error .recursionError) :
    ∀ n, arrangeDown h tiers n s = .error .recursionError := by
  intro n
  rw [arrangeDown_walk] at e ⊢
  exact walk_forever _ tiers nextDown_mem s hs e n

end ATG
