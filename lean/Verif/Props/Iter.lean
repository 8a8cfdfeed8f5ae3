import Verif.Model.Iter
import Verif.Model.Base
import Verif.Lemmas.TierInit
/-!
# C48: iterating over an interval
-/
namespace ATG

/-- the body leaves the position in `x` alone and never breaks -/
def LeavesAlone {σ : Type} (x : Ref) (body : Body σ) : Prop :=
  ∀ y s, (body y s).1 = .go ∧ (body y s).2.cur x = s.cur x

theorem rounds_from {σ : Type} (h : Heap) (x : Ref) (body : Body σ) (hb : LeavesAlone x body) :
    ∀ (n i k : Nat) (s : IterState σ), s.cur x = i → (h.subs x).vals.length = i + n → n < k →
      ∃ s', rounds h x body k s = some ((h.subs x).vals.drop i, s') ∧
        s'.cur x = (h.subs x).vals.length := by
  intro n
  induction n with
  | zero =>
    intro i k s hs hl hk
    obtain ⟨k, rfl⟩ : ∃ j, k = j + 1 := ⟨k - 1, by omega⟩
    refine ⟨s, ?_, by omega⟩
    simp only [rounds, iterNext]
    rw [if_neg (by omega)]
    simp [List.drop_eq_nil_of_le (show (h.subs x).vals.length ≤ i by omega)]
  | succ n ih =>
    intro i k s hs hl hk
    obtain ⟨k, rfl⟩ : ∃ j, k = j + 1 := ⟨k - 1, by omega⟩
    have hi : i < (h.subs x).vals.length := by omega
    let s1 : IterState σ := { s with cur := upd s.cur x (s.cur x + 1) }
    obtain ⟨b1, b2⟩ := hb (h.subs x).vals[i] s1
    obtain ⟨s', hr, hc⟩ := ih (i + 1) k (body (h.subs x).vals[i] s1).2
      (by rw [b2]; simp [s1, hs]) (by omega) (by omega)
    refine ⟨s', ?_, hc⟩
    simp only [rounds, iterNext]
    rw [if_pos (by omega), hs, List.getElem?_eq_getElem hi]
    simp only []
    rw [show (body (h.subs x).vals[i] { s with cur := upd s.cur x (i + 1) }) =
      (.go, (body (h.subs x).vals[i] s1).2) by
        rw [← b1]; simp [s1, hs]]
    simp only [hr]
    rw [← List.drop_eq_getElem_cons hi]

/-- C48 (what holds): a loop over an interval whose body does not iterate over the same interval visits
    the subset list once, in order, whatever position an earlier loop has left, and ends.

    Missing for the full statement: bodies that iterate over the same interval, for which it is false
    (`C48_nested_violated`, `C48_nested_diverges`). -/
theorem C48_visits_partial {σ : Type} (h : Heap) (x : Ref) (body : Body σ) (hb : LeavesAlone x body)
    (s : IterState σ) (k : Nat) (hk : (h.subs x).vals.length < k) :
    ∃ s', forIn h x body k s = some ((h.subs x).vals, s') ∧ s'.cur x = (h.subs x).vals.length := by
  obtain ⟨s', hr, hc⟩ := rounds_from h x body hb (h.subs x).vals.length 0 k (iterStart x s)
    (by simp [iterStart]) (by omega) hk
  exact ⟨s', by simpa [forIn] using hr, hc⟩

theorem rounds_break {σ : Type} (h : Heap) (x : Ref) (body : Body σ) (P : Ref → Bool)
    (hb : ∀ y s, (body y s).1 = (if P y then .stop else .go) ∧ (body y s).2.cur x = s.cur x) (y : Ref) (post : List Ref) (hy : P y = true) :
    ∀ (pre : List Ref) (i k : Nat) (s : IterState σ), s.cur x = i → (h.subs x).vals.drop i = pre ++ y :: post →
      (∀ z ∈ pre, P z = false) → pre.length < k →
      ∃ s', rounds h x body k s = some (pre ++ [y], s') ∧ s'.cur x = i + pre.length + 1 := by
  intro pre
  induction pre with
  | nil =>
    intro i k s hs hd _ hk
    obtain ⟨k, rfl⟩ : ∃ j, k = j + 1 := ⟨k - 1, by simp at hk; omega⟩
    have hi : i < (h.subs x).vals.length := by
      have := congrArg List.length hd
      simp at this
      omega
    rw [List.drop_eq_getElem_cons hi] at hd
    have he : (h.subs x).vals[i] = y := (List.cons.inj hd).1
    obtain ⟨b1, b2⟩ := hb y { s with cur := upd s.cur x (i + 1) }
    rw [if_pos hy] at b1
    refine ⟨(body y { s with cur := upd s.cur x (i + 1) }).2, ?_, by rw [b2]; simp⟩
    simp only [rounds, iterNext]
    rw [if_pos (by omega), hs, List.getElem?_eq_getElem hi, he]
    simp only []
    rw [show body y { s with cur := upd s.cur x (i + 1) } = (.stop, (body y { s with cur := upd s.cur x (i + 1) }).2) by rw [← b1]]
    rfl
  | cons z pre ih =>
    intro i k s hs hd hp hk
    obtain ⟨k, rfl⟩ : ∃ j, k = j + 1 := ⟨k - 1, by simp at hk; omega⟩
    have hi : i < (h.subs x).vals.length := by
      have := congrArg List.length hd
      simp at this
      omega
    rw [List.drop_eq_getElem_cons hi] at hd
    obtain ⟨he, hd⟩ := List.cons.inj hd
    obtain ⟨b1, b2⟩ := hb z { s with cur := upd s.cur x (i + 1) }
    rw [hp z (by simp)] at b1
    obtain ⟨s', hr, hc⟩ := ih (i + 1) k (body z { s with cur := upd s.cur x (i + 1) }).2
      (by rw [b2]; simp) hd (fun u hu => hp u (by simp [hu])) (by simp at hk; omega)
    refine ⟨s', ?_, by rw [hc, List.length_cons]; omega⟩
    simp only [rounds, iterNext]
    rw [if_pos (by omega), hs, List.getElem?_eq_getElem hi, he]
    simp only []
    rw [show body z { s with cur := upd s.cur x (i + 1) } = (.go, (body z { s with cur := upd s.cur x (i + 1) }).2) by
      rw [show Flow.go = (body z { s with cur := upd s.cur x (i + 1) }).1 from b1.symm]]
    simp only [hr]
    rfl

/-- C48, a loop with a `break`: it visits the subset list in order up to and including the first entry it breaks at, and a later loop over
    the same interval starts from the beginning again (`C48_visits_partial`). -/
theorem C48_break {σ : Type} (h : Heap) (x : Ref) (body : Body σ) (P : Ref → Bool)
    (hb : ∀ y s, (body y s).1 = (if P y then .stop else .go) ∧ (body y s).2.cur x = s.cur x)
    (pre : List Ref) (y : Ref) (post : List Ref) (hl : (h.subs x).vals = pre ++ y :: post)
    (hp : ∀ z ∈ pre, P z = false) (hy : P y = true) (s : IterState σ) (k : Nat) (hk : pre.length < k) :
    ∃ s', forIn h x body k s = some (pre ++ [y], s') ∧ s'.cur x = pre.length + 1 := by
  obtain ⟨s', hr, hc⟩ := rounds_break h x body P hb y post hy pre 0 k (iterStart x s) (by simp [iterStart]) hl hp hk
  exact ⟨s', hr, by rw [hc]; omega⟩

-- a loop over a word with three phones that breaks at the second of them
example : ∃ s', forIn (run0 (do
      let w ← newEntry cWord 0 3 "w"
      let a ← newEntry cPhone 0 1 "a"
      let b ← newEntry cPhone 1 2 "b"
      let c ← newEntry cPhone 2 3 "c"
      setSubs w [a, b, c])) 0 (fun y s => (if decide (y = 2) then .stop else .go, s)) 5 ⟨fun _ => 7, ()⟩ = some ([1, 2], s') ∧
    s'.cur 0 = 2 :=
  C48_break _ 0 _ (fun y => decide (y = 2)) (fun _ _ => ⟨rfl, rfl⟩) [1] 2 [3] (by decide +kernel) (by simp) (by simp) _ 5 (by simp)

theorem rounds_other {σ : Type} (h : Heap) (x y : Ref) (hxy : x ≠ y) (body : Body σ)
    (hb : ∀ z s, (body z s).2.cur x = s.cur x) :
    ∀ (k : Nat) (s : IterState σ) (l : List Ref) (s' : IterState σ),
      rounds h y body k s = some (l, s') → s'.cur x = s.cur x := by
  intro k
  induction k with
  | zero => intro s l s' e; cases e
  | succ k ih =>
    intro s l s' e
    have hn : (iterNext h y s).2.cur x = s.cur x := by
      simp only [iterNext]
      split
      · exact upd_ne _ _ _ _ hxy
      · rfl
    simp only [rounds] at e
    split at e
    · rename_i e1
      rw [e1] at hn
      simp only [Option.some.injEq, Prod.mk.injEq] at e
      rw [← e.2]; exact hn
    · rename_i z s1 e1
      rw [e1] at hn
      have hbz := hb z s1
      split at e
      · rename_i e2
        rw [e2] at hbz
        simp only [Option.some.injEq, Prod.mk.injEq] at e
        rw [← e.2]; exact hbz.trans hn
      · rename_i e2
        rw [e2] at hbz
        split at e
        · cases e
        · rename_i e3
          simp only [Option.some.injEq, Prod.mk.injEq] at e
          rw [← e.2, ih _ _ _ e3]; exact hbz.trans hn

/-- the body that runs a whole loop over `y`, with `k` rounds allowed -/
def innerLoop {σ : Type} (h : Heap) (y : Ref) (body : Body σ) (k : Nat) : Body σ := fun _ s =>
  match forIn h y body k s with
  | some (_, s') => (.go, s')
  | none => (.go, s)

/-- C48: loops over different intervals can be nested: a loop over another interval leaves the outer
    position alone. -/
theorem C48_nested_other {σ : Type} (h : Heap) (x y : Ref) (hxy : x ≠ y) (body : Body σ)
    (hb : ∀ z s, (body z s).2.cur x = s.cur x) (k : Nat) : LeavesAlone x (innerLoop h y body k) := by
  intro z s
  unfold innerLoop
  split
  · rename_i e
    refine ⟨rfl, ?_⟩
    rw [rounds_other h x y hxy body hb k _ _ _ e]
    exact upd_ne _ _ _ _ hxy
  · exact ⟨rfl, rfl⟩

/-- C48 fails for nested loops over the same interval: the outer loop visits its first entry only. -/
theorem C48_nested_violated {σ : Type} (h : Heap) (x f : Ref) (rest : List Ref)
    (hx : (h.subs x).vals = f :: rest) (body : Body σ) (hb : LeavesAlone x body) (s : IterState σ)
    (k n : Nat) (hk : (h.subs x).vals.length < k) (hn : 1 < n) :
    ∃ s', forIn h x (innerLoop h x body k) n s = some ([f], s') := by
  obtain ⟨n, rfl⟩ : ∃ j, n = j + 2 := ⟨n - 2, by omega⟩
  let s1 : IterState σ := { s with cur := upd (upd s.cur x 0) x 1 }
  obtain ⟨s2, h2, hc⟩ := C48_visits_partial h x body hb s1 k hk
  have hin : innerLoop h x body k f s1 = (.go, s2) := by simp only [innerLoop, h2]
  refine ⟨s2, ?_⟩
  have hstep : iterNext h x (iterStart x s) = (some f, s1) := by
    simp [iterNext, iterStart, hx, s1]
  have hend : iterNext h x s2 = (none, s2) := by
    simp only [iterNext]; rw [if_neg (by omega)]
  simp only [forIn, rounds, hstep, hin, hend]

/-- a loop over `x` that breaks after its first entry -/
def firstOf {σ : Type} (h : Heap) (x : Ref) : Body σ := fun _ s =>
  match forIn h x (fun _ s => (.stop, s)) 1 s with
  | some (_, s') => (.go, s')
  | none => (.go, s)

/-- C48 fails worse when the inner loop breaks off: over an interval with two or more subset intervals
    `for p in x: for q in x: break` never ends. -/
theorem C48_nested_diverges {σ : Type} (h : Heap) (x f g : Ref) (rest : List Ref)
    (hx : (h.subs x).vals = f :: g :: rest) (s : IterState σ) (n : Nat) :
    forIn h x (firstOf h x) n s = none := by
  have hin : ∀ y (s : IterState σ), firstOf h x y s = (.go, { s with cur := upd s.cur x 1 }) := by
    intro y s
    simp [firstOf, forIn, rounds, iterNext, iterStart, hx, upd_upd]
  have key : ∀ (n : Nat) (s : IterState σ), s.cur x = 0 ∨ s.cur x = 1 → rounds h x (firstOf h x) n s = none := by
    intro n
    induction n with
    | zero => intro s _; rfl
    | succ n ih =>
      intro s hs
      have hlt : s.cur x < (h.subs x).vals.length := by rw [hx]; simp; omega
      simp only [rounds, iterNext]
      rw [if_pos hlt, List.getElem?_eq_getElem hlt]
      simp only [hin]
      rw [ih _ (by simp)]
  exact key n _ (by simp [iterStart])

/-- a word with two phones -/
def exWordIter : Heap := { heapOf [(cWord, 0, 2, "w"), (cPhone, 0, 1, "a"), (cPhone, 1, 2, "b")] with
  subs := upd (fun _ => SL.empty) 0 ⟨[1, 2], some cPhone⟩ }
example : (exWordIter.subs 0).vals = [1, 2] ∧
    (forIn exWordIter 0 (fun y s => (.go, { s with user := s.user ++ [y] })) 3 ⟨fun _ => 7, []⟩).map
      (fun p => (p.1, p.2.user)) = some ([1, 2], [1, 2]) ∧
    (forIn exWordIter 0 (innerLoop exWordIter 0 (fun y s => (.go, { s with user := s.user ++ [y] })) 3) 5
      ⟨fun _ => 7, []⟩).map (fun p => (p.1, p.2.user)) = some ([1], [1, 2]) := by decide +kernel
example : LeavesAlone 0 (fun y (s : IterState (List Ref)) => (.go, { s with user := s.user ++ [y] })) :=
  fun _ _ => ⟨rfl, rfl⟩

end ATG
