import Verif.Lemmas.Strings
import Verif.Model.Textgrid
/-!
# C37: names of exported tiers. C52: named accessors
-/
namespace ATG

/-- what the naming loop keeps true; `done` are the names seen so far -/
structure NameInv (done : List String) (st : List String × Nat) : Prop where
  length : st.1.length = done.length
  shape : ∀ (i : Nat) (e n : String), st.1[i]? = some e → done[i]? = some n → e = n ∨ ∃ k : Nat, e = n ++ "_" ++ toString k

theorem NameInv.step {done : List String} {st : List String × Nat} (v : NameInv done st) (n : String) :
    NameInv (done ++ [n]) (nameStep st n) := by
  have key : ∀ e', (e' = n ∨ ∃ k : Nat, e' = n ++ "_" ++ toString k) → ∀ k', NameInv (done ++ [n]) (st.1 ++ [e'], k') := by
    intro e' he' k'
    refine ⟨by simp [v.length], ?_⟩
    intro i e m he hm
    by_cases hi : i < done.length
    · rw [List.getElem?_append_left (by rw [v.length]; exact hi)] at he
      rw [List.getElem?_append_left hi] at hm
      exact v.shape i e m he hm
    · rw [List.getElem?_append_right (by rw [v.length]; omega), v.length] at he
      rw [List.getElem?_append_right (by omega)] at hm
      have h0 : i - done.length = 0 := by
        rcases Nat.eq_zero_or_pos (i - done.length) with q | q
        · exact q
        · rw [List.getElem?_eq_none (by simp; omega)] at he; cases he
      rw [h0] at he hm
      simp at he hm
      subst he; subst hm
      exact he'
  unfold nameStep
  split
  · exact key _ (Or.inr ⟨_, rfl⟩) _
  · exact key _ (Or.inl rfl) _

theorem NameInv.fold {done : List String} {st : List String × Nat} (v : NameInv done st) (l : List String) :
    NameInv (done ++ l) (l.foldl nameStep st) := by
  induction l generalizing done st with
  | nil => simpa using v
  | cons n l ih =>
    have := ih (v.step n)
    rw [List.foldl_cons]
    simpa using this

/-- C37: every tier is exported, under its own name or its own name with "_" and a number attached. -/
theorem C37_shape (names : List String) :
    (exportNames names).length = names.length ∧
    ∀ (i : Nat) (e n : String), (exportNames names)[i]? = some e → names[i]? = some n → e = n ∨ ∃ k : Nat, e = n ++ "_" ++ toString k := by
  have v := NameInv.fold (done := []) (st := ([], 0)) ⟨rfl, by intro i e n h; simp at h⟩ names
  rw [List.nil_append] at v
  exact ⟨v.length, v.shape⟩

example : exportNames ["w", "p", "w", "p", "w"] = ["w", "p", "w_0", "p_1", "w_2"] := by decide +kernel

/-- what the loop keeps true when no name looks like a numbered copy of a repeated one -/
structure NodupInv (done : List String) (st : List String × Nat) : Prop where
  nodup : st.1.Nodup
  from_ : ∀ e ∈ st.1, e ∈ done ∨ ∃ (m : String) (j : Nat), m ∈ done ∧ j < st.2 ∧ 2 ≤ done.count m ∧ e = m ++ "_" ++ toString j
  keeps : ∀ n ∈ done, n ∈ st.1

theorem NodupInv.step {done : List String} {st : List String × Nat} (v : NodupInv done st) (n : String)
    (hno : ∀ a ∈ done ++ [n], ∀ m ∈ done ++ [n], 2 ≤ (done ++ [n]).count m → ∀ k : Nat, a ≠ m ++ "_" ++ toString k) :
    NodupInv (done ++ [n]) (nameStep st n) := by
  have hcount : ∀ m, done.count m ≤ (done ++ [n]).count m := by intro m; rw [List.count_append]; omega
  unfold nameStep
  split
  · rename_i hc
    have hc : n ∈ st.1 := by simpa using hc
    have hn : n ∈ done := by
      rcases v.from_ n hc with q | ⟨m, j, hm, _, h2, e⟩
      · exact q
      · exact absurd e (hno n (by simp) m (by simp [hm]) (Nat.le_trans h2 (hcount m)) j)
    have h2 : 2 ≤ (done ++ [n]).count n := by
      rw [List.count_append]
      have : 0 < done.count n := List.count_pos_iff.mpr hn
      simp; omega
    refine ⟨?_, ?_, ?_⟩
    · rw [List.nodup_append]
      refine ⟨v.nodup, by simp, ?_⟩
      intro a ha b hb hab
      have hb : b = n ++ "_" ++ toString st.2 := by simpa using hb
      rw [hb] at hab
      rcases v.from_ a ha with q | ⟨m, j, _, hj, _, e⟩
      · exact hno a (by simp [q]) n (by simp) h2 st.2 hab
      · rw [e] at hab
        have := (numbered_inj _ _ _ _ hab).2
        omega
    · intro e he
      rcases List.mem_append.mp he with q | q
      · rcases v.from_ e q with q | ⟨m, j, hm, hj, h2, ee⟩
        · exact Or.inl (by simp [q])
        · exact Or.inr ⟨m, j, by simp [hm], Nat.lt_succ_of_lt hj, Nat.le_trans h2 (hcount m), ee⟩
      · exact Or.inr ⟨n, st.2, by simp, Nat.lt_succ_self _, h2, by simpa using q⟩
    · intro a ha
      rcases List.mem_append.mp ha with q | q
      · exact List.mem_append_left _ (v.keeps a q)
      · rw [show a = n by simpa using q]; exact List.mem_append_left _ hc
  · rename_i hc
    have hc : n ∉ st.1 := by simpa using hc
    refine ⟨?_, ?_, ?_⟩
    · rw [List.nodup_append]
      refine ⟨v.nodup, by simp, ?_⟩
      intro a ha b hb hab
      have hb : b = n := by simpa using hb
      exact hc (by rw [← hb, ← hab]; exact ha)
    · intro e he
      rcases List.mem_append.mp he with q | q
      · rcases v.from_ e q with q | ⟨m, j, hm, hj, h2, ee⟩
        · exact Or.inl (by simp [q])
        · exact Or.inr ⟨m, j, by simp [hm], hj, Nat.le_trans h2 (hcount m), ee⟩
      · exact Or.inl (by rw [show e = n by simpa using q]; simp)
    · intro a ha
      rcases List.mem_append.mp ha with q | q
      · exact List.mem_append_left _ (v.keeps a q)
      · exact List.mem_append_right _ q

theorem NodupInv.fold {done : List String} {st : List String × Nat} (v : NodupInv done st) (l : List String)
    (hno : ∀ a ∈ done ++ l, ∀ m ∈ done ++ l, 2 ≤ (done ++ l).count m → ∀ k : Nat, a ≠ m ++ "_" ++ toString k) :
    NodupInv (done ++ l) (l.foldl nameStep st) := by
  induction l generalizing done st with
  | nil => simpa using v
  | cons n l ih =>
    have e : done ++ n :: l = (done ++ [n]) ++ l := by simp
    have := ih (v.step n (by
      intro a ha m hm h2 k
      refine hno a ?_ m ?_ ?_ k
      · rw [e]; exact List.mem_append_left _ ha
      · rw [e]; exact List.mem_append_left _ hm
      · rw [e, List.count_append]; omega)) (by rw [← e]; exact hno)
    rw [List.foldl_cons, e]
    exact this

/-- C37 where it holds: the exported names are distinct unless the name of a tier is that of another one,
    which occurs more than once, with "_" and a number attached. -/
theorem C37_distinct_partial (names : List String)
    (hno : ∀ a ∈ names, ∀ m ∈ names, 2 ≤ names.count m → ∀ k : Nat, a ≠ m ++ "_" ++ toString k) :
    (exportNames names).Nodup ∧ ∀ n ∈ names, n ∈ exportNames names := by
  have v := NodupInv.fold (done := []) (st := ([], 0)) ⟨by simp, by simp, by simp⟩ names (by simpa using hno)
  rw [List.nil_append] at v
  exact ⟨v.nodup, v.keeps⟩

theorem nameStep_fresh (l : List String) (st : List String × Nat) (h1 : l.Nodup) (h2 : ∀ n ∈ l, n ∉ st.1) :
    l.foldl nameStep st = (st.1 ++ l, st.2) := by
  induction l generalizing st with
  | nil => simp
  | cons n l ih =>
    rw [List.nodup_cons] at h1
    have e : nameStep st n = (st.1 ++ [n], st.2) := by
      unfold nameStep; rw [if_neg (by simpa using h2 n (by simp))]
    rw [List.foldl_cons, e, ih _ h1.2 ?_]
    · simp
    · intro m hm hh
      rcases List.mem_append.mp hh with q | q
      · exact h2 m (by simp [hm]) q
      · exact h1.1 (by rw [← show m = n by simpa using q]; exact hm)

/-- C37: distinct names are kept as they are. -/
theorem C37_kept (names : List String) (h : names.Nodup) : exportNames names = names := by
  unfold exportNames; rw [nameStep_fresh names _ h (by simp)]; simp

-- the hypothesis of the partial theorem on repeated names
example : (exportNames ["word", "phone", "word", "phone"]).Nodup := by
  refine (C37_distinct_partial _ ?_).1
  intro a ha m hm _ k e
  have e := congrArg String.toList e
  simp only [String.toList_append] at e
  have hu : '_' ∈ a.toList := by rw [e]; simp
  rcases (by simpa using ha : a = "word" ∨ a = "phone" ∨ a = "word" ∨ a = "phone") with q | q | q | q <;> rw [q] at hu <;> exact absurd hu (by decide)

/-- C37 fails: a tier whose name is that of a later repeated one with a number attached gets a namesake. -/
theorem C37_violated : ∃ names, ¬ (exportNames names).Nodup := ⟨["a_0", "a", "a"], by decide +kernel⟩

/-! ## C52 -/

/-- the accessors of a group of tiers, after `attrs` -/
def tierAccessors (h : Heap) (g : GRef) (attrs : String → Option TRef) : String → Option TRef :=
  setNames ((h.gtiers g).map fun t => h.ct.name (h.tcls t)) (h.gtiers g) attrs

theorem foldl_names {α} (l : List (String × α)) (f : String → Option α) (s : String) :
    (s ∉ l.map Prod.fst → l.foldl (fun f p => fun s => if s = p.1 then some p.2 else f s) f s = f s) ∧
    ((l.map Prod.fst).Nodup → ∀ p ∈ l, s = p.1 →
      l.foldl (fun f p => fun s => if s = p.1 then some p.2 else f s) f s = some p.2) := by
  induction l generalizing f with
  | nil => exact ⟨fun _ => rfl, by simp⟩
  | cons q l ih =>
    have ih' := ih (fun s => if s = q.1 then some q.2 else f s)
    constructor
    · intro hs
      simp only [List.map_cons, List.mem_cons, not_or] at hs
      rw [List.foldl_cons, ih'.1 hs.2, if_neg hs.1]
    · intro hn p hp e
      rw [List.map_cons, List.nodup_cons] at hn
      rw [List.foldl_cons]
      rcases List.mem_cons.mp hp with r | r
      · subst r; subst e
        rw [ih'.1 hn.1, if_pos rfl]
      · exact ih'.2 hn.2 p r e

theorem any_count (names : List String) : names.any (fun n => names.count n > 1) = false ↔ names.Nodup := by
  rw [List.any_eq_false, List.nodup_iff_count]
  constructor
  · intro h n
    by_cases hn : n ∈ names
    · have := h n hn; simpa using this
    · rw [List.count_eq_zero_of_not_mem hn]; omega
  · intro h n _; have := h n; simpa using this

/-- C52: when the names of the entry classes are distinct, each accessor is the tier with that class and no
    other attribute changes. -/
theorem C52_distinct (h : Heap) (g : GRef) (attrs : String → Option TRef)
    (hd : ((h.gtiers g).map fun t => h.ct.name (h.tcls t)).Nodup) :
    (∀ t ∈ h.gtiers g, tierAccessors h g attrs (h.ct.name (h.tcls t)) = some t) ∧
    ∀ s, (∀ t ∈ h.gtiers g, h.ct.name (h.tcls t) ≠ s) → tierAccessors h g attrs s = attrs s := by
  unfold tierAccessors setNames
  rw [(any_count _).mpr hd, if_neg (by simp)]
  have ez : ((h.gtiers g).map fun t => h.ct.name (h.tcls t)).zip (h.gtiers g) =
      (h.gtiers g).map fun t => (h.ct.name (h.tcls t), t) := by
    generalize h.gtiers g = l
    induction l with
    | nil => rfl
    | cons t l ih => simp [ih]
  rw [ez]
  have em : ((h.gtiers g).map fun t => (h.ct.name (h.tcls t), t)).map Prod.fst =
      (h.gtiers g).map fun t => h.ct.name (h.tcls t) := by rw [List.map_map]; rfl
  constructor
  · intro t ht
    exact (foldl_names _ attrs _).2 (by rw [em]; exact hd) (h.ct.name (h.tcls t), t)
      (List.mem_map.mpr ⟨t, ht, rfl⟩) rfl
  · intro s hs
    refine (foldl_names _ attrs s).1 ?_
    rw [em]
    intro hh
    obtain ⟨t, ht, e⟩ := List.mem_map.mp hh
    exact hs t ht e

/-- C52: with a duplicate nothing is set. -/
theorem C52_duplicate (h : Heap) (g : GRef) (attrs : String → Option TRef)
    (hd : ¬ ((h.gtiers g).map fun t => h.ct.name (h.tcls t)).Nodup) : tierAccessors h g attrs = attrs := by
  unfold tierAccessors setNames
  rw [if_pos]
  cases e : ((h.gtiers g).map fun t => h.ct.name (h.tcls t)).any
      (fun n => ((h.gtiers g).map fun t => h.ct.name (h.tcls t)).count n > 1) with
  | true => rfl
  | false => exact absurd ((any_count _).mp e) hd

/-- a group of words and phones -/
def exNamed : Heap := run0 do
  let w ← newTierFrom [(0, 1, "a")] cWord "Word"
  let p ← newTierFrom [(0, 1, "a")] cPhone "Phone"
  let _ ← newGroup [p, w]

example : ((exNamed.gtiers 0).map fun t => exNamed.ct.name (exNamed.tcls t)).Nodup ∧
    exNamed.gtiers 0 = [0, 1] ∧ tierAccessors exNamed 0 (fun _ => none) "Phone" = some 1 := by decide +kernel

end ATG
