import Verif.Lemmas.DataFrame
/-!
# C46, C47: data frames
-/
namespace ATG

/-- the id and the position of an entry, where they exist -/
def idOf (h : Heap) (x : Ref) : String := match nodeId h (.entry x) with | .ok i => i | .error _ => ""
def positionOf (h : Heap) (x : Ref) : Cell :=
  match tierIndex h x with
  | .ok (some k) => .int k
  | _ => .null

/-- the cells that show an interval in a frame with subsets -/
def cellsOf (h : Heap) (x : Ref) : Row :=
  let c := h.ct.name (h.cls x)
  [(c ++ "_id", .text (idOf h x)), (c ++ "_tier_index", positionOf h x),
   (c ++ "_label", .text (h.label x)), (c ++ "_start", .num (h.start x)), (c ++ "_end", .num (h.stop x))]

/-- the row that shows an entry in a frame without subsets -/
def rowOf (h : Heap) (x : Ref) : Row :=
  [("id", .text (idOf h x)), ("tier_index", positionOf h x), ("label", .text (h.label x)),
   ("start", .num (h.start x))] ++ (if h.isPoint x then [] else [("end", .num (h.stop x))]) ++
  [("entry_class", .text (h.ct.name (h.cls x)))]

/-- An interval that can be shown with what it contains: no containment cycles, ids and positions
    defined, no points, and different class names at different depths. -/
structure Exportable (h : Heap) (rank : Ref → Nat) (x : Ref) : Prop where
  falls : ∀ y z, Below h x y → z ∈ contL h y → rank z < rank y
  depth : rank x < pathFuel
  defined : ∀ y, Below h x y → ∃ i k, nodeId h (.entry y) = .ok i ∧ tierIndex h y = .ok k
  ivals : ∀ y, Below h x y → h.isPoint y = false
  names : ∀ y z w, Below h x y → z ∈ contL h y → Below h z w → h.ct.name (h.cls y) ≠ h.ct.name (h.cls w)

theorem attrCells_ok (h : Heap) (x : Ref) (i : String) (k : Option Nat) (hi : nodeId h (.entry x) = .ok i)
    (hk : tierIndex h x = .ok k) : attrCells h x = .ok
      ([("id", .text (idOf h x)), ("tier_index", positionOf h x), ("label", .text (h.label x)),
        ("start", .num (h.start x))] ++ (if h.isPoint x then [] else [("end", .num (h.stop x))])) := by
  unfold attrCells idOf positionOf
  simp only [hi, hk]
  cases k <;> rfl

theorem prefixed_cells (h : Heap) (x : Ref) (hp : h.isPoint x = false) :
    prefixed (h.ct.name (h.cls x)) ([("id", .text (idOf h x)), ("tier_index", positionOf h x),
      ("label", .text (h.label x)), ("start", .num (h.start x))] ++
      (if h.isPoint x then [] else [("end", .num (h.stop x))])) = cellsOf h x := by
  simp only [hp, Bool.false_eq_true, if_false, prefixed, cellsOf, List.map_cons, List.map_nil,
    List.cons_append, List.nil_append, String.append_assoc]
  rfl

theorem cells_column (h : Heap) (x : Ref) (p : String × Cell) (hp : p ∈ cellsOf h x) :
    ∃ k ∈ attNames, p.1 = h.ct.name (h.cls x) ++ "_" ++ k := by
  simp only [cellsOf, List.mem_cons, List.not_mem_nil, or_false] at hp
  rcases hp with rfl | rfl | rfl | rfl | rfl
  · exact ⟨"id", by simp [attNames], by simp only [String.append_assoc]; rfl⟩
  · exact ⟨"tier_index", by simp [attNames], by simp only [String.append_assoc]; rfl⟩
  · exact ⟨"label", by simp [attNames], by simp only [String.append_assoc]; rfl⟩
  · exact ⟨"start", by simp [attNames], by simp only [String.append_assoc]; rfl⟩
  · exact ⟨"end", by simp [attNames], by simp only [String.append_assoc]; rfl⟩

theorem pathsN_below (h : Heap) : ∀ (k : Nat) (x : Ref) (p : List Ref), p ∈ pathsN h k x →
    ∀ y ∈ p, Below h x y := by
  intro k
  induction k with
  | zero => intro x p hp; cases hp
  | succ k ih =>
    intro x p hp y hy
    rw [pathsN] at hp
    split at hp
    · rw [List.mem_singleton] at hp; subst hp
      rw [List.mem_singleton] at hy; subst hy; exact .refl _
    · simp only [List.mem_map, List.mem_flatMap] at hp
      obtain ⟨q, ⟨z, hz, hq⟩, rfl⟩ := hp
      rcases List.mem_cons.mp hy with rfl | hy
      · exact .refl _
      · exact .step x z y hz (ih z q hq y hy)

theorem entryRowsN_ok (h : Heap) (rank : Ref → Nat) : ∀ (k : Nat) (x : Ref), rank x < k →
    (∀ y z, Below h x y → z ∈ contL h y → rank z < rank y) →
    (∀ y, Below h x y → ∃ i k, nodeId h (.entry y) = .ok i ∧ tierIndex h y = .ok k) →
    (∀ y, Below h x y → h.isPoint y = false) →
    (∀ y z w, Below h x y → z ∈ contL h y → Below h z w → h.ct.name (h.cls y) ≠ h.ct.name (h.cls w)) →
    entryRowsN h k x = .ok ((pathsN h k x).map fun p => p.flatMap (cellsOf h)) := by
  intro k
  induction k with
  | zero => intro x hk; omega
  | succ k ih =>
    intro x hk hr hd hp hn
    have hsub : collect (entryRowsN h k) (contL h x) =
        .ok ((contL h x).flatMap fun y => (pathsN h k y).map fun p => p.flatMap (cellsOf h)) := by
      refine collect_ok _ _ _ fun y hy => ?_
      exact ih y (by have := hr x y (.refl x) hy; omega)
        (fun a b ha hb => hr a b (.step x y a hy ha) hb) (fun a ha => hd a (.step x y a hy ha))
        (fun a ha => hp a (.step x y a hy ha))
        (fun a b c ha hb hc => hn a b c (.step x y a hy ha) hb hc)
    obtain ⟨i, j, hi, hj⟩ := hd x (.refl x)
    have hpx := hp x (.refl x)
    rw [entryRowsN, hsub]
    simp only [attrCells_ok h x i j hi hj]
    simp only [hpx, Bool.false_eq_true, if_false]
    have hpc := prefixed_cells h x hpx
    simp only [hpx, Bool.false_eq_true, if_false] at hpc
    rw [hpc, pathsN]
    by_cases he : contL h x = []
    · rw [if_pos he, he]
      simp
    · rw [if_neg he]
      have hlen : ((contL h x).flatMap fun y => (pathsN h k y).map fun p => p.flatMap (cellsOf h)).length > 0 := by
        cases e : contL h x with
        | nil => exact absurd e he
        | cons y ys =>
          have hy : y ∈ contL h x := by rw [e]; simp
          have := pathsN_ne_nil h rank k y (by have := hr x y (.refl x) hy; omega)
            (fun a b ha hb => hr a b (.step x y a hy ha) hb)
          have := List.length_pos_iff.mpr this
          simp only [List.flatMap_cons, List.length_append, List.length_map]
          omega
      rw [if_pos hlen]
      have hsh : sharedColumn (cellsOf h x)
          ((contL h x).flatMap fun y => (pathsN h k y).map fun p => p.flatMap (cellsOf h)) = false := by
        cases e : sharedColumn (cellsOf h x)
          ((contL h x).flatMap fun y => (pathsN h k y).map fun p => p.flatMap (cellsOf h)) with
        | false => rfl
        | true =>
          exfalso
          simp only [sharedColumn, List.any_eq_true, List.mem_flatMap, List.mem_map, beq_iff_eq] at e
          obtain ⟨r, ⟨y, hy, p, hpp, rfl⟩, q, hq, c, hc, hcq⟩ := e
          obtain ⟨z, hz, hqz⟩ := List.mem_flatMap.mp hq
          obtain ⟨a1, m1, e1⟩ := cells_column h x c hc
          obtain ⟨a2, m2, e2⟩ := cells_column h z q hqz
          exact hn x y z (.refl x) hy (pathsN_below h k y p hpp z hz)
            (column_inj _ _ a1 a2 m1 m2 (by rw [← e1, ← e2]; exact hcq))
      rw [hsh]
      simp only [Bool.false_eq_true, if_false, List.append_nil]
      congr 1
      simp only [List.map_flatMap, List.map_map, List.flatMap_cons, Function.comp_def]

/-- C46: the data frame of an interval with its subsets has one row for each path down to an interval
    that contains nothing, in the order of the lists, showing all intervals on the path. -/
theorem C46_entry (h : Heap) (rank : Ref → Nat) (x : Ref) (ex : Exportable h rank x) :
    ∃ paths : List (List Ref), entryRows h true x = .ok (paths.map fun p => p.flatMap (cellsOf h)) ∧
      (∀ p, p ∈ paths ↔ LeafPath h x p) ∧ paths.Pairwise (PBefore h) :=
  ⟨pathsN h pathFuel x,
    by rw [entryRows, if_pos rfl]; exact entryRowsN_ok h rank _ x ex.depth ex.falls ex.defined ex.ivals ex.names,
    pathsN_mem h rank _ x ex.depth ex.falls, pathsN_order h _ x⟩

/-- consecutive entries of the list are in one another -/
def Chained (h : Heap) : List Ref → Prop
  | [] => True
  | [_] => True
  | x :: y :: p => y ∈ contL h x ∧ Chained h (y :: p)

/-- two chains from `x` to the same entry are the same when no entry is in two others -/
theorem chain_unique (h : Heap) (rank : Ref → Nat) (x : Ref)
    (hr : ∀ y z, Below h x y → z ∈ contL h y → rank z < rank y)
    (hu : ∀ y z w, Below h x y → Below h x z → w ∈ contL h y → w ∈ contL h z → y = z) :
    ∀ (n : Nat) (p q : List Ref), p.length = n → Chained h (x :: p) → Chained h (x :: q) →
      (x :: p).getLast? = (x :: q).getLast? → p = q := by
  have below : ∀ (q : List Ref) (y : Ref), Chained h (y :: q) → ∀ z ∈ y :: q, Below h y z := by
    intro q
    induction q with
    | nil => intro y _ z hz; rw [List.mem_singleton] at hz; subst hz; exact .refl _
    | cons a q ih =>
      intro y hc z hz
      rcases List.mem_cons.mp hz with rfl | hz
      · exact .refl _
      · exact .step y a z hc.1 (ih a hc.2 z hz)
  have rankle : ∀ y z, Below h y z → Below h x y → rank z ≤ rank y := by
    intro y z b
    induction b with
    | refl => intro _; exact Nat.le_refl _
    | step a b c hb _ ih =>
      intro hxa
      have := hr a b hxa hb
      have := ih (hxa.trans (.single hb))
      omega
  have snoc : ∀ (q : List Ref) (y a : Ref), Chained h (y :: (q ++ [a])) →
      Chained h (y :: q) ∧ ∃ b, (y :: q).getLast? = some b ∧ a ∈ contL h b := by
    intro q
    induction q with
    | nil => intro y a hc; exact ⟨trivial, y, rfl, hc.1⟩
    | cons c q ih =>
      intro y a hc
      obtain ⟨h1, b, h2, h3⟩ := ih c a hc.2
      refine ⟨⟨hc.1, h1⟩, b, ?_, h3⟩
      rw [List.getLast?_cons_cons]; exact h2
  intro n
  induction n with
  | zero =>
    intro p q hp _ hq e
    have : p = [] := List.length_eq_zero_iff.mp hp
    subst this
    rcases List.eq_nil_or_concat q with rfl | ⟨q', a, rfl⟩
    · rfl
    · exfalso
      rw [List.concat_eq_append] at hq e
      obtain ⟨h1, b, h2, h3⟩ := snoc q' x a hq
      have hb := below q' x h1 b (List.mem_of_getLast? h2)
      have : a = x := by
        rw [← List.cons_append, List.getLast?_append] at e
        simpa using e.symm
      subst this
      have := hr b a hb h3
      have := rankle a b hb (.refl a)
      omega
  | succ n ih =>
    intro p q hp hpc hqc e
    rcases List.eq_nil_or_concat p with rfl | ⟨p', a, rfl⟩
    · simp at hp
    rw [List.concat_eq_append] at hp hpc e ⊢
    obtain ⟨h1, b, h2, h3⟩ := snoc p' x a hpc
    have hb := below p' x h1 b (List.mem_of_getLast? h2)
    have ea : (x :: (p' ++ [a])).getLast? = some a := by
      rw [← List.cons_append, List.getLast?_append]; simp
    rcases List.eq_nil_or_concat q with rfl | ⟨q', a', rfl⟩
    · exfalso
      rw [ea] at e
      simp only [List.getLast?_singleton, Option.some.injEq] at e
      subst e
      have := hr b a hb h3
      have := rankle a b hb (.refl a)
      omega
    · rw [List.concat_eq_append] at hqc e ⊢
      have ea' : (x :: (q' ++ [a'])).getLast? = some a' := by
        rw [← List.cons_append, List.getLast?_append]; simp
      rw [ea, ea'] at e
      simp only [Option.some.injEq] at e
      subst e
      obtain ⟨g1, b', g2, g3⟩ := snoc q' x a hqc
      have hb' := below q' x g1 b' (List.mem_of_getLast? g2)
      have : b = b' := hu b b' a hb hb' h3 g3
      subst this
      have := ih p' q' (by simpa using hp) h1 g1 (by rw [h2, g2])
      rw [this]

theorem LeafPath.chained {h : Heap} {x : Ref} {p : List Ref} (l : LeafPath h x p) : Chained h p := by
  induction l with
  | leaf => trivial
  | node x y p hy hl ih =>
    obtain ⟨q, rfl⟩ := hl.head
    exact ⟨hy, ih⟩

theorem LeafPath.exists {h : Heap} {x y : Ref} (b : Below h x y) (hy : contL h y = []) :
    ∃ p, LeafPath h x p ∧ p.getLast? = some y := by
  induction b with
  | refl x => exact ⟨[x], .leaf x hy, rfl⟩
  | step x z y hz _ ih =>
    obtain ⟨p, hp, hl⟩ := ih hy
    refine ⟨x :: p, .node x z p hz hp, ?_⟩
    obtain ⟨q, rfl⟩ := hp.head
    rw [List.getLast?_cons_cons]; exact hl

theorem LeafPath.last {h : Heap} {x : Ref} {p : List Ref} (l : LeafPath h x p) :
    ∃ y, p.getLast? = some y ∧ Below h x y ∧ contL h y = [] := by
  induction l with
  | leaf x he => exact ⟨x, rfl, .refl x, he⟩
  | node x y p hy hl ih =>
    obtain ⟨z, h1, h2, h3⟩ := ih
    obtain ⟨q, rfl⟩ := hl.head
    exact ⟨z, by rw [List.getLast?_cons_cons]; exact h1, .step x y z hy h2, h3⟩

theorem PBefore.ne {h : Heap} (hnd : ∀ x, (contL h x).Nodup) {p q : List Ref} (b : PBefore h p q) : p ≠ q := by
  induction b with
  | here x y z p q i j hi hj hij =>
    rintro e
    simp only [List.cons.injEq, true_and] at e
    obtain ⟨rfl, -⟩ := e
    obtain ⟨hi', e1⟩ := List.getElem?_eq_some_iff.mp hi
    obtain ⟨hj', e2⟩ := List.getElem?_eq_some_iff.mp hj
    have := (List.getElem_inj (hnd x)).mp (e1.trans e2.symm)
    omega
  | there x p q _ ih =>
    rintro e
    simp only [List.cons.injEq, true_and] at e
    exact ih e

/-- C46: when no interval is in two others, every lowest interval has exactly one row. -/
theorem C46_exactly_one (h : Heap) (rank : Ref → Nat) (x : Ref) (ex : Exportable h rank x)
    (hnd : ∀ y, (contL h y).Nodup)
    (hu : ∀ y z w, Below h x y → Below h x z → w ∈ contL h y → w ∈ contL h z → y = z) :
    ∃ paths : List (List Ref), entryRows h true x = .ok (paths.map fun p => p.flatMap (cellsOf h)) ∧
      (∀ y, Below h x y → contL h y = [] →
        ∃ i : Nat, (∃ p, paths[i]? = some p ∧ p.getLast? = some y) ∧
          ∀ (j : Nat) (q : List Ref), paths[j]? = some q → q.getLast? = some y → j = i) ∧
      (∀ p ∈ paths, ∃ y, p.getLast? = some y ∧ Below h x y ∧ contL h y = []) := by
  obtain ⟨paths, hr, hm, ho⟩ := C46_entry h rank x ex
  have hnp : paths.Nodup := ho.imp fun b => b.ne hnd
  refine ⟨paths, hr, ?_, fun p hp => ((hm p).mp hp).last⟩
  intro y hy he
  obtain ⟨p, hp, hl⟩ := LeafPath.exists hy he
  obtain ⟨i, hi, hpi⟩ := List.mem_iff_getElem.mp ((hm p).mpr hp)
  refine ⟨i, ⟨p, by rw [List.getElem?_eq_getElem hi, hpi], hl⟩, ?_⟩
  intro j q hq hql
  have hql' := (hm q).mp (List.mem_of_getElem? hq)
  obtain ⟨p', rfl⟩ := hp.head
  obtain ⟨q', rfl⟩ := hql'.head
  have : p' = q' := chain_unique h rank x ex.falls hu p'.length p' q' rfl hp.chained hql'.chained (by rw [hl, hql])
  subst this
  obtain ⟨hj, e⟩ := List.getElem?_eq_some_iff.mp hq
  exact (List.getElem_inj hnp).mp (e.trans hpi.symm)

/-- C46 for tiers: the rows of a non-empty tier are those of its entries, in order. -/
theorem C46_tier (h : Heap) (rank : Ref → Nat) (t : TRef) (hne : (h.tseq t).vals ≠ [])
    (ex : ∀ x ∈ (h.tseq t).vals, Exportable h rank x) :
    ∃ paths : List (List Ref), tierRows h true t = .ok (paths.map fun p => p.flatMap (cellsOf h)) ∧
      (∀ p, p ∈ paths ↔ ∃ x ∈ (h.tseq t).vals, LeafPath h x p) ∧
      paths.Pairwise (fun p q => PBefore h p q ∨ ∃ i j : Nat, i < j ∧ (h.tseq t).vals[i]? = p.head? ∧
        (h.tseq t).vals[j]? = q.head?) := by
  refine ⟨(h.tseq t).vals.flatMap (pathsN h pathFuel), ?_, ?_, ?_⟩
  · rw [tierRows, concatRows, if_neg hne]
    rw [collect_ok _ (fun x => (pathsN h pathFuel x).map fun p => p.flatMap (cellsOf h))]
    · rw [List.map_flatMap]
    · intro x hx
      have := ex x hx
      rw [entryRows, if_pos rfl]
      exact entryRowsN_ok h rank _ x this.depth this.falls this.defined this.ivals this.names
  · intro p
    simp only [List.mem_flatMap]
    constructor
    · rintro ⟨x, hx, hp⟩; exact ⟨x, hx, (pathsN_mem h rank _ x (ex x hx).depth (ex x hx).falls p).mp hp⟩
    · rintro ⟨x, hx, hp⟩; exact ⟨x, hx, (pathsN_mem h rank _ x (ex x hx).depth (ex x hx).falls p).mpr hp⟩
  · rw [List.pairwise_flatMap]
    refine ⟨fun x _ => (pathsN_order h _ x).imp fun b => .inl b, ?_⟩
    rw [List.pairwise_iff_getElem]
    intro i j hi hj hij p hp q hq
    obtain ⟨p', rfl⟩ := pathsN_head h _ _ p hp
    obtain ⟨q', rfl⟩ := pathsN_head h _ _ q hq
    exact .inr ⟨i, j, hij, by simp [hi], by simp [hj]⟩

/-- C46 for groups (what holds): the frame of a group of interval tiers is that of its top tier, with the
    name of the group.

    Missing for the full statement: entries of lower tiers that are in no entry of the top tier have no
    row (`C46_lost_violated`), and an empty top tier raises (`C46_empty_violated`). -/
theorem C46_group_partial (h : Heap) (name : GRef → String) (g : GRef) (t : TRef) (ts : List TRef)
    (hg : h.gtiers g = t :: ts) (hp : h.gpoint g = false) (rows : List Row)
    (hr : tierRows h true t = .ok rows) :
    groupRows h name true g = .ok (rows.map fun r => r ++ [("name", .text (name g))]) := by
  simp [groupRows, hp, hg, hr]

/-- C46 fails for every empty tier: the call raises a `ValueError`. -/
theorem C46_empty_violated (h : Heap) (b : Bool) (t : TRef) (he : (h.tseq t).vals = []) :
    tierRows h b t = .error .valueError := by
  rw [tierRows, concatRows, if_pos he]

/-- a word and its phone, and another phone appended to the phone tier with `re_relate=False` -/
def exLostPhone : Heap := run0 (do
  let t ← newTierFrom [(0, 1, "w")] cWord "Word"
  let u ← newTierFrom [(0, 1, "a")] cPhone "Phone"
  let _ ← newGroup [t, u]
  let b ← newEntry cPhone 1 2 "b"
  tierAppendNR u b)

/-- C46 fails for a phone that is in the tier but in no word: it has no row. -/
theorem C46_lost_violated : (exLostPhone.tseq 1).vals = [1, 2] ∧ exLostPhone.label 2 = "b" ∧
    groupRows exLostPhone (fun _ => "g") true 0 = .ok [
      [("Word_id", .text "0-0"), ("Word_tier_index", .int 0), ("Word_label", .text "w"),
       ("Word_start", .num 0), ("Word_end", .num 1),
       ("Phone_id", .text "0-0-0"), ("Phone_tier_index", .int 0), ("Phone_label", .text "a"),
       ("Phone_start", .num 0), ("Phone_end", .num 1), ("name", .text "g")]] := by decide +kernel

/-- C46 fails when an interval contains another one with the same class name: the columns collide and
    `polars` raises. -/
theorem C46_same_name_violated (h : Heap) (x y : Ref) (k : Nat) (hy : contL h x = [y]) (he : contL h y = [])
    (hx : ∃ i k, nodeId h (.entry x) = .ok i ∧ tierIndex h x = .ok k)
    (hyd : ∃ i k, nodeId h (.entry y) = .ok i ∧ tierIndex h y = .ok k)
    (hpx : h.isPoint x = false) (hpy : h.isPoint y = false)
    (hn : h.ct.name (h.cls x) = h.ct.name (h.cls y)) : entryRowsN h (k + 2) x = .error .exc := by
  obtain ⟨i, j, hi, hj⟩ := hx
  obtain ⟨i', j', hi', hj'⟩ := hyd
  have hyr : entryRowsN h (k + 1) y = .ok [cellsOf h y] := by
    rw [entryRowsN, he]
    simp only [collect, attrCells_ok h y i' j' hi' hj']
    have := prefixed_cells h y hpy
    simp only [hpy, Bool.false_eq_true, if_false] at this ⊢
    rw [this]; simp
  rw [entryRowsN, hy]
  simp only [collect, hyr, attrCells_ok h x i j hi hj]
  have := prefixed_cells h x hpx
  simp only [hpx, Bool.false_eq_true, if_false] at this ⊢
  rw [this]
  have hs : sharedColumn (cellsOf h x) ([cellsOf h y] ++ []) = true := by
    simp [sharedColumn, cellsOf, hn]
  rw [hs]; simp

/-! ## C47 without subsets -/

/-- ids and positions of all entries of the tier are defined -/
def Placed (h : Heap) (t : TRef) : Prop :=
  ∀ x ∈ (h.tseq t).vals, ∃ i k, nodeId h (.entry x) = .ok i ∧ tierIndex h x = .ok k

/-- C47 for tiers: one row for each entry, in order. -/
theorem C47_tier (h : Heap) (t : TRef) (hne : (h.tseq t).vals ≠ []) (hp : Placed h t) :
    tierRows h false t = .ok ((h.tseq t).vals.map (rowOf h)) := by
  rw [tierRows, concatRows, if_neg hne]
  rw [collect_ok _ (fun x => [rowOf h x])]
  · congr 1
    induction (h.tseq t).vals with
    | nil => rfl
    | cons a l ih => simp [ih]
  · intro x hx
    obtain ⟨i, k, hi, hk⟩ := hp x hx
    rw [entryRows, if_neg (by simp), entryRowFlat, attrCells_ok h x i k hi hk]
    rfl

/-- C47 (what holds): the frame of a textgrid without subsets has one row for each entry of each tier of
    each group, in this order, with the name of the group.

    Missing for the full statement: empty tiers, for which it is false (`C47_empty_violated`). -/
theorem C47_textgrid_partial (h : Heap) (name : GRef → String) (a : ARef) (hne : h.agroups a ≠ [])
    (hg : ∀ g ∈ h.agroups a, h.gtiers g ≠ [])
    (ht : ∀ g ∈ h.agroups a, ∀ t ∈ h.gtiers g, (h.tseq t).vals ≠ [] ∧ Placed h t) :
    textgridRows h name false a = .ok ((h.agroups a).flatMap fun g => (h.gtiers g).flatMap fun t =>
      (h.tseq t).vals.map fun x => rowOf h x ++ [("name", .text (name g))]) := by
  rw [textgridRows, concatRows, if_neg hne]
  refine collect_ok _ _ _ fun g hgm => ?_
  have : concatRows (tierRows h false) (h.gtiers g) =
      .ok ((h.gtiers g).flatMap fun t => (h.tseq t).vals.map (rowOf h)) := by
    rw [concatRows, if_neg (hg g hgm)]
    exact collect_ok _ _ _ fun t htm => C47_tier h t (ht g hgm t htm).1 (ht g hgm t htm).2
  simp only [groupRows, Bool.and_false, Bool.false_eq_true, if_false, this]
  simp only [List.map_flatMap, List.map_map, Function.comp_def]

/-- C47 fails as soon as some tier is empty and the entries are otherwise fine: the frame of the whole
    group raises a `ValueError`. -/
theorem C47_empty_violated (h : Heap) (name : GRef → String) (g : GRef) (t : TRef) (ht : t ∈ h.gtiers g)
    (he : (h.tseq t).vals = []) (hp : ∀ u ∈ h.gtiers g, Placed h u) :
    groupRows h name false g = .error .valueError := by
  have : concatRows (tierRows h false) (h.gtiers g) = .error .valueError := by
    rw [concatRows, if_neg (List.ne_nil_of_mem ht)]
    refine collect_err _ _ t ht _ ?_ (C46_empty_violated h false t he)
    intro u hu
    by_cases hv : (h.tseq u).vals = []
    · exact .inr (C46_empty_violated h false u hv)
    · exact .inl ⟨_, C47_tier h u hv (hp u hu)⟩
  simp only [groupRows, Bool.and_false, Bool.false_eq_true, if_false, this]

/-- two words and three phones in a group -/
def exFrame : Heap := run0 (do
  let t ← newTierFrom [(0, 2, "w"), (2, 3, "v")] cWord "Word"
  let u ← newTierFrom [(0, 1, "a"), (1, 2, "b"), (2, 3, "c")] cPhone "Phone"
  let _ ← newGroup [t, u]
  pure ())
example : Placed exFrame 0 ∧ Placed exFrame 1 ∧ contL exFrame 0 = [2, 3] ∧ contL exFrame 1 = [4] := by
  unfold Placed
  refine ⟨?_, ?_, by decide +kernel, by decide +kernel⟩
  · rw [show (exFrame.tseq 0).vals = [0, 1] by decide +kernel]
    intro x hx
    simp only [List.mem_cons, List.not_mem_nil, or_false] at hx
    rcases hx with rfl | rfl
    · exact ⟨"0-0", some 0, by decide +kernel, by decide +kernel⟩
    · exact ⟨"0-1", some 1, by decide +kernel, by decide +kernel⟩
  · rw [show (exFrame.tseq 1).vals = [2, 3, 4] by decide +kernel]
    intro x hx
    simp only [List.mem_cons, List.not_mem_nil, or_false] at hx
    rcases hx with rfl | rfl | rfl
    · exact ⟨"0-0-0", some 0, by decide +kernel, by decide +kernel⟩
    · exact ⟨"0-0-1", some 1, by decide +kernel, by decide +kernel⟩
    · exact ⟨"0-1-0", some 2, by decide +kernel, by decide +kernel⟩

/-- a word of two phones -/
def exWordTree : Heap := { heapOf [(cWord, 0, 2, "w"), (cPhone, 0, 1, "a"), (cPhone, 1, 2, "b")] with
  subs := fun x => if x = 0 then ⟨[1, 2], some cPhone⟩ else SL.empty
  cont := fun x => if x = 0 then .alias else .unset
  within := fun _ => none
  intier := fun _ => none }
theorem exWordTree_cont (x : Ref) : contL exWordTree x = if x = 0 then [1, 2] else [] := by
  unfold contL exWordTree
  by_cases hx : x = 0 <;> simp [hx]
theorem exWordTree_below {x y : Ref} (b : Below exWordTree x y) : y = x ∨ (x = 0 ∧ (y = 1 ∨ y = 2)) := by
  induction b with
  | refl => exact .inl rfl
  | step x y z hy _ ih =>
    rw [exWordTree_cont] at hy
    split at hy
    · simp only [List.mem_cons, List.not_mem_nil, or_false] at hy
      rcases hy with rfl | rfl <;> simp_all
    · cases hy
example : Exportable exWordTree (fun x => if x = 0 then 1 else 0) 0 where
  falls := by
    intro y z _ hz
    rw [exWordTree_cont] at hz
    split at hz
    · simp only [List.mem_cons, List.not_mem_nil, or_false] at hz
      rcases hz with rfl | rfl <;> simp_all
    · cases hz
  depth := by simp [pathFuel]
  defined := fun y _ => ⟨"", none, rfl, rfl⟩
  ivals := by
    intro y b
    rcases exWordTree_below b with rfl | ⟨-, rfl | rfl⟩ <;> decide +kernel
  names := by
    intro y z w b hz bw
    rw [exWordTree_cont] at hz
    split at hz
    · rename_i h0
      subst h0
      simp only [List.mem_cons, List.not_mem_nil, or_false] at hz
      rcases hz with rfl | rfl <;> rcases exWordTree_below bw with rfl | ⟨h0, -⟩ <;>
        first | decide +kernel | exact absurd h0 (by decide)
    · cases hz

/-- a word that contains a word -/
def exWordInWord : Heap := { exWordTree with
  cls := fun _ => cWord
  subs := fun x => if x = 0 then ⟨[1], some cWord⟩ else SL.empty }
example : entryRowsN exWordInWord 2 0 = .error .exc :=
  C46_same_name_violated exWordInWord 0 1 0 rfl rfl ⟨"", none, rfl, rfl⟩ ⟨"", none, rfl, rfl⟩
    (by decide +kernel) (by decide +kernel) rfl

end ATG
