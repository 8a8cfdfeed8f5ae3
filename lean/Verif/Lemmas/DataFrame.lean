import Verif.Model.DataFrame
/-!
# Data frames: helper lemmas
-/
namespace ATG

/-- `y` is `x` or is contained in it, at any depth -/
inductive Below (h : Heap) : Ref → Ref → Prop
  | refl (x : Ref) : Below h x x
  | step (x y z : Ref) : y ∈ contL h x → Below h y z → Below h x z

theorem Below.trans {h : Heap} {x y z : Ref} (a : Below h x y) (b : Below h y z) : Below h x z := by
  induction a with
  | refl => exact b
  | step x w _ hw _ ih => exact .step x w z hw (ih b)

theorem Below.single {h : Heap} {x y : Ref} (hy : y ∈ contL h x) : Below h x y := .step x y y hy (.refl y)

/-- `p` leads from `x` down to an entry that contains nothing -/
inductive LeafPath (h : Heap) : Ref → List Ref → Prop
  | leaf (x : Ref) : contL h x = [] → LeafPath h x [x]
  | node (x y : Ref) (p : List Ref) : y ∈ contL h x → LeafPath h y p → LeafPath h x (x :: p)

/-- `p` comes before `q`: where they part, `p` goes to the earlier entry -/
inductive PBefore (h : Heap) : List Ref → List Ref → Prop
  | here (x y z : Ref) (p q : List Ref) (i j : Nat) : (contL h x)[i]? = some y → (contL h x)[j]? = some z →
      i < j → PBefore h (x :: y :: p) (x :: z :: q)
  | there (x : Ref) (p q : List Ref) : PBefore h p q → PBefore h (x :: p) (x :: q)

theorem LeafPath.head {h : Heap} {x : Ref} {p : List Ref} (l : LeafPath h x p) : ∃ q, p = x :: q := by
  cases l with
  | leaf => exact ⟨[], rfl⟩
  | node y p _ _ => exact ⟨_, rfl⟩

theorem collect_ok {α : Type} (f : α → Except Err (List Row)) (g : α → List Row) :
    ∀ (l : List α), (∀ x ∈ l, f x = .ok (g x)) → collect f l = .ok (l.flatMap g) := by
  intro l
  induction l with
  | nil => intro _; rfl
  | cons a l ih =>
    intro hl
    rw [collect, hl a (by simp), ih fun x hx => hl x (by simp [hx])]
    rfl

theorem collect_err {α : Type} (f : α → Except Err (List Row)) (l : List α) (x : α) (hx : x ∈ l) (e : Err)
    (he : ∀ y ∈ l, (∃ r, f y = .ok r) ∨ f y = .error e) (hxe : f x = .error e) : collect f l = .error e := by
  induction l with
  | nil => cases hx
  | cons a l ih =>
    rw [collect]
    rcases he a (by simp) with ⟨r, hr⟩ | hr
    · rw [hr]
      have hne : a ≠ x := by rintro rfl; rw [hxe] at hr; cases hr
      have hxl : x ∈ l := by
        rcases List.mem_cons.mp hx with rfl | h
        · exact absurd rfl hne
        · exact h
      rw [ih hxl fun y hy => he y (by simp [hy])]
    · rw [hr]

/-- the paths, with fuel -/
def pathsN (h : Heap) : Nat → Ref → List (List Ref)
  | 0, _ => []
  | k + 1, x => if contL h x = [] then [[x]] else ((contL h x).flatMap (pathsN h k)).map (x :: ·)

theorem pathsN_mem (h : Heap) (rank : Ref → Nat) : ∀ (k : Nat) (x : Ref), rank x < k →
    (∀ y z, Below h x y → z ∈ contL h y → rank z < rank y) →
    ∀ p, p ∈ pathsN h k x ↔ LeafPath h x p := by
  intro k
  induction k with
  | zero => intro x hk; omega
  | succ k ih =>
    intro x hk hr p
    rw [pathsN]
    split
    · rename_i he
      rw [List.mem_singleton]
      constructor
      · rintro rfl; exact .leaf x he
      · intro l
        cases l with
        | leaf => rfl
        | node _ y p hy _ => rw [he] at hy; cases hy
    · rename_i hne
      simp only [List.mem_map, List.mem_flatMap]
      have key : ∀ y ∈ contL h x, ∀ p, p ∈ pathsN h k y ↔ LeafPath h y p := fun y hy =>
        ih y (by have := hr x y (.refl x) hy; omega) (fun a b ha hb => hr a b (.step x y a hy ha) hb)
      constructor
      · rintro ⟨q, ⟨y, hy, hq⟩, rfl⟩
        exact .node x y q hy ((key y hy q).mp hq)
      · intro l
        cases l with
        | leaf _ he => exact absurd he hne
        | node _ y q hy hq => exact ⟨q, ⟨y, hy, (key y hy q).mpr hq⟩, rfl⟩

theorem pathsN_ne_nil (h : Heap) (rank : Ref → Nat) : ∀ (k : Nat) (x : Ref), rank x < k →
    (∀ y z, Below h x y → z ∈ contL h y → rank z < rank y) → pathsN h k x ≠ [] := by
  intro k
  induction k with
  | zero => intro x hk; omega
  | succ k ih =>
    intro x hk hr
    rw [pathsN]
    split
    · simp
    · rename_i hne
      cases e : contL h x with
      | nil => exact absurd e hne
      | cons y ys =>
        have hy : y ∈ contL h x := by rw [e]; simp
        have := ih y (by have := hr x y (.refl x) hy; omega) (fun a b ha hb => hr a b (.step x y a hy ha) hb)
        simp [this]

theorem pathsN_head (h : Heap) (k : Nat) (x : Ref) (p : List Ref) (hp : p ∈ pathsN h k x) :
    ∃ q, p = x :: q := by
  cases k with
  | zero => cases hp
  | succ k =>
    rw [pathsN] at hp
    split at hp
    · rw [List.mem_singleton] at hp; exact ⟨[], hp⟩
    · simp only [List.mem_map] at hp
      obtain ⟨q, -, rfl⟩ := hp
      exact ⟨q, rfl⟩

theorem pathsN_order (h : Heap) : ∀ (k : Nat) (x : Ref), (pathsN h k x).Pairwise (PBefore h) := by
  intro k
  induction k with
  | zero => intro x; exact .nil
  | succ k ih =>
    intro x
    rw [pathsN]
    split
    · simp
    · rw [List.pairwise_map, List.pairwise_flatMap]
      refine ⟨?_, ?_⟩
      · intro y _
        exact (ih y).imp fun hpq => .there x _ _ hpq
      · rw [List.pairwise_iff_getElem]
        intro i j hi hj hij p hp q hq
        obtain ⟨p', rfl⟩ := pathsN_head h k _ p hp
        obtain ⟨q', rfl⟩ := pathsN_head h k _ q hq
        exact .here x _ _ p' q' i j (List.getElem?_eq_getElem hi) (List.getElem?_eq_getElem hj) hij

/-- the attributes of an interval that become columns -/
def attNames : List String := ["id", "tier_index", "label", "start", "end"]

theorem column_inj (c d k l : String) (hk : k ∈ attNames) (hl : l ∈ attNames)
    (e : c ++ "_" ++ k = d ++ "_" ++ l) : c = d := by
  have e' := congrArg (fun s => s.toList.reverse) e
  simp only [attNames, List.mem_cons, List.not_mem_nil, or_false] at hk hl
  rcases hk with rfl | rfl | rfl | rfl | rfl <;> rcases hl with rfl | rfl | rfl | rfl | rfl <;>
    simp at e' <;> exact String.toList_inj.mp e'

end ATG
