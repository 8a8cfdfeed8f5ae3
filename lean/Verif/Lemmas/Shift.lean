import Verif.Model.Base
import Verif.Lemmas.Prec
/-!
# Shifting times
-/
namespace ATG

/-- the heap in which exactly the entries of `S` have moved by `d` -/
def shiftOn (S : List Ref) (d : Time) (h : Heap) : Heap :=
  { h with
    start := fun x => if x ∈ S then h.start x + d else h.start x
    stop := fun x => if x ∈ S then h.stop x + d else h.stop x }

theorem forL_setStart (g : Ref → Time) (l : List Ref) : ∀ h : Heap,
    M.forL ((l.map g).zip l) (fun p => setStart p.2 p.1) h =
      .ok () { h with start := fun x => if x ∈ l then g x else h.start x } := by
  induction l with
  | nil => intro h; simp
  | cons a as ih =>
    intro h
    simp only [List.map_cons, List.zip_cons_cons]
    rw [M.forL_cons]
    simp only [setStart, M.modify_apply] at ih ⊢
    rw [ih]
    congr 2
    funext x
    by_cases h1 : x ∈ as
    · simp [h1]
    · by_cases h2 : x = a
      · subst h2; simp [h1]
      · simp [h1, h2, upd]

theorem forL_setStop (g : Ref → Time) (l : List Ref) : ∀ h : Heap,
    M.forL ((l.map g).zip l) (fun p => setStop p.2 p.1) h =
      .ok () { h with stop := fun x => if x ∈ l then g x else h.stop x } := by
  induction l with
  | nil => intro h; simp
  | cons a as ih =>
    intro h
    simp only [List.map_cons, List.zip_cons_cons]
    rw [M.forL_cons]
    simp only [setStop, M.modify_apply] at ih ⊢
    rw [ih]
    congr 2
    funext x
    by_cases h1 : x ∈ as
    · simp [h1]
    · by_cases h2 : x = a
      · subst h2; simp [h1]
      · simp [h1, h2, upd]

theorem tierShift_ok (t : TRef) (d : Time) (h : Heap) :
    tierShift t d h = .ok () (shiftOn (h.tseq t).vals d h) := by
  unfold tierShift setStarts setEnds
  mstep M.get_apply h
  have e1 : (h.tstarts t).map (· + d) = (h.tseq t).vals.map (fun x => h.start x + d) := by
    simp [Heap.tstarts, List.map_map, Function.comp_def]
  rw [e1]
  refine Eq.trans (M.bind_ok (h' := { h with
    start := fun x => if x ∈ (h.tseq t).vals then h.start x + d else h.start x }) (a := ()) ?_) ?_
  · mstep M.get_apply h
    rw [if_pos (by simp)]
    exact forL_setStart _ _ h
  · mstep M.get_apply _
    mstep M.get_apply _
    rw [if_pos (by simp [Heap.tends])]
    have e2 : (Heap.tends { h with
        start := fun x => if x ∈ (h.tseq t).vals then h.start x + d else h.start x } t).map (· + d) =
        (h.tseq t).vals.map (fun x => h.stop x + d) := by
      simp [Heap.tends, List.map_map, Function.comp_def]
    rw [e2]
    exact forL_setStop _ _ _

theorem shiftOn_nil (d : Time) (h : Heap) : shiftOn [] d h = h := by simp [shiftOn]

theorem shiftOn_append (S T : List Ref) (d : Time) (h : Heap) (hd : ∀ x ∈ S, x ∉ T) :
    shiftOn T d (shiftOn S d h) = shiftOn (S ++ T) d h := by
  unfold shiftOn
  congr 1 <;> funext x <;> by_cases h1 : x ∈ S <;> by_cases h2 : x ∈ T <;>
    simp [h1, h2] <;> exact absurd h2 (hd x h1)

theorem shiftOn_add (S : List Ref) (a b : Time) (h : Heap) :
    shiftOn S b (shiftOn S a h) = shiftOn S (a + b) h := by
  unfold shiftOn
  congr 1 <;> funext x <;> by_cases h1 : x ∈ S <;> simp [h1] <;> grind

theorem shiftOn_zero (S : List Ref) (h : Heap) : shiftOn S 0 h = h := by
  have e1 : (fun x => if x ∈ S then h.start x + 0 else h.start x) = h.start := by funext x; grind
  have e2 : (fun x => if x ∈ S then h.stop x + 0 else h.stop x) = h.stop := by funext x; grind
  unfold shiftOn; rw [e1, e2]

theorem forL_tierShift (d : Time) (ts : List TRef) : ∀ h : Heap,
    (ts.flatMap fun t => (h.tseq t).vals).Nodup →
    M.forL ts (fun t => tierShift t d) h =
      .ok () (shiftOn (ts.flatMap fun t => (h.tseq t).vals) d h) := by
  induction ts with
  | nil => intro h _; simp [shiftOn_nil]
  | cons t ts ih =>
    intro h hn
    rw [M.forL_cons, tierShift_ok]
    simp only [List.flatMap_cons] at hn ⊢
    rw [List.nodup_append] at hn
    obtain ⟨hn1, hn2, hn3⟩ := hn
    rw [ih (shiftOn _ d h) (by exact hn2)]
    congr 1
    show shiftOn (ts.flatMap fun t => (h.tseq t).vals) d _ = _
    exact shiftOn_append _ _ d h (fun x hx hy => hn3 x hx x hy rfl)

/-! ## the subtree of an interval -/

/-- `y` is `x` or lies below it in the subset hierarchy -/
inductive Desc (h : Heap) : Ref → Ref → Prop
  | refl (x : Ref) : Desc h x x
  | step (x z y : Ref) : z ∈ (h.subs x).vals → Desc h z y → Desc h x y

/-- the preorder list of the subtree, to depth `n` -/
def subtree (h : Heap) : Nat → Ref → List Ref
  | 0, x => [x]
  | n + 1, x => x :: (h.subs x).vals.flatMap (subtree h n)

theorem subtree_congr (h h' : Heap) (e : h'.subs = h.subs) (n : Nat) : ∀ x, subtree h' n x = subtree h n x := by
  induction n with
  | zero => intro x; rfl
  | succ n ih => intro x; simp only [subtree, e]; congr 2; funext y; exact ih y

theorem mem_subtree (h : Heap) (rank : Ref → Nat)
    (hr : ∀ x, ∀ y ∈ (h.subs x).vals, rank y < rank x) (n : Nat) :
    ∀ x y, rank x ≤ n → (y ∈ subtree h n x ↔ Desc h x y) := by
  induction n with
  | zero =>
    intro x y hx
    simp only [subtree, List.mem_singleton]
    constructor
    · rintro rfl; exact .refl _
    · intro hd
      cases hd with
      | refl => rfl
      | step _ z _ hz _ => have := hr x z hz; omega
  | succ n ih =>
    intro x y hx
    simp only [subtree, List.mem_cons, List.mem_flatMap]
    constructor
    · rintro (rfl | ⟨z, hz, hy⟩)
      · exact .refl _
      · exact .step _ z _ hz ((ih z y (by have := hr x z hz; omega)).mp hy)
    · intro hd
      cases hd with
      | refl => left; rfl
      | step _ z _ hz hd => right; exact ⟨z, hz, (ih z y (by have := hr x z hz; omega)).mpr hd⟩

theorem Desc.rank {h : Heap} {rank : Ref → Nat} (hr : ∀ x, ∀ y ∈ (h.subs x).vals, rank y < rank x)
    {x y : Ref} (hd : Desc h x y) : y = x ∨ rank y < rank x := by
  induction hd with
  | refl => left; rfl
  | step x z y hz _ ih =>
    right
    have := hr x z hz
    rcases ih with rfl | ih <;> omega

theorem Desc.trans {h : Heap} {x y z : Ref} (a : Desc h x y) (b : Desc h y z) : Desc h x z := by
  induction a with
  | refl => exact b
  | step x w y hw _ ih => exact .step _ w _ hw (ih b)

/-- In a forest, ancestors of one entry are comparable. -/
theorem Desc.parent {h : Heap} {x y : Ref} (hd : Desc h x y) : y = x ∨ ∃ p, y ∈ (h.subs p).vals ∧ Desc h x p := by
  induction hd with
  | refl => left; rfl
  | step x z y hz _ ih =>
    right
    rcases ih with rfl | ⟨p, hp, hd⟩
    · exact ⟨x, hz, .refl _⟩
    · exact ⟨p, hp, .step _ z _ hz hd⟩

theorem Desc.compare {h : Heap} (ho : ∀ v w x, x ∈ (h.subs v).vals → x ∈ (h.subs w).vals → v = w)
    {u v y : Ref} (a : Desc h u y) : Desc h v y → Desc h u v ∨ Desc h v u := by
  induction a with
  | refl => intro b; right; exact b
  | step u z y hz hzy ih =>
    intro b
    rcases ih b with h1 | h1
    · left; exact .step _ z _ hz h1
    · rcases h1.parent with rfl | ⟨p, hp, hd⟩
      · left; exact .step _ _ _ hz (.refl _)
      · have : p = u := ho p u z hp hz
        subst this; right; exact hd

theorem subtree_nodup (h : Heap) (rank : Ref → Nat)
    (hr : ∀ x, ∀ y ∈ (h.subs x).vals, rank y < rank x)
    (ho : ∀ v w x, x ∈ (h.subs v).vals → x ∈ (h.subs w).vals → v = w)
    (hn : ∀ w, (h.subs w).vals.Nodup) (n : Nat) :
    ∀ x, rank x ≤ n → (subtree h n x).Nodup := by
  induction n with
  | zero => intro x _; simp [subtree]
  | succ n ih =>
    intro x hx
    simp only [subtree, List.nodup_cons, List.mem_flatMap]
    have hle : ∀ z ∈ (h.subs x).vals, rank z ≤ n := fun z hz => by have := hr x z hz; omega
    refine ⟨?_, ?_⟩
    · rintro ⟨z, hz, hy⟩
      have hd := (mem_subtree h rank hr n z x (hle z hz)).mp hy
      have := hr x z hz
      rcases hd.rank hr with e | e
      · subst e; omega
      · omega
    · have key : ∀ l : List Ref, l.Nodup → (∀ z ∈ l, z ∈ (h.subs x).vals) →
          (l.flatMap (subtree h n)).Nodup := by
        intro l
        induction l with
        | nil => intro _ _; simp
        | cons a as ih2 =>
          intro hnd hmem
          rw [List.flatMap_cons, List.nodup_append]
          rw [List.nodup_cons] at hnd
          refine ⟨ih a (hle a (hmem a (by simp))), ih2 hnd.2 (fun z hz => hmem z (by simp [hz])), ?_⟩
          rintro y hy _ hy' rfl
          rw [List.mem_flatMap] at hy'
          obtain ⟨b, hb, hyb⟩ := hy'
          have ha := hmem a (by simp)
          have hbm := hmem b (by simp [hb])
          have d1 := (mem_subtree h rank hr n a y (hle a ha)).mp hy
          have d2 := (mem_subtree h rank hr n b y (hle b hbm)).mp hyb
          have hab : a ≠ b := by rintro rfl; exact hnd.1 hb
          have aux : ∀ a b, a ∈ (h.subs x).vals → b ∈ (h.subs x).vals → a ≠ b → Desc h a b → False := by
            intro a b ha hb hab hd
            rcases hd.parent with rfl | ⟨p, hp, hd⟩
            · exact hab rfl
            · have : p = x := ho p x b hp hb
              subst this
              have := hr p a ha
              rcases hd.rank hr with e | e
              · subst e; omega
              · omega
          rcases Desc.compare ho d1 d2 with hc | hc
          · exact aux a b ha hbm hab hc
          · exact aux b a hbm ha (Ne.symm hab) hc
      exact key _ (hn x) (fun z hz => hz)

theorem shiftOn_cons (x : Ref) (d : Time) (h : Heap) :
    ({ h with start := upd h.start x (h.start x + d), stop := upd h.stop x (h.stop x + d) } : Heap) =
      shiftOn [x] d h := by
  unfold shiftOn
  congr 1 <;> funext y <;> by_cases e : y = x <;> simp [upd, e]

theorem ivalShiftN_ok (d : Time) (rank : Ref → Nat) (n : Nat) : ∀ (x : Ref) (h : Heap),
    (∀ x, ∀ y ∈ (h.subs x).vals, rank y < rank x) → rank x ≤ n → (subtree h n x).Nodup →
    ivalShiftN (n + 1) x d h = .ok () (shiftOn (subtree h n x) d h) := by
  induction n with
  | zero =>
    intro x h hr hx hnd
    have hemp : (h.subs x).vals = [] := by
      cases hl : (h.subs x).vals with
      | nil => rfl
      | cons z zs => have := hr x z (by simp [hl]); omega
    unfold ivalShiftN
    mstep M.modify_apply _ h
    mstep M.modify_apply _ _
    mstep M.get_apply _
    simp only [hemp, M.forL_nil]
    rw [subtree, ← shiftOn_cons]
  | succ n ih =>
    intro x h hr hx hnd
    unfold ivalShiftN
    mstep M.modify_apply _ h
    mstep M.modify_apply _ _
    mstep M.get_apply _
    simp only [shiftOn_cons]
    simp only [subtree, List.nodup_cons] at hnd
    have key : ∀ (l : List Ref) (k : Heap), k.subs = h.subs → (∀ z ∈ l, rank z ≤ n) →
        (l.flatMap (subtree h n)).Nodup →
        M.forL l (fun y => ivalShiftN (n + 1) y d) k = .ok () (shiftOn (l.flatMap (subtree h n)) d k) := by
      intro l
      induction l with
      | nil => intro k _ _ _; simp [shiftOn_nil]
      | cons a as ih2 =>
        intro k hk hle hn
        rw [List.flatMap_cons, List.nodup_append] at hn
        rw [M.forL_cons, ih a k (by rw [hk]; exact hr) (hle a (by simp)) (by
          rw [subtree_congr h k hk]; exact hn.1), subtree_congr h k hk]
        simp only []
        rw [ih2 (shiftOn (subtree h n a) d k) hk (fun z hz => hle z (by simp [hz])) hn.2.1,
          shiftOn_append _ _ _ _ (fun y h1 h2 => hn.2.2 y h1 y h2 rfl), List.flatMap_cons]
    rw [key _ (shiftOn [x] d h) rfl (fun z hz => by have := hr x z hz; omega) hnd.2]
    rw [shiftOn_append _ _ _ _ (by
      intro y hy; simp only [List.mem_singleton] at hy; subst hy; exact hnd.1)]
    rfl

end ATG
