import Verif.Spec.Stem
import Verif.Lemmas.Shift
import Verif.Lemmas.AddGroups
import Verif.Lemmas.GapAlign
import Verif.Props.Shift
/-!
# Facts about intervals with everything below them
-/
namespace ATG

variable {h : Heap}

theorem Tree.plain {cs : List CRef} {c : CRef} {x : Ref} (t : Tree h (c :: cs) x) : Plain h c x := by
  cases cs with
  | nil => exact t.1
  | cons d cs => exact t.1

theorem Tree.below {cs : List CRef} {c : CRef} {x y : Ref} (t : Tree h (c :: cs) x) (hy : y ∈ (h.subs x).vals) : Tree h cs y := by
  cases cs with
  | nil => rw [t.2] at hy; cases hy
  | cons d cs => exact t.2.2 y hy

theorem Tree.disjoint {cs : List CRef} {x : Ref} (t : Tree h cs x) : (h.subs x).vals.Pairwise fun y z => h.stop y ≤ h.start z := by
  match cs, t with
  | [c], t => rw [t.2]; exact List.Pairwise.nil
  | c :: d :: cs, t => exact t.2.1.sorted

theorem Tree.child {cs : List CRef} {x y : Ref} (t : Tree h cs x) (hy : y ∈ (h.subs x).vals) :
    h.start x ≤ h.start y ∧ h.start y < h.stop y ∧ h.stop y ≤ h.stop x := by
  match cs, t with
  | [c], t => rw [t.2] at hy; cases hy
  | c :: d :: cs, t =>
    obtain ⟨a, b, e, -⟩ := t.2.1.mem y hy
    exact ⟨a, b, e⟩

theorem Tree.desc : ∀ {cs : List CRef} {x y : Ref}, Tree h cs x → Desc h x y →
    h.start x ≤ h.start y ∧ h.start y < h.stop y ∧ h.stop y ≤ h.stop x ∧ h.cls y ∈ cs ∧ h.label y ≠ "#"
  | [], _, _, t, _ => t.elim
  | c :: cs, x, y, t, d => by
    cases d with
    | refl =>
      have := t.plain
      exact ⟨Rat.le_refl, this.2.2, Rat.le_refl, by rw [this.1]; simp, this.2.1⟩
    | step _ z _ hz d =>
      obtain ⟨a1, a2, a3, a4, a5⟩ := (t.below hz).desc d
      obtain ⟨b1, -, b3⟩ := t.child hz
      exact ⟨by grind, a2, by grind, List.mem_cons_of_mem _ a4, a5⟩

theorem generation_desc : ∀ (j : Nat) {x y : Ref}, y ∈ generation h j x → Desc h x y
  | 0, x, y, hy => by
    have : y = x := by simpa [generation] using hy
    subst this
    exact .refl _
  | j + 1, x, y, hy => by
    obtain ⟨z, hz, hy⟩ := List.mem_flatMap.mp hy
    exact .step _ z _ hz (generation_desc j hy)

theorem Tree.generation_cls : ∀ {cs : List CRef} {x : Ref}, Tree h cs x → ∀ (j : Nat) {y : Ref}, y ∈ generation h j x →
    cs[j]? = some (h.cls y)
  | [], _, t, _, _, _ => t.elim
  | c :: cs, x, t, 0, y, hy => by
    have : y = x := by simpa [generation] using hy
    subst this
    simp [t.plain.1]
  | c :: cs, x, t, j + 1, y, hy => by
    obtain ⟨z, hz, hy⟩ := List.mem_flatMap.mp hy
    exact (t.below hz).generation_cls j hy

theorem Tree.desc_generation : ∀ {cs : List CRef} {x y : Ref}, Tree h cs x → Desc h x y → ∃ j, j < cs.length ∧ y ∈ generation h j x
  | [], _, _, t, _ => t.elim
  | c :: cs, x, y, t, d => by
    cases d with
    | refl => exact ⟨0, by simp, by simp [generation]⟩
    | step _ z _ hz d =>
      obtain ⟨j, hj, hy⟩ := (t.below hz).desc_generation d
      exact ⟨j + 1, by simpa using hj, List.mem_flatMap.mpr ⟨z, hz, hy⟩⟩

theorem Tree.generation_nil : ∀ {cs : List CRef} {x : Ref}, Tree h cs x → ∀ (j : Nat), cs.length ≤ j → generation h j x = [] := by
  intro cs x t j hj
  apply List.eq_nil_iff_forall_not_mem.mpr
  intro y hy
  have := t.generation_cls j hy
  rw [List.getElem?_eq_none hj] at this
  cases this

theorem Tree.generation_ne : ∀ (j : Nat) {cs : List CRef} {x : Ref}, Tree h cs x → j < cs.length → generation h j x ≠ []
  | 0, _, _, _, _ => by simp [generation]
  | j + 1, [], _, t, _ => t.elim
  | j + 1, [_], _, _, hj => absurd hj (by simp)
  | j + 1, c :: d :: cs, x, t, hj => by
    obtain ⟨y, hy⟩ := List.exists_mem_of_ne_nil _ t.2.1.ne
    intro e
    exact (t.below hy).generation_ne j (by simpa using hj) (List.flatMap_eq_nil_iff.mp e y hy)

/-- generations of entries one after the other are one after the other -/
theorem pairwise_generations {cs : List CRef} {j : Nat} : ∀ {l : List Ref}, (l.Pairwise fun y z => h.stop y ≤ h.start z) →
    (∀ y ∈ l, Tree h cs y) → (∀ y ∈ l, (generation h j y).Pairwise fun y z => h.stop y ≤ h.start z) →
    (l.flatMap (generation h j)).Pairwise fun y z => h.stop y ≤ h.start z
  | [], _, _, _ => List.Pairwise.nil
  | a :: l, hp, ht, hg => by
    rw [List.flatMap_cons, List.pairwise_append]
    rw [List.pairwise_cons] at hp
    refine ⟨hg a (by simp), pairwise_generations hp.2 (fun y hy => ht y (by simp [hy])) (fun y hy => hg y (by simp [hy])), ?_⟩
    intro y hy z hz
    obtain ⟨b, hb, hz⟩ := List.mem_flatMap.mp hz
    have h1 := (ht a (by simp)).desc (generation_desc j hy)
    have h2 := (ht b (by simp [hb])).desc (generation_desc j hz)
    have h3 := hp.1 b hb
    grind

theorem Tree.generation_disjoint : ∀ (j : Nat) {cs : List CRef} {x : Ref}, Tree h cs x →
    (generation h j x).Pairwise fun y z => h.stop y ≤ h.start z
  | 0, _, _, _ => by simp [generation]
  | j + 1, [], _, t => t.elim
  | j + 1, c :: cs, x, t => by
    unfold generation
    exact pairwise_generations t.disjoint (fun y hy => t.below hy) fun y hy => (t.below hy).generation_disjoint j

theorem aligned_generations {cs : List CRef} {j : Nat} : ∀ {l : List Ref}, (l.Pairwise fun y z => h.stop y ≤ h.start z) →
    (∀ y ∈ l, Tree h cs y) → (∀ y ∈ l, Aligned h (generation h j y) (generation h (j + 1) y)) →
    Aligned h (l.flatMap (generation h j)) (l.flatMap (generation h (j + 1)))
  | [], _, _, _ => ⟨List.Pairwise.nil, List.Pairwise.nil, (fun x hx => by cases hx), (fun x hx => by cases hx)⟩
  | a :: l, hp, ht, hg => by
    rw [List.flatMap_cons, List.flatMap_cons]
    rw [List.pairwise_cons] at hp
    have key : ∀ (i k : Nat), ∀ y ∈ generation h i a, ∀ z ∈ l.flatMap (generation h k), h.stop y ≤ h.start z := by
      intro i k y hy z hz
      obtain ⟨b, hb, hz⟩ := List.mem_flatMap.mp hz
      have h1 := (ht a (by simp)).desc (generation_desc i hy)
      have h2 := (ht b (by simp [hb])).desc (generation_desc k hz)
      have h3 := hp.1 b hb
      grind
    refine Aligned.append (hg a (by simp)) (aligned_generations hp.2 (fun y hy => ht y (by simp [hy])) fun y hy => hg y (by simp [hy]))
      ?_ ?_ (key _ _) (key _ _) (key _ _) (key _ _)
    · intro y hy
      exact ((ht a (by simp)).desc (generation_desc _ hy)).2.1
    · intro y hy
      obtain ⟨b, hb, hy⟩ := List.mem_flatMap.mp hy
      exact ((ht b (by simp [hb])).desc (generation_desc _ hy)).2.1

theorem generation_one (x : Ref) : generation h 1 x = (h.subs x).vals := by
  show (h.subs x).vals.flatMap (generation h 0) = _
  have : generation h 0 = fun y => [y] := by funext y; rfl
  rw [this]
  simp

theorem Tree.aligned : ∀ (j : Nat) {cs : List CRef} {x : Ref}, Tree h cs x → j + 1 < cs.length →
    Aligned h (generation h j x) (generation h (j + 1) x)
  | 0, [], _, t, _ => t.elim
  | 0, [_], _, _, hj => absurd hj (by simp)
  | 0, c :: d :: cs, x, t, _ => by
    rw [generation_one]
    refine ⟨by simp [generation], t.2.1.sorted, ?_, ?_⟩
    · intro y hy
      obtain ⟨a, -, b⟩ := t.child hy
      exact ⟨x, by simp [generation], a, b⟩
    · intro u hu
      have : u = x := by simpa [generation] using hu
      subst this
      rw [List.filter_eq_self.mpr]
      · exact t.2.1
      · intro y hy
        obtain ⟨a, -, b⟩ := t.child hy
        simp only [decide_eq_true_eq]
        exact ⟨a, b⟩
  | j + 1, [], _, t, _ => t.elim
  | j + 1, c :: cs, x, t, hj =>
    aligned_generations t.disjoint (fun y hy => t.below hy) fun y hy => (t.below hy).aligned j (by simpa using hj)

/-- two steps at once, from the end -/
theorem generation_succ : ∀ (j : Nat) (x : Ref), generation h (j + 1) x = (generation h j x).flatMap fun y => (h.subs y).vals
  | 0, x => by rw [generation_one]; simp [generation]
  | j + 1, x => by
    show (h.subs x).vals.flatMap (generation h (j + 1)) = ((h.subs x).vals.flatMap (generation h j)).flatMap _
    rw [List.flatMap_assoc]
    congr 1
    funext y
    exact generation_succ j y

/-! ## other heaps -/

theorem generation_congr {h' : Heap} : ∀ (j : Nat) {x : Ref}, (∀ y, Desc h x y → (h'.subs y).vals = (h.subs y).vals) →
    generation h' j x = generation h j x
  | 0, _, _ => rfl
  | j + 1, x, e => by
    unfold generation
    rw [e x (.refl x)]
    have : ∀ l : List Ref, (∀ y ∈ l, y ∈ (h.subs x).vals) → l.flatMap (generation h' j) = l.flatMap (generation h j) := by
      intro l
      induction l with
      | nil => intro _; rfl
      | cons a l ih =>
        intro hl
        rw [List.flatMap_cons, List.flatMap_cons, ih fun y hy => hl y (by simp [hy]),
          generation_congr j fun y hd => e y (.step _ a _ (hl a (by simp)) hd)]
    exact this _ fun _ hy => hy

theorem Desc.congr {h' : Heap} (e : ∀ y, (h'.subs y).vals = (h.subs y).vals) {x y : Ref} (d : Desc h' x y) : Desc h x y := by
  induction d with
  | refl => exact .refl _
  | step x z y hz _ ih => exact .step x z y (by rw [← e]; exact hz) ih

theorem Tiles.moved {h' : Heap} (d : Time) : ∀ {l : List Ref} {a b : Time}, (∀ x ∈ l, h'.start x = h.start x + d ∧ h'.stop x = h.stop x + d) →
    Tiles h l a b → Tiles h' l (a + d) (b + d)
  | [], _, _, _, t => t
  | [x], a, b, e, ⟨e1, e2, e3⟩ => by
    obtain ⟨q1, q2⟩ := e x (by simp)
    exact ⟨by rw [q1, e1], by rw [q2, e2], by grind⟩
  | x :: y :: r, a, b, e, ⟨e1, e2, e3⟩ => by
    obtain ⟨q1, q2⟩ := e x (by simp)
    refine ⟨by rw [q1, e1], by rw [q2]; grind, ?_⟩
    rw [q2]
    exact Tiles.moved d (fun z hz => e z (List.mem_cons_of_mem _ hz)) e3

/-- a tree stays a tree if all its times move by the same amount -/
theorem Tree.moved {h' : Heap} (d : Time) : ∀ {cs : List CRef} {x : Ref}, (∀ y, Desc h x y → (h'.subs y).vals = (h.subs y).vals ∧
    h'.cls y = h.cls y ∧ h'.label y = h.label y ∧ h'.start y = h.start y + d ∧ h'.stop y = h.stop y + d) → Tree h cs x → Tree h' cs x
  | [], _, _, t => t
  | [c], x, e, ⟨p, q⟩ => by
    obtain ⟨e1, e2, e3, e4, e5⟩ := e x (.refl x)
    exact ⟨⟨e2.trans p.1, by rw [e3]; exact p.2.1, by have := p.2.2; grind⟩, e1.trans q⟩
  | c :: c' :: cs, x, e, ⟨p, q, r⟩ => by
    obtain ⟨e1, e2, e3, e4, e5⟩ := e x (.refl x)
    have hd : ∀ y ∈ (h.subs x).vals, Desc h x y := fun y hy => .step _ y _ hy (.refl y)
    refine ⟨⟨e2.trans p.1, by rw [e3]; exact p.2.1, by have := p.2.2; grind⟩, ?_, ?_⟩
    · rw [e1, e4, e5]
      exact q.moved d fun y hy => (e y (hd y hy)).2.2.2
    · rw [e1]
      exact fun y hy => Tree.moved d (fun z hz => e z (.step _ y _ hy hz)) (r y hy)

theorem Tree.congr {h' : Heap} {cs : List CRef} {x : Ref} (e : ∀ y, Desc h x y → (h'.subs y).vals = (h.subs y).vals ∧
    h'.cls y = h.cls y ∧ h'.label y = h.label y ∧ h'.start y = h.start y ∧ h'.stop y = h.stop y) (t : Tree h cs x) : Tree h' cs x :=
  Tree.moved 0 (fun y hy => by
    obtain ⟨a, b, c, d, f⟩ := e y hy
    exact ⟨a, b, c, by rw [d]; grind, by rw [f]; grind⟩) t

/-! ## shifting -/

theorem Tree.mem_subtree : ∀ {cs : List CRef} {x : Ref}, Tree h cs x → ∀ (n : Nat), cs.length ≤ n + 1 → ∀ y, y ∈ subtree h n x ↔ Desc h x y
  | [], _, t, _, _, _ => t.elim
  | c :: cs, x, t, 0, hn, y => by
    have hcs : cs = [] := List.length_eq_zero_iff.mp (by simpa using hn)
    subst hcs
    simp only [subtree, List.mem_singleton]
    refine ⟨fun e => e ▸ .refl _, fun d => ?_⟩
    cases d with
    | refl => rfl
    | step _ z _ hz _ => rw [t.2] at hz; cases hz
  | c :: cs, x, t, n + 1, hn, y => by
    simp only [subtree, List.mem_cons, List.mem_flatMap]
    constructor
    · rintro (rfl | ⟨z, hz, hy⟩)
      · exact .refl _
      · exact .step _ z _ hz (((t.below hz).mem_subtree n (by simpa using hn) y).mp hy)
    · intro d
      cases d with
      | refl => exact Or.inl rfl
      | step _ z _ hz d => exact Or.inr ⟨z, hz, ((t.below hz).mem_subtree n (by simpa using hn) y).mpr d⟩

theorem Tree.subtree_nodup : ∀ {cs : List CRef} {x : Ref}, Tree h cs x → cs.Nodup → ∀ (n : Nat), cs.length ≤ n + 1 → (subtree h n x).Nodup
  | [], _, t, _, _, _ => t.elim
  | c :: cs, x, t, _, 0, _ => by simp [subtree]
  | c :: cs, x, t, nd, n + 1, hn => by
    rw [List.nodup_cons] at nd
    have hn' : cs.length ≤ n + 1 := by simpa using hn
    simp only [subtree, List.nodup_cons]
    refine ⟨?_, ?_⟩
    · intro hx
      obtain ⟨z, hz, hx⟩ := List.mem_flatMap.mp hx
      have := (t.below hz).desc (((t.below hz).mem_subtree n hn' x).mp hx)
      rw [t.plain.1] at this
      exact nd.1 this.2.2.2.1
    · have key : ∀ l : List Ref, (l.Pairwise fun y z => h.stop y ≤ h.start z) → (∀ y ∈ l, Tree h cs y) → (l.flatMap (subtree h n)).Nodup := by
        intro l
        induction l with
        | nil => intro _ _; exact List.nodup_nil
        | cons a l ih =>
          intro hp ht
          rw [List.pairwise_cons] at hp
          rw [List.flatMap_cons, List.nodup_append]
          refine ⟨(ht a (by simp)).subtree_nodup nd.2 n hn', ih hp.2 fun y hy => ht y (by simp [hy]), ?_⟩
          rintro y hy z hz rfl
          obtain ⟨b, hb, hz⟩ := List.mem_flatMap.mp hz
          have h1 := (ht a (by simp)).desc (((ht a (by simp)).mem_subtree n hn' _).mp hy)
          have h2 := (ht b (by simp [hb])).desc (((ht b (by simp [hb])).mem_subtree n hn' _).mp hz)
          have h3 := hp.1 b hb
          grind
      exact key _ t.disjoint fun y hy => t.below hy

theorem Tree.shift_run (d : Time) (n : Nat) : ∀ {cs : List CRef} {x : Ref} {h k : Heap}, k.subs = h.subs → Tree h cs x → cs.length ≤ n + 1 →
    (subtree h n x).Nodup → ivalShiftN (n + 1) x d k = .ok () (shiftOn (subtree h n x) d k) := by
  induction n with
  | zero =>
    intro cs x h k hk t hn hnd
    have hemp : (h.subs x).vals = [] := by
      match cs, t, hn with
      | [c], t, _ => exact t.2
      | c :: d :: cs, _, hn => simp at hn
    unfold ivalShiftN
    mstep M.modify_apply _ k
    mstep M.modify_apply _ _
    mstep M.get_apply _
    have hk' : (k.subs x).vals = [] := by rw [hk]; exact hemp
    simp only [hk', M.forL_nil]
    rw [subtree, ← shiftOn_cons]
  | succ n ih =>
    intro cs x h k hk t hn hnd
    unfold ivalShiftN
    mstep M.modify_apply _ k
    mstep M.modify_apply _ _
    mstep M.get_apply _
    simp only [shiftOn_cons]
    simp only [subtree, List.nodup_cons] at hnd
    match cs, t, hn with
    | c :: cs, t, hn =>
    have key : ∀ (l : List Ref) (k : Heap), k.subs = h.subs → (∀ z ∈ l, Tree h cs z) →
        (l.flatMap (subtree h n)).Nodup →
        M.forL l (fun y => ivalShiftN (n + 1) y d) k = .ok () (shiftOn (l.flatMap (subtree h n)) d k) := by
      intro l
      induction l with
      | nil => intro k _ _ _; simp [shiftOn_nil]
      | cons a as ih2 =>
        intro k hk ht hn'
        rw [List.flatMap_cons, List.nodup_append] at hn'
        rw [M.forL_cons, ih hk (ht a (by simp)) (by simpa using hn) hn'.1]
        simp only []
        rw [ih2 (shiftOn (subtree h n a) d k) hk (fun z hz => ht z (by simp [hz])) hn'.2.1,
          shiftOn_append _ _ _ _ (fun y h1 h2 => hn'.2.2 y h1 y h2 rfl), List.flatMap_cons]
    rw [show (k.subs x).vals = (h.subs x).vals by rw [hk], key _ (shiftOn [x] d k) hk (fun z hz => t.below hz) hnd.2]
    rw [shiftOn_append _ _ _ _ (by
      intro y hy; simp only [List.mem_singleton] at hy; subst hy; exact hnd.1)]
    rfl

/-- shifting the top of a tree shifts the tree and nothing else -/
theorem Tree.shift {cs : List CRef} {x : Ref} (t : Tree h cs x) (nd : cs.Nodup) (n : Nat) (hn : cs.length ≤ n) (d : Time) :
    ∃ h', ivalShiftN n x d h = .ok () h' ∧ ShiftedBy (Desc h x) d h h' := by
  have hpos : 0 < cs.length := by
    match cs, t with
    | c :: cs, _ => simp
  obtain ⟨n, rfl⟩ : ∃ k, n = k + 1 := ⟨n - 1, by omega⟩
  refine ⟨_, t.shift_run d n rfl hn (t.subtree_nodup nd n hn), ?_⟩
  have hm := t.mem_subtree n hn
  have := shiftOn_shifted (subtree h n x) d h
  exact ⟨fun y hy => this.moved y ((hm y).mpr hy), fun y hy => this.kept y (fun k => hy ((hm y).mp k)), this.rest⟩

end ATG
