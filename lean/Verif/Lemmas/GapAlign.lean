import Verif.Lemmas.Fill
import Verif.Props.Cleanup
import Verif.Spec.Group
/-!
# Gaps of aligned tiers
-/
namespace ATG

/-- `g` lies between two of the spans, touching both, and no span reaches into it -/
structure Gap (S : List (Time × Time)) (g : Time × Time) : Prop where
  left : ∃ p ∈ S, p.2 = g.1
  right : ∃ q ∈ S, q.1 = g.2
  pos : g.1 < g.2
  free : ∀ r ∈ S, r.2 ≤ g.1 ∨ g.2 ≤ r.1

theorem mem_gapsOf_iff {S : List (Time × Time)} (hl : Laid S) (g : Time × Time) : g ∈ gapsOf S ↔ Gap S g := by
  have hp : ∀ (i : Nat) p, S[i]? = some p → p.1 < p.2 := fun i p e => hl.1 p (List.mem_of_getElem? e)
  have ho : ∀ (i j : Nat) p q, S[i]? = some p → S[j]? = some q → i < j → p.2 ≤ q.1 := by
    intro i j p q e1 e2 hij
    obtain ⟨l1, rfl⟩ := List.getElem?_eq_some_iff.mp e1
    obtain ⟨l2, rfl⟩ := List.getElem?_eq_some_iff.mp e2
    exact List.pairwise_iff_getElem.mp hl.2 i j l1 l2 hij
  rw [mem_gapsOf]
  constructor
  · rintro ⟨i, p, q, e1, e2, hne, rfl⟩
    have h1 := ho i (i + 1) p q e1 e2 (by omega)
    refine ⟨⟨p, List.mem_of_getElem? e1, rfl⟩, ⟨q, List.mem_of_getElem? e2, rfl⟩, by simp only; grind, ?_⟩
    intro r hr
    obtain ⟨j, e3⟩ := List.mem_iff_getElem?.mp hr
    simp only
    by_cases hj : j = i
    · subst hj; rw [e1] at e3; cases e3; left; grind
    · by_cases hj' : j < i
      · have := ho j i r p e3 e1 hj'
        have := hp i p e1
        left; grind
      · by_cases hj2 : j = i + 1
        · subst hj2; rw [e2] at e3; cases e3; right; grind
        · have := ho (i + 1) j q r e2 e3 (by omega)
          have := hp _ q e2
          right; grind
  · rintro ⟨⟨p, hp', e1⟩, ⟨q, hq', e2⟩, hpos, hfree⟩
    obtain ⟨i, e3⟩ := List.mem_iff_getElem?.mp hp'
    obtain ⟨j, e4⟩ := List.mem_iff_getElem?.mp hq'
    have h1 := hp i p e3
    have h2 := hp j q e4
    have hij : i < j := by
      rcases Nat.lt_trichotomy i j with h | h | h
      · exact h
      · subst h; rw [e3] at e4; cases e4; exfalso; grind
      · have := ho j i q p e4 e3 h; exfalso; grind
    have hj : j = i + 1 := by
      by_cases hj : j = i + 1
      · exact hj
      · exfalso
        have hlen := (List.getElem?_eq_some_iff.mp e4).1
        have e5 := List.getElem?_eq_getElem (show i + 1 < S.length by omega)
        have a1 := ho i (i + 1) p _ e3 e5 (by omega)
        have a2 := ho (i + 1) j _ q e5 e4 (by omega)
        have a3 := hp _ _ e5
        rcases hfree _ (List.mem_of_getElem? e5) with a | a <;> grind
    subst hj
    exact ⟨i, p, q, e3, e4, by intro e; rw [e1, e2] at e; rw [e] at hpos; exact Rat.lt_irrefl hpos, by rw [e1, e2]⟩

theorem Tiles.facts {h : Heap} : ∀ {l : List Ref} {a b : Time}, Tiles h l a b →
    a < b ∧ (∃ x ∈ l, h.start x = a) ∧ (∃ x ∈ l, h.stop x = b) ∧
    ∀ x ∈ l, a ≤ h.start x ∧ h.start x < h.stop x ∧ h.stop x ≤ b ∧ (h.stop x = b ∨ ∃ y ∈ l, h.start y = h.stop x) ∧
      (h.start x = a ∨ ∃ y ∈ l, h.stop y = h.start x)
  | [], _, _, t => t.elim
  | [x], a, b, ⟨e1, e2, e3⟩ => by
    refine ⟨e3, ⟨x, by simp, e1⟩, ⟨x, by simp, e2⟩, ?_⟩
    intro y hy
    have : y = x := by simpa using hy
    subst this
    rw [e1, e2]
    exact ⟨Rat.le_refl, e3, Rat.le_refl, Or.inl rfl, Or.inl rfl⟩
  | x :: y :: r, a, b, ⟨e1, e2, e3⟩ => by
    obtain ⟨f1, ⟨z, hz, ez⟩, ⟨w, hw, ew⟩, f4⟩ := Tiles.facts e3
    refine ⟨by grind, ⟨x, by simp, e1⟩, ⟨w, List.mem_cons_of_mem _ hw, ew⟩, ?_⟩
    intro v hv
    rcases List.mem_cons.mp hv with rfl | hv
    · refine ⟨by grind, by grind, by grind, Or.inr ⟨z, List.mem_cons_of_mem _ hz, ez⟩, Or.inl e1⟩
    · obtain ⟨g1, g2, g3, g4, g5⟩ := f4 v hv
      refine ⟨by grind, g2, g3, ?_, ?_⟩
      · rcases g4 with g4 | ⟨y', hy', g4⟩
        · exact Or.inl g4
        · exact Or.inr ⟨y', List.mem_cons_of_mem _ hy', g4⟩
      · rcases g5 with g5 | ⟨y', hy', g5⟩
        · exact Or.inr ⟨x, by simp, g5.symm⟩
        · exact Or.inr ⟨y', List.mem_cons_of_mem _ hy', g5⟩

theorem inside_iff {h : Heap} {u x : Ref} : Inside h u x ↔ h.start u ≤ h.start x ∧ h.stop x ≤ h.stop u := Iff.rfl

/-- aligned tiers have the same gaps -/
theorem Aligned.gaps {h : Heap} {U L : List Ref} (al : Aligned h U L) (g : Time × Time) :
    Gap (U.map h.span) g ↔ Gap (L.map h.span) g := by
  have hU : ∀ u ∈ U, h.start u < h.stop u := fun u hu => (al.tiled u hu).facts.1
  have hin : ∀ u ∈ U, ∀ x ∈ L, Inside h u x → h.start u ≤ h.start x ∧ h.start x < h.stop x ∧ h.stop x ≤ h.stop u ∧
      (h.stop x = h.stop u ∨ ∃ y ∈ L, Inside h u y ∧ h.start y = h.stop x ∧ h.start y < h.stop y) ∧
      (h.start x = h.start u ∨ ∃ y ∈ L, Inside h u y ∧ h.stop y = h.start x ∧ h.start y < h.stop y) := by
    intro u hu x hx hi
    obtain ⟨-, -, -, f⟩ := (al.tiled u hu).facts
    obtain ⟨g1, g2, g3, g4, g5⟩ := f x (List.mem_filter.mpr ⟨hx, by simpa using hi⟩)
    refine ⟨g1, g2, g3, ?_, ?_⟩
    · rcases g4 with g4 | ⟨y, hy, g4⟩
      · exact Or.inl g4
      · exact Or.inr ⟨y, (List.mem_filter.mp hy).1, by simpa using (List.mem_filter.mp hy).2, g4, (f y hy).2.1⟩
    · rcases g5 with g5 | ⟨y, hy, g5⟩
      · exact Or.inl g5
      · exact Or.inr ⟨y, (List.mem_filter.mp hy).1, by simpa using (List.mem_filter.mp hy).2, g5, (f y hy).2.1⟩
  have hends : ∀ u ∈ U, (∃ x ∈ L, Inside h u x ∧ h.start x = h.start u) ∧ ∃ x ∈ L, Inside h u x ∧ h.stop x = h.stop u := by
    intro u hu
    obtain ⟨-, ⟨x, hx, ex⟩, ⟨y, hy, ey⟩, -⟩ := (al.tiled u hu).facts
    exact ⟨⟨x, (List.mem_filter.mp hx).1, by simpa using (List.mem_filter.mp hx).2, ex⟩,
      ⟨y, (List.mem_filter.mp hy).1, by simpa using (List.mem_filter.mp hy).2, ey⟩⟩
  have hfree : ∀ (S : List Ref), (∀ r ∈ S.map h.span, r.2 ≤ g.1 ∨ g.2 ≤ r.1) ↔ ∀ r ∈ S, h.stop r ≤ g.1 ∨ g.2 ≤ h.start r := by
    intro S
    constructor
    · intro a r hr; exact a _ (List.mem_map_of_mem hr)
    · intro a r hr; obtain ⟨x, hx, rfl⟩ := List.mem_map.mp hr; exact a x hx
  have hdis : ∀ u ∈ U, ∀ v ∈ U, u = v ∨ h.stop u ≤ h.start v ∨ h.stop v ≤ h.start u := by
    intro u hu v hv
    obtain ⟨i, hi, rfl⟩ := List.mem_iff_getElem.mp hu
    obtain ⟨j, hj, rfl⟩ := List.mem_iff_getElem.mp hv
    rcases Nat.lt_trichotomy i j with q | q | q
    · exact Or.inr (Or.inl (List.pairwise_iff_getElem.mp al.upperDisjoint i j hi hj q))
    · subst q; exact Or.inl rfl
    · exact Or.inr (Or.inr (List.pairwise_iff_getElem.mp al.upperDisjoint j i hj hi q))
  constructor
  · rintro ⟨⟨p, hp, e1⟩, ⟨q, hq, e2⟩, hpos, hf⟩
    obtain ⟨u, hu, rfl⟩ := List.mem_map.mp hp
    obtain ⟨v, hv, rfl⟩ := List.mem_map.mp hq
    obtain ⟨x, hx, ix, ex⟩ := (hends u hu).2
    obtain ⟨y, hy, iy, ey⟩ := (hends v hv).1
    refine ⟨⟨h.span x, List.mem_map_of_mem hx, by rw [← e1]; exact ex⟩,
      ⟨h.span y, List.mem_map_of_mem hy, by rw [← e2]; exact ey⟩, hpos, (hfree L).mpr ?_⟩
    intro z hz
    obtain ⟨w, hw, iw⟩ := al.covered z hz
    obtain ⟨a1, a2, a3, -⟩ := hin w hw z hz iw
    rcases (hfree U).mp hf w hw with b | b
    · left; grind
    · right; grind
  · rintro ⟨⟨p, hp, e1⟩, ⟨q, hq, e2⟩, hpos, hf⟩
    obtain ⟨x, hx, rfl⟩ := List.mem_map.mp hp
    obtain ⟨y, hy, rfl⟩ := List.mem_map.mp hq
    have e1 : h.stop x = g.1 := e1
    have e2 : h.start y = g.2 := e2
    have hf := (hfree L).mp hf
    obtain ⟨u, hu, iu⟩ := al.covered x hx
    obtain ⟨v, hv, iv⟩ := al.covered y hy
    obtain ⟨a1, a2, a3, a4, -⟩ := hin u hu x hx iu
    obtain ⟨b1, b2, b3, -, b5⟩ := hin v hv y hy iv
    have hsu : h.stop u = g.1 := by
      rcases a4 with a4 | ⟨z, hz, -, z1, z2⟩
      · rw [← a4]; exact e1
      · exfalso; rcases hf z hz with q | q <;> grind
    have hsv : h.start v = g.2 := by
      rcases b5 with b5 | ⟨z, hz, -, z1, z2⟩
      · rw [← b5]; exact e2
      · exfalso; rcases hf z hz with q | q <;> grind
    refine ⟨⟨h.span u, List.mem_map_of_mem hu, hsu⟩, ⟨h.span v, List.mem_map_of_mem hv, hsv⟩, hpos, (hfree U).mpr ?_⟩
    intro w hw
    obtain ⟨z, hz, iz, ez⟩ := (hends w hw).1
    obtain ⟨c1, c2, c3, -⟩ := hin w hw z hz iz
    have hwp := hU w hw
    have hup := hU u hu
    have hvp := hU v hv
    rcases hdis w hw u hu with rfl | q | q
    · left; grind
    · left; grind
    · rcases hdis w hw v hv with rfl | q' | q'
      · right; grind
      · exfalso; rcases hf z hz with f | f <;> grind
      · right; grind

theorem Tiles.congr {h h' : Heap} : ∀ {l : List Ref} {a b : Time}, (∀ x ∈ l, h'.span x = h.span x) → Tiles h l a b →
    Tiles h' l a b
  | [], _, _, _, t => t
  | [x], a, b, e, ⟨e1, e2, e3⟩ => by
    have := e x (by simp)
    unfold Heap.span at this
    injection this with q1 q2
    exact ⟨q1.trans e1, q2.trans e2, e3⟩
  | x :: y :: r, a, b, e, ⟨e1, e2, e3⟩ => by
    have := e x (by simp)
    unfold Heap.span at this
    injection this with q1 q2
    refine ⟨q1.trans e1, by rw [q2]; exact e2, ?_⟩
    rw [q2]
    exact Tiles.congr (fun z hz => e z (List.mem_cons_of_mem _ hz)) e3

theorem inside_congr {h h' : Heap} {u x : Ref} (eu : h'.span u = h.span u) (ex : h'.span x = h.span x) :
    Inside h' u x ↔ Inside h u x := by
  unfold Heap.span at eu ex
  injection eu with a1 a2
  injection ex with b1 b2
  unfold Inside
  rw [a1, a2, b1, b2]

/-- two aligned tiers whose gaps were all filled are aligned again -/
theorem Aligned.filled {h h' : Heap} {U L U' L' NU NL : List Ref} (al : Aligned h U L)
    (eU : ∀ x ∈ U, h'.span x = h.span x) (eL : ∀ x ∈ L, h'.span x = h.span x)
    (pU : U'.Perm (U ++ NU)) (pL : L'.Perm (L ++ NL)) (sL : L.Sublist L')
    (lU : Laid (U'.map h'.span)) (lL : Laid (L'.map h'.span))
    (gU : ∀ g, (∃ x ∈ NU, h'.span x = g) ↔ Gap (U.map h.span) g)
    (gL : ∀ g, (∃ x ∈ NL, h'.span x = g) ↔ Gap (L.map h.span) g) : Aligned h' U' L' := by
  have hpos : ∀ u ∈ U, h.start u < h.stop u := fun u hu => (al.tiled u hu).facts.1
  have hpos' : ∀ x ∈ L', h'.start x < h'.stop x := fun x hx => lL.1 _ (List.mem_map_of_mem hx)
  have ho : L'.Pairwise fun x y => h'.stop x ≤ h'.start y := List.pairwise_map.mp lL.2
  refine ⟨List.pairwise_map.mp lU.2, ho, ?_, ?_⟩
  · intro x hx
    rcases List.mem_append.mp (pL.mem_iff.mp hx) with hx | hx
    · obtain ⟨u, hu, iu⟩ := al.covered x hx
      exact ⟨u, pU.mem_iff.mpr (by simp [hu]), (inside_congr (eU u hu) (eL x hx)).mpr iu⟩
    · obtain ⟨u, hu, e⟩ := (gU _).mpr ((al.gaps _).mpr ((gL _).mp ⟨x, hx, rfl⟩))
      refine ⟨u, pU.mem_iff.mpr (by simp [hu]), ?_⟩
      unfold Heap.span at e
      injection e with a1 a2
      unfold Inside
      rw [a1, a2]
      exact ⟨Rat.le_refl, Rat.le_refl⟩
  · intro u hu
    rcases List.mem_append.mp (pU.mem_iff.mp hu) with hu | hu
    · have hnew : NL.filter (Inside h' u ·) = [] := by
        rw [List.filter_eq_nil_iff]
        intro x hx hi
        have hi : Inside h' u x := by simpa using hi
        have gp := (al.gaps _).mpr ((gL _).mp ⟨x, hx, rfl⟩)
        have f := gp.free (h.span u) (List.mem_map_of_mem hu)
        have p := gp.pos
        have e := eU u hu
        rw [← e] at f
        have hp := hpos u hu
        unfold Inside at hi
        unfold Heap.span at f p e
        injection e with a1 a2
        simp only at f p
        rcases f with f | f <;> grind
      have hlen : (L'.filter (Inside h' u ·)).length = (L.filter (Inside h' u ·)).length := by
        rw [(pL.filter _).length_eq, List.filter_append, hnew, List.append_nil]
      have heq : L'.filter (Inside h' u ·) = L.filter (Inside h u ·) := by
        rw [← (sL.filter (Inside h' u ·)).eq_of_length hlen.symm]
        apply List.filter_congr
        intro x hx
        simp only [decide_eq_decide]
        exact inside_congr (eU u hu) (eL x hx)
      rw [heq]
      have e := eU u hu
      unfold Heap.span at e
      injection e with a1 a2
      rw [a1, a2]
      exact Tiles.congr (fun x hx => eL x (List.mem_filter.mp hx).1) (al.tiled u hu)
    · have gp := (gU _).mp ⟨u, hu, rfl⟩
      have gp' := (al.gaps _).mp gp
      obtain ⟨y, hy, ey⟩ := (gL _).mpr gp'
      have hall : ∀ x ∈ L'.filter (Inside h' u ·), h'.span x = h'.span u := by
        intro x hx
        obtain ⟨hx, hi⟩ := List.mem_filter.mp hx
        have hi : Inside h' u x := by simpa using hi
        rcases List.mem_append.mp (pL.mem_iff.mp hx) with hx | hx
        · exfalso
          have f := gp'.free (h.span x) (List.mem_map_of_mem hx)
          have p := gp'.pos
          have px := hpos' x (pL.mem_iff.mpr (by simp [hx]))
          rw [← eL x hx] at f
          unfold Inside at hi
          unfold Heap.span at f p
          simp only at f p
          rcases f with f | f <;> grind
        · have gx := (gL _).mp ⟨x, hx, rfl⟩
          obtain ⟨p, hp, e1⟩ := gx.left
          obtain ⟨q, hq, e2⟩ := gx.right
          have f1 := gp'.free p hp
          have f2 := gp'.free q hq
          have pp : p.1 < p.2 := by
            obtain ⟨z, hz, rfl⟩ := List.mem_map.mp hp
            have := hpos' z (pL.mem_iff.mpr (by simp [hz]))
            rw [← eL z hz]; exact this
          have pq : q.1 < q.2 := by
            obtain ⟨z, hz, rfl⟩ := List.mem_map.mp hq
            have := hpos' z (pL.mem_iff.mpr (by simp [hz]))
            rw [← eL z hz]; exact this
          have ps := gx.pos
          unfold Inside at hi
          unfold Heap.span at e1 e2 f1 f2 ps ⊢
          simp only at e1 e2 f1 f2 ps
          have a1 : h'.start x = h'.start u := by rcases f1 with f | f <;> grind
          have a2 : h'.stop x = h'.stop u := by rcases f2 with f | f <;> grind
          rw [a1, a2]
      have hym : y ∈ L'.filter (Inside h' u ·) := by
        refine List.mem_filter.mpr ⟨pL.mem_iff.mpr (by simp [hy]), ?_⟩
        unfold Heap.span at ey
        injection ey with a1 a2
        simp only [decide_eq_true_eq]
        unfold Inside
        rw [a1, a2]
        exact ⟨Rat.le_refl, Rat.le_refl⟩
      have hpw := ho.sublist (List.filter_sublist (p := (Inside h' u ·)))
      have hp := gp.pos
      generalize hF : L'.filter (Inside h' u ·) = F at hall hym hpw
      match F, hall, hym, hpw with
      | [], _, hym, _ => exact (nomatch hym)
      | [a], hall, _, _ =>
        have e := hall a (by simp)
        unfold Heap.span at e
        injection e with a1 a2
        exact ⟨a1, a2, hp⟩
      | a :: b :: r, hall, _, hpw =>
        exfalso
        have e1 := hall a (by simp)
        have e2 := hall b (by simp)
        unfold Heap.span at e1 e2
        injection e1 with a1 a2
        injection e2 with b1 b2
        have := (List.pairwise_cons.mp hpw).1 b (by simp)
        rw [a2, b1] at this
        have hp : h'.start u < h'.stop u := hp
        grind

end ATG
