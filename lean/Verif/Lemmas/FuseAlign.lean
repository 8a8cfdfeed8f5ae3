import Verif.Lemmas.GapAlign
import Verif.Lemmas.FuseRun
/-!
# Alignment of tiers after two neighbours became one
-/
namespace ATG

/-- in `k`, `x` starts where `a` started in `h` and ends where `b` ended; nothing else moved -/
structure JoinedAt (h k : Heap) (x a b : Ref) : Prop where
  start : k.start x = h.start a
  stop : k.stop x = h.stop b
  starts : ∀ r, r ≠ x → k.start r = h.start r
  others : ∀ r, r ≠ x → k.stop r = h.stop r

theorem JoinedAt.inside {h k : Heap} {x a b : Ref} (j : JoinedAt h k x a b) {u z : Ref} (hu : u ≠ x) (hz : z ≠ x) :
    Inside k u z ↔ Inside h u z := by
  unfold Inside; rw [j.starts u hu, j.starts z hz, j.others u hu, j.others z hz]

theorem JoinedAt.span {h k : Heap} {x a b : Ref} (j : JoinedAt h k x a b) {z : Ref} (hz : z ≠ x) : k.span z = h.span z := by
  unfold Heap.span; rw [j.starts z hz, j.others z hz]

/-- two neighbours on a laid-out list -/
structure SideBySide (h : Heap) (A : List Ref) (a b : Ref) (B : List Ref) : Prop where
  nodup : (A ++ a :: b :: B).Nodup
  disjoint : (A ++ a :: b :: B).Pairwise fun x y => h.stop x ≤ h.start y
  positive : ∀ x ∈ A ++ a :: b :: B, h.start x < h.stop x
  touch : h.stop a = h.start b

theorem SideBySide.facts {h : Heap} {A B : List Ref} {a b : Ref} (t : SideBySide h A a b B) :
    a ≠ b ∧ a ∉ A ∧ a ∉ B ∧ b ∉ A ∧ b ∉ B ∧ h.start a < h.stop a ∧ h.start b < h.stop b ∧
    (∀ x ∈ A, h.stop x ≤ h.start a ∧ h.start x < h.stop x) ∧ (∀ x ∈ B, h.stop b ≤ h.start x ∧ h.start x < h.stop x) := by
  have nd := t.nodup
  have dj := t.disjoint
  rw [List.nodup_append, List.nodup_cons, List.nodup_cons] at nd
  rw [List.pairwise_append, List.pairwise_cons, List.pairwise_cons] at dj
  obtain ⟨-, ⟨n1, n2, -⟩, n3⟩ := nd
  obtain ⟨-, ⟨-, d2, -⟩, d3⟩ := dj
  refine ⟨fun e => n1 (by simp [e]), fun q => n3 a q a (by simp) rfl, fun q => n1 (by simp [q]),
    fun q => n3 b q b (by simp) rfl, n2, t.positive a (by simp), t.positive b (by simp), ?_, ?_⟩
  · intro x hx; exact ⟨d3 x hx a (by simp), t.positive x (by simp [hx])⟩
  · intro x hx; exact ⟨d2 x hx, t.positive x (by simp [hx])⟩

theorem SideBySide.survivor {h : Heap} {A B : List Ref} {a b x y : Ref} (t : SideBySide h A a b B) (hr : Role x y a b) :
    x ≠ y ∧ x ∉ A ∧ x ∉ B ∧ y ∉ A ∧ y ∉ B := by
  obtain ⟨ne, aA, aB, bA, bB, -⟩ := t.facts
  rcases hr with ⟨rfl, rfl⟩ | ⟨rfl, rfl⟩
  · exact ⟨ne, aA, aB, bA, bB⟩
  · exact ⟨ne.symm, bA, bB, aA, aB⟩

theorem SideBySide.disjoint' {h k : Heap} {A B : List Ref} {a b x y : Ref} (t : SideBySide h A a b B) (hr : Role x y a b)
    (j : JoinedAt h k x a b) :
    (A ++ x :: B).Pairwise (fun x y => k.stop x ≤ k.start y) ∧ ∀ z ∈ A ++ x :: B, k.start z < k.stop z := by
  obtain ⟨ne, aA, aB, bA, bB, pa, pb, hA, hB⟩ := t.facts
  obtain ⟨-, xA, xB, -, -⟩ := t.survivor hr
  have dj := t.disjoint
  rw [List.pairwise_append, List.pairwise_cons, List.pairwise_cons] at dj
  obtain ⟨d1, ⟨-, -, d2⟩, d3⟩ := dj
  have nA : ∀ z ∈ A, z ≠ x := fun z hz e => xA (e ▸ hz)
  have nB : ∀ z ∈ B, z ≠ x := fun z hz e => xB (e ▸ hz)
  constructor
  · rw [List.pairwise_append, List.pairwise_cons]
    refine ⟨d1.imp_of_mem ?_, ⟨?_, d2.imp_of_mem ?_⟩, ?_⟩
    · intro u v hu hv q
      rw [j.others u (nA u hu), j.starts v (nA v hv)]; exact q
    · intro z hz; rw [j.stop, j.starts z (nB z hz)]; exact (hB z hz).1
    · intro u v hu hv q
      rw [j.others u (nB u hu), j.starts v (nB v hv)]; exact q
    · intro u hu v hv
      rw [j.others u (nA u hu)]
      rcases List.mem_cons.mp hv with rfl | hv
      · rw [j.start]; exact (hA u hu).1
      · rw [j.starts v (nB v hv)]; exact d3 u hu v (by simp [hv])
  · intro z hz
    by_cases e : z = x
    · subst e; rw [j.stop, j.start]; have := t.touch; grind
    · rw [j.others z e, j.starts z e]
      refine t.positive z ?_
      simp only [List.mem_append, List.mem_cons] at hz ⊢; grind

theorem Tiles.append {h : Heap} : ∀ {l m : List Ref} {a b c : Time}, Tiles h l a b → Tiles h m b c → Tiles h (l ++ m) a c
  | [], _, _, _, _, t, _ => t.elim
  | [x], [], _, _, _, _, t => t.elim
  | [x], y :: m, _, _, _, t, u => by
    obtain ⟨rfl, rfl, q⟩ := t
    exact ⟨rfl, q, u⟩
  | x :: y :: l, m, _, _, _, t, u => by
    obtain ⟨e, q, t⟩ := t
    exact ⟨e, q, Tiles.append (l := y :: l) t u⟩

theorem Tiles.join {h k : Heap} {x a b : Ref} (j : JoinedAt h k x a b) : ∀ {A B : List Ref} {lo hi : Time},
    x ∉ A → x ∉ B → Tiles h (A ++ a :: b :: B) lo hi → Tiles k (A ++ x :: B) lo hi
  | [], B, lo, hi, _, aB, t => by
    obtain ⟨e, q, t⟩ := t
    cases B with
    | nil =>
      obtain ⟨e1, e2, q2⟩ := t
      exact ⟨by rw [j.start]; exact e, by rw [j.stop]; exact e2, by grind⟩
    | cons y B =>
      obtain ⟨e1, q1, t⟩ := t
      refine ⟨by rw [j.start]; exact e, by rw [j.stop]; grind, ?_⟩
      rw [j.stop]
      refine Tiles.congr ?_ t
      intro z hz
      exact j.span (fun e => aB (e ▸ hz))
  | [z], B, lo, hi, aA, aB, t => by
    obtain ⟨e, q, t⟩ := t
    have hz : z ≠ x := fun e => aA (by simp [e])
    refine ⟨by rw [j.starts z hz]; exact e, by rw [j.others z hz]; exact q, ?_⟩
    rw [j.others z hz]
    exact Tiles.join j (A := []) (by simp) aB t
  | z :: y :: A, B, lo, hi, aA, aB, t => by
    obtain ⟨e, q, t⟩ := t
    have hz : z ≠ x := fun e => aA (by simp [e])
    refine ⟨by rw [j.starts z hz]; exact e, by rw [j.others z hz]; exact q, ?_⟩
    rw [j.others z hz]
    exact Tiles.join j (A := y :: A) (fun q => aA (List.mem_cons_of_mem _ q)) aB t

/-- the lower of two tiers, under one entry of the upper: it has both neighbours or neither -/
theorem filter_lower {h k : Heap} {A B : List Ref} {a b x y u : Ref} (t : SideBySide h A a b B) (hr : Role x y a b)
    (j : JoinedAt h k x a b) (hu : u ≠ x) (hab : Inside h u a ↔ Inside h u b) :
    (A ++ x :: B).filter (Inside k u ·) = ((A ++ a :: b :: B).filter (Inside h u ·)).erase y ∧
    (Inside h u a → ∃ P Q, x ∉ P ∧ x ∉ Q ∧ (A ++ a :: b :: B).filter (Inside h u ·) = P ++ a :: b :: Q ∧
      (A ++ x :: B).filter (Inside k u ·) = P ++ x :: Q) ∧
    (¬ Inside h u a → (A ++ x :: B).filter (Inside k u ·) = (A ++ a :: b :: B).filter (Inside h u ·)) := by
  obtain ⟨ne, aA, aB, bA, bB, pa, pb, hA, hB⟩ := t.facts
  obtain ⟨-, xA, xB, yA, yB⟩ := t.survivor hr
  have hin : ∀ z, z ≠ x → (Inside k u z ↔ Inside h u z) := fun z hz => j.inside hu hz
  have hia : Inside k u x ↔ Inside h u b ∧ Inside h u a := by
    unfold Inside at hab ⊢
    rw [j.start, j.starts u hu, j.stop, j.others u hu]
    have := t.touch
    constructor
    · rintro ⟨q1, q2⟩; refine ⟨⟨?_, q2⟩, q1, ?_⟩ <;> grind
    · rintro ⟨⟨_, q⟩, p, _⟩; exact ⟨p, q⟩
  have fA : A.filter (Inside k u ·) = A.filter (Inside h u ·) := by
    apply List.filter_congr; intro z hz; simp only [hin z (fun e => xA (e ▸ hz))]
  have fB : B.filter (Inside k u ·) = B.filter (Inside h u ·) := by
    apply List.filter_congr; intro z hz; simp only [hin z (fun e => xB (e ▸ hz))]
  have hPa : ∀ C : List Ref, ∀ z, z ∉ C → z ∉ C.filter (Inside h u ·) := fun C z hz q => hz (List.mem_filter.mp q).1
  by_cases q : Inside h u a
  · have e1 : (A ++ a :: b :: B).filter (Inside h u ·) = A.filter (Inside h u ·) ++ a :: b :: B.filter (Inside h u ·) := by
      rw [List.filter_append, List.filter_cons_of_pos (by simpa using q), List.filter_cons_of_pos (by simpa using hab.mp q)]
    have e2 : (A ++ x :: B).filter (Inside k u ·) = A.filter (Inside h u ·) ++ x :: B.filter (Inside h u ·) := by
      rw [List.filter_append, List.filter_cons_of_pos (by simpa using hia.mpr ⟨hab.mp q, q⟩), fA, fB]
    refine ⟨?_, fun _ => ⟨_, _, hPa A x xA, hPa B x xB, e1, e2⟩, fun n => absurd q n⟩
    rw [e1, e2, List.erase_append_right _ (hPa A y yA)]
    rcases hr with ⟨rfl, rfl⟩ | ⟨rfl, rfl⟩
    · rw [List.erase_cons_tail (by simpa using ne), List.erase_cons_head]
    · rw [List.erase_cons_head]
  · have q' : ¬ Inside h u b := fun n => q (hab.mpr n)
    have e1 : (A ++ a :: b :: B).filter (Inside h u ·) = A.filter (Inside h u ·) ++ B.filter (Inside h u ·) := by
      rw [List.filter_append, List.filter_cons_of_neg (by simpa using q), List.filter_cons_of_neg (by simpa using q')]
    have e2 : (A ++ x :: B).filter (Inside k u ·) = A.filter (Inside h u ·) ++ B.filter (Inside h u ·) := by
      rw [List.filter_append, List.filter_cons_of_neg (by simpa using fun n => q (hia.mp n).2), fA, fB]
    refine ⟨?_, fun n => absurd n q, fun _ => e2.trans e1.symm⟩
    rw [e1, e2, List.erase_of_not_mem]
    rw [List.mem_append]
    exact fun n => n.elim (hPa A y yA) (hPa B y yB)

/-- joining two neighbours under the same entry of the upper tier -/
theorem Aligned.joinLower {h k : Heap} {U A B : List Ref} {a b x y : Ref} (al : Aligned h U (A ++ a :: b :: B))
    (t : SideBySide h A a b B) (hr : Role x y a b) (j : JoinedAt h k x a b) (ha : x ∉ U)
    (hab : ∀ u ∈ U, Inside h u a ↔ Inside h u b) : Aligned k U (A ++ x :: B) := by
  have hne : ∀ u ∈ U, u ≠ x := fun u hu e => ha (e ▸ hu)
  refine ⟨?_, (t.disjoint' hr j).1, ?_, ?_⟩
  · refine al.upperDisjoint.imp_of_mem ?_
    intro u v hu hv q
    rw [j.others u (hne u hu), j.starts v (hne v hv)]; exact q
  · intro z hz
    by_cases e : z = x
    · subst e
      obtain ⟨u, hu, q⟩ := al.covered a (by simp)
      have q2 := (hab u hu).mp q
      refine ⟨u, hu, ?_⟩
      unfold Inside at q q2 ⊢
      rw [j.start, j.starts u (hne u hu), j.stop, j.others u (hne u hu)]
      exact ⟨q.1, q2.2⟩
    · have hz' : z ∈ A ++ a :: b :: B := by simp only [List.mem_append, List.mem_cons] at hz ⊢; grind
      obtain ⟨u, hu, q⟩ := al.covered z hz'
      exact ⟨u, hu, (j.inside (hne u hu) e).mpr q⟩
  · intro u hu
    have ti := al.tiled u hu
    obtain ⟨-, f1, f2⟩ := filter_lower t hr j (hne u hu) (hab u hu)
    rw [j.starts u (hne u hu), j.others u (hne u hu)]
    by_cases q : Inside h u a
    · obtain ⟨P, Q, h1, h2, e1, e2⟩ := f1 q
      rw [e1] at ti
      rw [e2]
      exact ti.join j h1 h2
    · rw [f2 q]
      refine Tiles.congr ?_ ti
      intro z hz
      refine j.span ?_
      intro e; subst e
      have hi : Inside h u z := by simpa using (List.mem_filter.mp hz).2
      rcases hr with ⟨rfl, rfl⟩ | ⟨rfl, rfl⟩
      · exact q hi
      · exact q ((hab u hu).mpr hi)

theorem filter_or_append {α} {p q : α → Bool} : ∀ {l : List α}, (∀ x ∈ l, ¬ (p x = true ∧ q x = true)) →
    (l.Pairwise fun x y => ¬ (q x = true ∧ p y = true)) → l.filter (fun x => p x || q x) = l.filter p ++ l.filter q
  | [], _, _ => rfl
  | x :: l, h1, h2 => by
    rw [List.pairwise_cons] at h2
    have ih := filter_or_append (l := l) (fun y hy => h1 y (by simp [hy])) h2.2
    by_cases hp : p x = true
    · have hq : q x = false := by
        cases hq : q x with
        | false => rfl
        | true => exact absurd ⟨hp, hq⟩ (h1 x (by simp))
      rw [List.filter_cons_of_pos (by simp [hp]), List.filter_cons_of_pos hp, List.filter_cons_of_neg (by simp [hq]), ih]; rfl
    · by_cases hq : q x = true
      · have : l.filter p = [] := by
          rw [List.filter_eq_nil_iff]
          intro y hy hpy
          exact h2.1 y hy ⟨hq, hpy⟩
        rw [List.filter_cons_of_pos (by simp [hq]), List.filter_cons_of_neg hp, List.filter_cons_of_pos hq, ih, this]; rfl
      · rw [List.filter_cons_of_neg (by simp [hp, hq]), List.filter_cons_of_neg hp, List.filter_cons_of_neg hq, ih]

/-- the lower entries in the joined upper one are those in the two -/
theorem filter_upper {h k : Heap} {A B L : List Ref} {a b x : Ref} (al : Aligned h (A ++ a :: b :: B) L)
    (t : SideBySide h A a b B) (j : JoinedAt h k x a b) (ha : x ∉ L) (pos : ∀ x ∈ L, h.start x < h.stop x) :
    L.filter (Inside k x ·) = L.filter (Inside h a ·) ++ L.filter (Inside h b ·) := by
  obtain ⟨ne, aA, aB, bA, bB, pa, pb, hA, hB⟩ := t.facts
  have tc := t.touch
  have key : ∀ z ∈ L, (Inside k x z ↔ Inside h a z ∨ Inside h b z) := by
    intro z hz
    have px := pos z hz
    have hzx : z ≠ x := fun e => ha (e ▸ hz)
    obtain ⟨u, hu, qu⟩ := al.covered z hz
    unfold Inside at qu ⊢
    rw [j.start, j.starts z hzx, j.stop, j.others z hzx]
    simp only [List.mem_append, List.mem_cons] at hu
    rcases hu with hu | rfl | rfl | hu
    · have := hA u hu; grind
    · grind
    · grind
    · have := hB u hu; grind
  rw [← filter_or_append]
  · apply List.filter_congr
    intro z hz
    have := key z hz
    by_cases q1 : Inside h a z <;> by_cases q2 : Inside h b z <;> simp [q1, q2, this]
  · intro z hz
    have px := pos z hz
    simp only [decide_eq_true_eq]
    unfold Inside
    grind
  · refine al.lowerDisjoint.imp_of_mem ?_
    intro x y hx hy q
    have := pos x hx
    have := pos y hy
    simp only [decide_eq_true_eq]
    unfold Inside
    grind

/-- joining two neighbours of the upper tier -/
theorem Aligned.joinUpper {h k : Heap} {A B L : List Ref} {a b x y : Ref} (al : Aligned h (A ++ a :: b :: B) L)
    (t : SideBySide h A a b B) (hr : Role x y a b) (j : JoinedAt h k x a b) (ha : x ∉ L) (pos : ∀ x ∈ L, h.start x < h.stop x) :
    Aligned k (A ++ x :: B) L := by
  obtain ⟨ne, aA, aB, bA, bB, pa, pb, hA, hB⟩ := t.facts
  have hne : ∀ z ∈ L, z ≠ x := fun u hu e => ha (e ▸ hu)
  have tc := t.touch
  have hin : ∀ z ∈ L, Inside h a z ∨ Inside h b z → Inside k x z := by
    intro z hz q
    unfold Inside at q ⊢
    rw [j.start, j.starts z (hne z hz), j.stop, j.others z (hne z hz)]
    rcases q with q | q <;> grind
  refine ⟨(t.disjoint' hr j).1, ?_, ?_, ?_⟩
  · refine al.lowerDisjoint.imp_of_mem ?_
    intro u v hu hv q
    rw [j.others u (hne u hu), j.starts v (hne v hv)]; exact q
  · intro z hz
    obtain ⟨u, hu, q⟩ := al.covered z hz
    by_cases e : u = a ∨ u = b
    · refine ⟨x, by simp, hin z hz ?_⟩
      rcases e with rfl | rfl
      · exact Or.inl q
      · exact Or.inr q
    · simp only [not_or] at e
      have hux : u ≠ x := by
        rcases hr with ⟨rfl, rfl⟩ | ⟨rfl, rfl⟩
        · exact e.1
        · exact e.2
      refine ⟨u, ?_, (j.inside hux (hne z hz)).mpr q⟩
      simp only [List.mem_append, List.mem_cons] at hu ⊢; grind
  · intro u hu
    by_cases e : u = x
    · subst e
      rw [filter_upper al t j ha pos, j.start, j.stop]
      have t1 := al.tiled a (by simp)
      have t2 := al.tiled b (by simp)
      rw [tc] at t1
      have tt := t1.append t2
      refine Tiles.congr ?_ tt
      intro z hz
      have hzL : z ∈ L := by
        rcases List.mem_append.mp hz with q | q <;> exact (List.mem_filter.mp q).1
      exact j.span (hne z hzL)
    · have hu' : u ∈ A ++ a :: b :: B := by simp only [List.mem_append, List.mem_cons] at hu ⊢; grind
      have : L.filter (Inside k u ·) = L.filter (Inside h u ·) := by
        apply List.filter_congr
        intro z hz
        simp only [j.inside e (hne z hz)]
      rw [this, j.starts u e, j.others u e]
      refine Tiles.congr ?_ (al.tiled u hu')
      intro z hz
      exact j.span (hne z (List.mem_filter.mp hz).1)

/-- tiers without the joined entry -/
theorem Aligned.away {h k : Heap} {U L : List Ref} {a b x : Ref} (al : Aligned h U L) (j : JoinedAt h k x a b)
    (hu : x ∉ U) (hl : x ∉ L) : Aligned k U L ∧ ∀ u ∈ U, L.filter (Inside k u ·) = L.filter (Inside h u ·) := by
  have n1 : ∀ z ∈ U, z ≠ x := fun z hz e => hu (e ▸ hz)
  have n2 : ∀ z ∈ L, z ≠ x := fun z hz e => hl (e ▸ hz)
  have hf : ∀ u ∈ U, L.filter (Inside k u ·) = L.filter (Inside h u ·) := by
    intro u hum
    apply List.filter_congr
    intro z hz
    simp only [j.inside (n1 u hum) (n2 z hz)]
  refine ⟨⟨?_, ?_, ?_, ?_⟩, hf⟩
  · refine al.upperDisjoint.imp_of_mem ?_
    intro u v hu hv q
    rw [j.others u (n1 u hu), j.starts v (n1 v hv)]; exact q
  · refine al.lowerDisjoint.imp_of_mem ?_
    intro u v hu hv q
    rw [j.others u (n2 u hu), j.starts v (n2 v hv)]; exact q
  · intro z hz
    obtain ⟨u, hum, q⟩ := al.covered z hz
    exact ⟨u, hum, (j.inside (n1 u hum) (n2 z hz)).mpr q⟩
  · intro u hum
    rw [hf u hum, j.starts u (n1 u hum), j.others u (n1 u hum)]
    refine Tiles.congr ?_ (al.tiled u hum)
    intro z hz
    exact j.span (n2 z (List.mem_filter.mp hz).1)

end ATG
