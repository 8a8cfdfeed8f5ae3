import Verif.Lemmas.FuseAll
import Verif.Model.Base
/-!
# C17, C18: fusing neighbours
-/
namespace ATG

theorem Role.right (x y : Ref) : Role x y x y := Or.inl ⟨rfl, rfl⟩
theorem Role.left (x y : Ref) : Role x y y x := Or.inr ⟨rfl, rfl⟩

/-- C17 for `fuse_rightwards` on a tier: `x` takes over its neighbour `y`, with everything below it, and `y`
    leaves the tier and the superset. Missing: label functions that return "#", the label the library
    reserves for boundaries. -/
theorem C17_right_partial (L : Ref → Prop) (h : Heap) (J : String → String → String) (x y : Ref) (d : CRef) (t : TRef)
    (A B : List Ref) (n : Neighbours L h x y d) (tn : TierNeighbours h t A x y B) (hf : h.fol x = some (.obj y))
    (hj : J (h.label x) (h.label y) ≠ "#") :
    ∃ h', fuseRight J x h = .ok () h' ∧ Fused L h h' x y x y (J (h.label x) (h.label y)) ∧
      h'.tseq t = ⟨A ++ x :: B, (h.tseq t).ecls⟩ ∧ ∀ u, u ≠ t → h'.tseq u = h.tseq u := by
  obtain ⟨td, h2, hm, m⟩ := fuse_merge n (.right x y) _ hj (upd h.fol x (h.fol y)) h.prev
  obtain ⟨h3, hd, fu, ta⟩ := fuse_tier n (.right x y) hj tn m
  have hy : h.label y ≠ "#" := tn.label y (by rw [tn.list]; simp)
  exact ⟨h3, fuseRight_run J hf hy hm hd, fu, ta.list, ta.tiers⟩

/-- C17 for `fuse_leftwards` on a tier -/
theorem C17_left_partial (L : Ref → Prop) (h : Heap) (J : String → String → String) (x y : Ref) (d : CRef) (t : TRef)
    (A B : List Ref) (n : Neighbours L h y x d) (tn : TierNeighbours h t A y x B) (hf : h.prev x = some (.obj y))
    (hj : J (h.label y) (h.label x) ≠ "#") :
    ∃ h', fuseLeft J x h = .ok () h' ∧ Fused L h h' x y y x (J (h.label y) (h.label x)) ∧
      h'.tseq t = ⟨A ++ x :: B, (h.tseq t).ecls⟩ ∧ ∀ u, u ≠ t → h'.tseq u = h.tseq u := by
  obtain ⟨td, h2, hm, m⟩ := fuse_merge n (.left x y) _ hj h.fol (upd h.prev x (h.prev y))
  obtain ⟨h3, hd, fu, ta⟩ := fuse_tier n (.left x y) hj tn m
  have hy : h.label y ≠ "#" := tn.label y (by rw [tn.list]; simp)
  exact ⟨h3, fuseLeft_run J hf hy hm hd, fu, ta.list, ta.tiers⟩

/-- C17 for `fuse_rightwards` outside tiers -/
theorem C17_right_loose_partial (L : Ref → Prop) (h : Heap) (J : String → String → String) (x y : Ref) (d : CRef)
    (n : Neighbours L h x y d) (hi : h.intier x = none) (hf : h.fol x = some (.obj y)) (hy : h.label y ≠ "#")
    (hj : J (h.label x) (h.label y) ≠ "#") :
    ∃ h', fuseRight J x h = .ok () h' ∧ Fused L h h' x y x y (J (h.label x) (h.label y)) ∧ h'.tseq = h.tseq := by
  obtain ⟨td, h2, hm, m⟩ := fuse_merge n (.right x y) _ hj (upd h.fol x (h.fol y)) h.prev
  obtain ⟨h3, hd, fu, ts, -⟩ := fuse_loose n (.right x y) hi m
  exact ⟨h3, fuseRight_run J hf hy hm hd, fu, ts⟩

/-- C17 for `fuse_leftwards` outside tiers -/
theorem C17_left_loose_partial (L : Ref → Prop) (h : Heap) (J : String → String → String) (x y : Ref) (d : CRef)
    (n : Neighbours L h y x d) (hi : h.intier x = none) (hf : h.prev x = some (.obj y)) (hy : h.label y ≠ "#")
    (hj : J (h.label y) (h.label x) ≠ "#") :
    ∃ h', fuseLeft J x h = .ok () h' ∧ Fused L h h' x y y x (J (h.label y) (h.label x)) ∧ h'.tseq = h.tseq := by
  obtain ⟨td, h2, hm, m⟩ := fuse_merge n (.left x y) _ hj h.fol (upd h.prev x (h.prev y))
  obtain ⟨h3, hd, fu, ts, -⟩ := fuse_loose n (.left x y) hi m
  exact ⟨h3, fuseLeft_run J hf hy hm hd, fu, ts⟩

/-- at the right end: an exception and no change -/
theorem C17_right_edge (h : Heap) (J : String → String → String) (x : Ref)
    (hf : h.fol x = some .bumper ∨ ∃ y, h.fol x = some (.obj y) ∧ h.label y = "#") :
    fuseRight J x h = .err .exc h := by
  unfold fuseRight
  refine Eq.trans (M.bind_ok (M.get_apply h)) ?_
  rcases hf with hf | ⟨y, hf, hl⟩
  · rw [hf]; rfl
  · rw [hf]; simp only [linkTarget, if_pos hl]; rfl

/-- at the left end -/
theorem C17_left_edge (h : Heap) (J : String → String → String) (x : Ref)
    (hf : h.prev x = some .bumper ∨ ∃ y, h.prev x = some (.obj y) ∧ h.label y = "#") :
    fuseLeft J x h = .err .exc h := by
  unfold fuseLeft
  refine Eq.trans (M.bind_ok (M.get_apply h)) ?_
  rcases hf with hf | ⟨y, hf, hl⟩
  · rw [hf]; rfl
  · rw [hf]; simp only [linkTarget, if_pos hl]; rfl

/-- an interval that was never linked: an exception and no change -/
theorem C17_unlinked (h : Heap) (J : String → String → String) (x : Ref) :
    (h.fol x = none → fuseRight J x h = .err .attributeError h) ∧
    (h.prev x = none → fuseLeft J x h = .err .attributeError h) := by
  constructor
  · intro hf
    unfold fuseRight
    refine Eq.trans (M.bind_ok (M.get_apply h)) ?_
    rw [hf]; rfl
  · intro hf
    unfold fuseLeft
    refine Eq.trans (M.bind_ok (M.get_apply h)) ?_
    rw [hf]; rfl

/-- C18 where it holds, rightwards: a tier whose superset class is `Top` itself is linked afterwards, and so
    is the list of the superset `x` is in. -/
theorem C18_right_partial (L : Ref → Prop) (h : Heap) (J : String → String → String) (x y : Ref) (d : CRef) (t : TRef)
    (A B : List Ref) (n : Neighbours L h x y d) (tn : TierNeighbours h t A x y B) (hf : h.fol x = some (.obj y))
    (hj : J (h.label x) (h.label y) ≠ "#") :
    ∃ h', fuseRight J x h = .ok () h' ∧
      (h.tsup t = some cTop → DoublyLinked h' (A ++ x :: B)) ∧
      (∀ s, h.tsup t ≠ some cTop → h.sup x = some s → DoublyLinked h' (h'.subs s).vals) := by
  obtain ⟨td, h2, hm, m⟩ := fuse_merge n (.right x y) _ hj (upd h.fol x (h.fol y)) h.prev
  obtain ⟨h3, hd, fu, ta⟩ := fuse_tier n (.right x y) hj tn m
  have hy : h.label y ≠ "#" := tn.label y (by rw [tn.list]; simp)
  exact ⟨h3, fuseRight_run J hf hy hm hd, ta.top, ta.super⟩

/-- C18 where it holds, leftwards -/
theorem C18_left_partial (L : Ref → Prop) (h : Heap) (J : String → String → String) (x y : Ref) (d : CRef) (t : TRef)
    (A B : List Ref) (n : Neighbours L h y x d) (tn : TierNeighbours h t A y x B) (hf : h.prev x = some (.obj y))
    (hj : J (h.label y) (h.label x) ≠ "#") :
    ∃ h', fuseLeft J x h = .ok () h' ∧
      (h.tsup t = some cTop → DoublyLinked h' (A ++ x :: B)) ∧
      (∀ s, h.tsup t ≠ some cTop → h.sup x = some s → DoublyLinked h' (h'.subs s).vals) := by
  obtain ⟨td, h2, hm, m⟩ := fuse_merge n (.left x y) _ hj h.fol (upd h.prev x (h.prev y))
  obtain ⟨h3, hd, fu, ta⟩ := fuse_tier n (.left x y) hj tn m
  have hy : h.label y ≠ "#" := tn.label y (by rw [tn.list]; simp)
  exact ⟨h3, fuseLeft_run J hf hy hm hd, ta.top, ta.super⟩

/-- C18 fails on every linked tier whose superset class is not `Top` itself and whose intervals have no
    superset, such as a tier of `Word`s: after `fuse_rightwards` the next interval still points back at the
    fused one, which is not on the tier any more. -/
theorem C18_right_violated (L : Ref → Prop) (h : Heap) (J : String → String → String) (x y z : Ref) (d : CRef) (t : TRef)
    (A B : List Ref) (n : Neighbours L h x y d) (tn : TierNeighbours h t A x y (z :: B))
    (hl : DoublyLinked h (A ++ x :: y :: z :: B)) (hj : J (h.label x) (h.label y) ≠ "#")
    (ht : h.tsup t ≠ some cTop) (hs : h.sup x = none) :
    ∃ h', fuseRight J x h = .ok () h' ∧ (h'.tseq t).vals = A ++ x :: z :: B ∧
      h'.fol x = some (.obj z) ∧ h'.prev z = some (.obj y) ∧ y ∉ (h'.tseq t).vals ∧
      ¬ DoublyLinked h' (h'.tseq t).vals := by
  have hf : h.fol x = some (.obj y) ∧ h.prev y = some (.obj x) :=
    hl.next A.length x y (by simp) (by simp)
  have hg : h.fol y = some (.obj z) ∧ h.prev z = some (.obj y) :=
    hl.next (A.length + 1) y z (getElem?_at A [x] y _) (getElem?_at A [x, y] z _)
  obtain ⟨td, h2, hm, m⟩ := fuse_merge n (.right x y) _ hj (upd h.fol x (h.fol y)) h.prev
  obtain ⟨h3, hd, fu, ta⟩ := fuse_tier n (.right x y) hj tn m
  have hy : h.label y ≠ "#" := tn.label y (by rw [tn.list]; simp)
  have hnd := tn.ordered.nodup
  have hyn : y ∉ A ++ x :: z :: B := by
    rw [← tn.erase (.right x y)]
    exact hnd.not_mem_erase
  have hnu : ∀ u ∈ (h.tseq t).vals, u ∉ (h3.subs x).vals := by
    intro u hu q
    rw [fu.subs, List.mem_append] at q
    have := tn.notUnder u hu
    rcases q with q | q
    · exact this.1 ((n.tidy.down x u (q)))
    · exact this.2 ((n.tidy.down y u (q)))
  have ex : h3.fol x = some (.obj z) := by
    rw [(ta.plain ht hs x (hnu x (by rw [tn.list]; simp))).1, upd_same]; exact hg.1
  have ez : h3.prev z = some (.obj y) := by
    rw [(ta.plain ht hs z (hnu z (by rw [tn.list]; simp))).2]; exact hg.2
  have el : (h3.tseq t).vals = A ++ x :: z :: B := by rw [ta.list]
  refine ⟨h3, fuseRight_run J hf.1 hy hm hd, el, ex, ez, by rw [el]; exact hyn, ?_⟩
  rw [el]
  intro dl
  have := (dl.next A.length x z (by simp) (by simp)).2
  rw [ez] at this
  injection this with this
  injection this with this
  exact n.ne this.symm

/-- C18 fails leftwards on the same tiers: the interval before still points at the fused one. -/
theorem C18_left_violated (L : Ref → Prop) (h : Heap) (J : String → String → String) (w x y : Ref) (d : CRef) (t : TRef)
    (A B : List Ref) (n : Neighbours L h y x d) (tn : TierNeighbours h t (A ++ [w]) y x B)
    (hl : DoublyLinked h (A ++ w :: y :: x :: B)) (hj : J (h.label y) (h.label x) ≠ "#")
    (ht : h.tsup t ≠ some cTop) (hs : h.sup x = none) :
    ∃ h', fuseLeft J x h = .ok () h' ∧ (h'.tseq t).vals = A ++ w :: x :: B ∧
      h'.prev x = some (.obj w) ∧ h'.fol w = some (.obj y) ∧ y ∉ (h'.tseq t).vals ∧
      ¬ DoublyLinked h' (h'.tseq t).vals := by
  have hg : h.fol w = some (.obj y) ∧ h.prev y = some (.obj w) :=
    hl.next A.length w y (by simp) (by simp)
  have hf : h.fol y = some (.obj x) ∧ h.prev x = some (.obj y) :=
    hl.next (A.length + 1) y x (getElem?_at A [w] y _) (getElem?_at A [w, y] x _)
  obtain ⟨td, h2, hm, m⟩ := fuse_merge n (.left x y) _ hj h.fol (upd h.prev x (h.prev y))
  obtain ⟨h3, hd, fu, ta⟩ := fuse_tier n (.left x y) hj tn m
  have hy : h.label y ≠ "#" := tn.label y (by rw [tn.list]; simp)
  have hnd := tn.ordered.nodup
  have eA : (A ++ [w]) ++ x :: B = A ++ w :: x :: B := by simp
  have hyn : y ∉ A ++ w :: x :: B := by
    rw [← eA, ← tn.erase (.left x y)]
    exact hnd.not_mem_erase
  have hnu : ∀ u ∈ (h.tseq t).vals, u ∉ (h3.subs x).vals := by
    intro u hu q
    rw [fu.subs, List.mem_append] at q
    have := tn.notUnder u hu
    rcases q with q | q
    · exact this.1 ((n.tidy.down y u (q)))
    · exact this.2 ((n.tidy.down x u (q)))
  have ex : h3.prev x = some (.obj w) := by
    rw [(ta.plain ht hs x (hnu x (by rw [tn.list]; simp))).2, upd_same]; exact hg.2
  have ew : h3.fol w = some (.obj y) := by
    rw [(ta.plain ht hs w (hnu w (by rw [tn.list]; simp))).1]; exact hg.1
  have el : (h3.tseq t).vals = A ++ w :: x :: B := by rw [ta.list, eA]
  refine ⟨h3, fuseLeft_run J hf.2 hy hm hd, el, ex, ew, by rw [el]; exact hyn, ?_⟩
  rw [el]
  intro dl
  have := (dl.next A.length w x (by simp) (by simp)).1
  rw [ew] at this
  injection this with this
  injection this with this
  exact n.ne this

/-- a tier of three words -/
def exWords : Heap := run0 (newTierFrom [(0, 1, "a"), (1, 2, "b"), (2, 3, "c")] cWord "Word")

/-- C18 fails for chains of fusions: after `fuse_rightwards` on the first of three words, `fuse_leftwards` on
    the last one fuses it with the word that is gone, and then raises, leaving the changed times behind. -/
theorem C18_chain_violated :
    (fuseRight joinSpace 0 exWords).out = .ok () ∧
    (fuseLeft joinSpace 2 (fuseRight joinSpace 0 exWords).heap).out = .error .exc ∧
    (fuseLeft joinSpace 2 (fuseRight joinSpace 0 exWords).heap).heap.tspans 0 = [(0, 2), (1, 3)] := by
  decide +kernel

/-- a word with three phones, which are on no tier -/
def exPhones : Heap := run0 do
  let w ← newEntry cWord 0 3 "abc"
  let a ← newEntry cPhone 0 1 "a"
  let b ← newEntry cPhone 1 2 "b"
  let c ← newEntry cPhone 2 3 "c"
  setSubs w [a, b, c]

/-- **C17 fails for intervals labelled `#`.** A label function may return `#`, which is taken for the boundary mark: the last two of
    three phones of a word become one phone with this label, which is still right of the first phone, in the list of the word and in
    its links, and fusing the first phone with it raises. -/
theorem C17_hash_violated :
    (fuseRight (fun _ _ => "#") 2 exPhones).out = .ok () ∧
    ((fuseRight (fun _ _ => "#") 2 exPhones).heap.subs 0).vals = [1, 2] ∧
    (fuseRight (fun _ _ => "#") 2 exPhones).heap.fol 1 = some (.obj 2) ∧
    (fuseRight joinSpace 1 (fuseRight (fun _ _ => "#") 2 exPhones).heap).out = .error .exc ∧
    (fuseRight joinSpace 1 (fuseRight joinSpace 2 exPhones).heap).out = .ok () := by
  decide +kernel

/-- C18 fails outside tiers as well. -/
theorem C18_loose_violated :
    DoublyLinked exPhones (exPhones.subs 0).vals ∧
    (fuseRight joinSpace 1 exPhones).out = .ok () ∧
    ((fuseRight joinSpace 1 exPhones).heap.subs 0).vals = [1, 3] ∧
    (fuseRight joinSpace 1 exPhones).heap.fol 1 = some (.obj 3) ∧
    (fuseRight joinSpace 1 exPhones).heap.prev 3 = some (.obj 2) := by
  refine ⟨⟨?_, ?_, ?_⟩, by decide +kernel, by decide +kernel, by decide +kernel, by decide +kernel⟩
  · have e : (exPhones.subs 0).vals = [1, 2, 3] := by decide +kernel
    rw [e]
    intro i x y hx hy
    match i with
    | 0 =>
      simp at hx hy; subst hx; subst hy
      decide +kernel
    | 1 =>
      simp at hx hy; subst hx; subst hy
      decide +kernel
    | _ + 2 => simp at hy
  · have e : (exPhones.subs 0).vals.head? = some 1 := by decide +kernel
    rw [e]; intro x hx; cases hx; decide +kernel
  · have e : (exPhones.subs 0).vals.getLast? = some 3 := by decide +kernel
    rw [e]; intro x hx; cases hx; decide +kernel

/-- the default `label_fun` never gives the boundary label -/
theorem joinSpace_ne (a b : String) : joinSpace a b ≠ "#" := by
  intro e
  have := congrArg String.toList e
  simp only [joinSpace, String.toList_append] at this
  have hm : ' ' ∈ ("#" : String).toList := by rw [← this]; simp
  exact absurd hm (by decide)

theorem getLastD_mem (z : Ref) (l : List Ref) : l.getLastD z ∈ z :: l := by
  induction l generalizing z with
  | nil => simp
  | cons p l ih => rw [List.getLastD_cons]; exact List.mem_cons_of_mem _ (ih p)

theorem flatMap_congr' {α β} {l : List α} {f g : α → List β} (h : ∀ x ∈ l, f x = g x) : l.flatMap f = l.flatMap g := by
  induction l with
  | nil => rfl
  | cons x l ih =>
    rw [List.flatMap_cons, List.flatMap_cons, h x (by simp), ih fun y hy => h y (by simp [hy])]

/-- `n` times `x.fuse_rightwards(label_fun)` -/
def fuseTimes (J : String → String → String) (x : Ref) : Nat → M Unit
  | 0 => pure ()
  | n + 1 => do
    fuseRight J x
    fuseTimes J x n

/-- C17 for chains: fusing `x` with everything right of it, one by one, leaves `x` as the last interval of the
    tier, from its start to the end of the tier, with all the labels joined from the left and all the subset
    intervals, in order. This holds on all interval tiers without supersets, also where C18 fails. -/
theorem C17_chain (J : String → String → String) (hJ : ∀ a b, J a b ≠ "#") (x : Ref) (d : CRef) (t : TRef)
    (A l : List Ref) (h : Heap) (r : RightRun h t A x l d) :
    ∃ h', fuseTimes J x l.length h = .ok () h' ∧ (h'.tseq t).vals = A ++ [x] ∧
      h'.start x = h.start x ∧ h'.stop x = h.stop (l.getLastD x) ∧
      h'.label x = (l.map h.label).foldl J (h.label x) ∧
      (h'.subs x).vals = (h.subs x).vals ++ l.flatMap (fun u => (h.subs u).vals) ∧
      (∀ u, u ≠ x → h'.start u = h.start u ∧ h'.stop u = h.stop u ∧ h'.label u = h.label u) ∧
      (∀ u, u ∉ x :: l → (h'.subs u).vals = (h.subs u).vals) ∧ Tidy h' := by
  induction l generalizing h with
  | nil =>
    refine ⟨h, rfl, r.list, rfl, rfl, rfl, by simp, fun _ _ => ⟨rfl, rfl, rfl⟩, fun _ _ => rfl, r.tidy⟩
  | cons y l ih =>
    obtain ⟨h1, e1, r1, a1, a2, a3, a4, a5, a6, _⟩ := r.step J (hJ _ _)
    obtain ⟨h2, e2, b1, b2, b3, b4, b5, b6, b7, b8⟩ := ih h1 r1
    have hnd := (List.nodup_append.mp r.tordered.nodup).2.1
    rw [List.nodup_cons, List.nodup_cons] at hnd
    have hxl : ∀ u ∈ l, u ≠ x := fun u hu e => hnd.1 (by simp [← e, hu])
    have hyl : ∀ u ∈ l, u ≠ y := fun u hu e => hnd.2.1 (e ▸ hu)
    refine ⟨h2, ?_, b1, b2.trans a1, ?_, ?_, ?_, ?_, ?_, b8⟩
    · exact Eq.trans (M.bind_ok e1) e2
    · rw [b3]
      cases l with
      | nil => exact a2
      | cons z l =>
        simp only [List.getLastD_cons]
        exact (a5 _ (hxl _ (getLastD_mem z l))).2.1
    · rw [b4, a3, List.map_cons, List.foldl_cons]
      congr 1
      exact List.map_congr_left fun u hu => (a5 u (hxl u hu)).2.2
    · rw [b5, a4, List.flatMap_cons, List.append_assoc]
      congr 2
      exact flatMap_congr' fun u hu => a6 u (hxl u hu) (hyl u hu)
    · intro u hu
      obtain ⟨p1, p2, p3⟩ := b6 u hu
      obtain ⟨q1, q2, q3⟩ := a5 u hu
      exact ⟨p1.trans q1, p2.trans q2, p3.trans q3⟩
    · intro u hu
      simp only [List.mem_cons, not_or] at hu
      rw [b7 u (by simp [hu.1, hu.2.2]), a6 u hu.1 hu.2.1]

/-- a tier with three words, each with one phone; `s` is the superset class of the tier -/
def exFuse (s : CRef) : Heap :=
  { heap0 with
    nE := 6
    nT := 1
    cls := fun r => if r < 3 then cWord else cPhone
    start := fun r => if r = 0 ∨ r = 3 then 0 else if r = 1 ∨ r = 4 then 1 else 2
    stop := fun r => if r = 0 ∨ r = 3 then 1 else if r = 1 ∨ r = 4 then 2 else 3
    label := fun r => if r < 3 then "w" else "p"
    subs := fun r => if r = 0 then ⟨[3], some cPhone⟩ else if r = 1 then ⟨[4], some cPhone⟩
      else if r = 2 then ⟨[5], some cPhone⟩ else SL.empty
    sup := fun r => if r = 3 then some 0 else if r = 4 then some 1 else if r = 5 then some 2 else none
    fol := fun r => if r = 0 then some (.obj 1) else if r = 1 then some (.obj 2) else some .bumper
    prev := fun r => if r = 1 then some (.obj 0) else if r = 2 then some (.obj 1) else some .bumper
    intier := fun r => if r < 3 then some 0 else none
    tseq := fun _ => ⟨[0, 1, 2], some cWord⟩
    tcls := fun _ => cWord
    tsup := fun _ => some s }

theorem exFuse_run (s : CRef) : RightRun (exFuse s) 0 [] 0 [1, 2] cPhone where
  tidy := by
    have hs : ∀ v, ((exFuse s).subs v).vals = if v = 0 then [3] else if v = 1 then [4] else if v = 2 then [5] else [] := by
      intro v
      show (if v = 0 then (⟨[3], some cPhone⟩ : SL) else if v = 1 then ⟨[4], some cPhone⟩
        else if v = 2 then ⟨[5], some cPhone⟩ else SL.empty).vals = _
      split; · rfl
      split; · rfl
      split; · rfl
      rfl
    have h1 : ∀ v x y, x ∈ ((exFuse s).subs v).vals → y ∈ ((exFuse s).subs v).vals → x = y := by
      intro v x y; rw [hs]; grind
    refine ⟨?_, ?_, fun v x hx y hy _ => h1 v x y hx hy, fun v x hx y hy => by rw [h1 v x y hx hy], ?_⟩
    · intro v y
      rw [hs]
      show _ ↔ (if y = 3 then some 0 else if y = 4 then some 1 else if y = 5 then some 2 else none) = some v
      grind
    · intro v; rw [hs]; repeat' split
      all_goals simp
    · intro v x hx
      show (if x < 3 then "w" else "p") ≠ "#"
      split <;> decide
  ordered := by
    intro v
    show InOrder _ (if v = 0 then (⟨[3], some cPhone⟩ : SL) else if v = 1 then ⟨[4], some cPhone⟩
        else if v = 2 then ⟨[5], some cPhone⟩ else SL.empty).vals
    unfold InOrder
    repeat' split
    all_goals simp [SL.empty]
  list := rfl
  tordered := by unfold InOrder; simp [exFuse]; grind
  cls := by simp [exFuse]
  label := by simp [exFuse]
  intier := by simp [exFuse]
  sup := by simp [exFuse]
  interval := show baseClasses.isSub cWord cPoint = false by decide +kernel
  sub := show baseClasses.sub cWord = some cPhone by decide +kernel
  subcls := by simp [exFuse]
  ecls := Or.inl rfl
  follow := by simp [exFuse]; grind
  linked := by
    intro i u v hu hv
    match i with
    | 0 => simp at hu hv; subst hu; subst hv; rfl
    | 1 => simp at hu hv; subst hu; subst hv; rfl
    | _ + 2 => simp at hv

-- the hypotheses of the theorems above
example : Neighbours (fun _ => True) (exFuse cTop) 0 1 cPhone ∧ TierNeighbours (exFuse cTop) 0 [] 0 1 [2] :=
  ⟨(exFuse_run cTop).neighbours, (exFuse_run cTop).onTier⟩

example : ∃ h', fuseRight joinSpace 0 (exFuse cTop) = .ok () h' ∧ Fused (fun _ => True) (exFuse cTop) h' 0 1 0 1 "w w" ∧
    h'.tseq 0 = ⟨[0, 2], some cWord⟩ := by
  obtain ⟨h', e, f, l, -⟩ := C17_right_partial _ _ joinSpace 0 1 cPhone 0 [] [2] (exFuse_run cTop).neighbours
    (exFuse_run cTop).onTier rfl (joinSpace_ne _ _)
  exact ⟨h', e, f, l⟩

example : ∃ h', fuseLeft joinSpace 1 (exFuse cTop) = .ok () h' ∧ DoublyLinked h' [1, 2] := by
  obtain ⟨h', e, f, -⟩ := C18_left_partial _ _ joinSpace 1 0 cPhone 0 [] [2] (exFuse_run cTop).neighbours
    (exFuse_run cTop).onTier rfl (joinSpace_ne _ _)
  exact ⟨h', e, f rfl⟩

example : ∃ h', fuseTimes joinSpace 0 2 (exFuse cWord) = .ok () h' ∧ (h'.tseq 0).vals = [0] ∧ h'.stop 0 = 3 ∧
    h'.label 0 = "w w w" ∧ (h'.subs 0).vals = [3, 4, 5] := by
  obtain ⟨h', e, l, _, p, lb, q, -⟩ := C17_chain joinSpace joinSpace_ne 0 cPhone 0 [] [1, 2] _ (exFuse_run cWord)
  exact ⟨h', e, l, p, lb.trans (by decide +kernel), q⟩

-- a tier of words whose superset class is not `Top`
example : ∃ h', fuseRight joinSpace 0 (exFuse cWord) = .ok () h' ∧ ¬ DoublyLinked h' (h'.tseq 0).vals := by
  obtain ⟨h', e, -, -, -, -, hn⟩ := C18_right_violated _ _ joinSpace 0 1 2 cPhone 0 [] [] (exFuse_run cWord).neighbours
    (exFuse_run cWord).onTier ⟨by
      intro i u v hu hv
      match i with
      | 0 => simp at hu hv; subst hu; subst hv; exact ⟨rfl, rfl⟩
      | 1 => simp at hu hv; subst hu; subst hv; exact ⟨rfl, rfl⟩
      | _ + 2 => simp at hv, by intro x hx; cases hx; rfl, by intro x hx; cases hx; rfl⟩ (joinSpace_ne _ _)
    (by show some cWord ≠ some cTop; decide) rfl
  exact ⟨h', e, hn⟩

-- outside tiers
example : ∃ h', fuseRight joinSpace 0 { exFuse cTop with intier := fun _ => none } = .ok () h' ∧
    (h'.subs 0).vals = [3, 4] ∧ h'.stop 0 = 2 := by
  have n := (exFuse_run cTop).neighbours
  obtain ⟨h', e, f, -⟩ := C17_right_loose_partial _ { exFuse cTop with intier := fun _ => none } joinSpace 0 1 cPhone
    ⟨n.tidy.congr rfl rfl rfl rfl rfl rfl rfl, n.listed, n.ordered, n.ne, n.spans, n.cls, n.sub, n.clsA, n.clsB, n.ecls, n.follow,
      n.sup, n.notUnder⟩ rfl rfl (by show "w" ≠ "#"; decide) (joinSpace_ne _ _)
  exact ⟨h', e, f.subs, f.stop⟩

/-- a word with three phones on a tier -/
def exUnder : Heap :=
  { heap0 with
    nE := 4
    nT := 1
    cls := fun r => if r = 3 then cWord else cPhone
    start := fun r => if r = 0 ∨ r = 3 then 0 else if r = 1 then 1 else 2
    stop := fun r => if r = 0 then 1 else if r = 1 then 2 else 3
    label := fun _ => "p"
    subs := fun r => if r = 3 then ⟨[0, 1, 2], some cPhone⟩ else SL.empty
    sup := fun r => if r < 3 then some 3 else none
    fol := fun r => if r = 0 then some (.obj 1) else if r = 1 then some (.obj 2) else some .bumper
    prev := fun r => if r = 1 then some (.obj 0) else if r = 2 then some (.obj 1) else some .bumper
    intier := fun r => if r < 3 then some 0 else none
    tseq := fun _ => ⟨[0, 1, 2], some cPhone⟩
    tcls := fun _ => cPhone
    tsup := fun _ => some cWord }

theorem exUnder_neighbours : Neighbours (fun _ => True) exUnder 0 1 ((baseClasses.sub cPhone).getD 0) where
  tidy := Tidy.on (by
    have hs : ∀ v, (exUnder.subs v).vals = if v = 3 then [0, 1, 2] else [] := by
      intro v; unfold exUnder; simp only []; split <;> rfl
    refine ⟨?_, ?_, ?_, ?_, ?_⟩
    · intro v y
      rw [hs]
      show _ ↔ (if y < 3 then some 3 else none) = some v
      split <;> rename_i q
      · subst q
        constructor
        · intro hy
          rw [if_pos]
          rcases (by simpa using hy : y = 0 ∨ y = 1 ∨ y = 2) with rfl | rfl | rfl <;> decide
        · intro hy
          split at hy
          · rename_i h3
            have : y = 0 ∨ y = 1 ∨ y = 2 := by unfold Ref at *; omega
            simpa using this
          · cases hy
      · simp only [List.not_mem_nil, false_iff]
        intro hh
        split at hh
        · exact q (Option.some.inj hh).symm
        · cases hh
    · intro v; rw [hs]; split <;> simp
    · intro v x hx y hy hh
      rw [hs] at hx hy
      split at hx
      · rcases (by simpa using hx : x = 0 ∨ x = 1 ∨ x = 2) with rfl | rfl | rfl <;>
          rcases (by simpa [*] using hy : y = 0 ∨ y = 1 ∨ y = 2) with rfl | rfl | rfl <;>
          first | rfl | exact absurd hh (by decide +kernel)
      · cases hx
    · intro v x hx y hy
      rw [hs] at hx hy
      split at hx
      · rcases (by simpa using hx : x = 0 ∨ x = 1 ∨ x = 2) with rfl | rfl | rfl <;>
          rcases (by simpa [*] using hy : y = 0 ∨ y = 1 ∨ y = 2) with rfl | rfl | rfl <;> rfl
      · cases hx
    · intro v x _; show "p" ≠ "#"; decide) _
  listed := ⟨trivial, trivial⟩
  ordered := by
    intro v _
    unfold InOrder
    by_cases q : v = 3
    · subst q; show List.Pairwise _ [0, 1, 2]; simp [exUnder]; grind
    · have : (exUnder.subs v).vals = [] := by unfold exUnder; simp only [if_neg q]; rfl
      rw [this]; exact List.Pairwise.nil
  ne := by decide
  spans := by decide +kernel
  cls := rfl
  sub := by decide +kernel
  clsA := by intro z hz; cases hz
  clsB := by intro z hz; cases hz
  ecls := Or.inr (Or.inl rfl)
  follow := by intro z hz; cases hz
  sup := rfl
  notUnder := by decide +kernel

theorem exUnder_onTier : TierNeighbours exUnder 0 [] 0 1 [2] where
  list := rfl
  ordered := by unfold InOrder; show List.Pairwise _ [0, 1, 2]; simp [exUnder]; grind
  cls := by show ∀ u ∈ [0, 1, 2], ∀ v ∈ [0, 1, 2], _; decide +kernel
  label := by intro u _; show "p" ≠ "#"; decide
  intierA := rfl
  intierB := rfl
  notUnder := by show ∀ u ∈ [0, 1, 2], _; decide +kernel
  interval := show baseClasses.isSub cPhone cPoint = false by decide +kernel
  top := by intro hh; exact absurd hh (by show some cWord ≠ some cTop; decide)

-- below a superset the list of the superset is linked
example : ∃ h', fuseRight joinSpace 0 exUnder = .ok () h' ∧ (h'.subs 3).vals = [0, 2] ∧ (h'.tseq 0).vals = [0, 2] ∧
    DoublyLinked h' [0, 2] := by
  obtain ⟨h', e, f, l, -⟩ := C17_right_partial _ _ joinSpace 0 1 _ 0 [] [2] exUnder_neighbours exUnder_onTier rfl
    (joinSpace_ne _ _)
  obtain ⟨h2, e2, -, dl⟩ := C18_right_partial _ _ joinSpace 0 1 _ 0 [] [2] exUnder_neighbours exUnder_onTier rfl
    (joinSpace_ne _ _)
  have : h2 = h' := by rw [e] at e2; cases e2; rfl
  subst this
  have es : (h2.subs 3).vals = [0, 2] := f.super 3 rfl
  refine ⟨h2, e, es, by rw [l]; rfl, ?_⟩
  rw [← es]
  exact dl 3 (by show some cWord ≠ some cTop; decide) rfl

end ATG
