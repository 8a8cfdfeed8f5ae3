import Verif.Lemmas.Stem
import Verif.Lemmas.ProjectUp
import Verif.Props.Append
/-!
# Appending an interval with everything below it
-/
namespace ATG

/-- the entries below (or equal to) `x` that belong on the tier `t'`, if `x` belongs on the first of the tiers -/
def genAt (h : Heap) : List TRef → Ref → TRef → List Ref
  | [], _, _ => []
  | t :: rest, x, t' => if t' = t then [x] else (h.subs x).vals.flatMap fun y => genAt h rest y t'

theorem genAt_not_mem (h : Heap) {t' : TRef} : ∀ {l : List TRef} (x : Ref), t' ∉ l → genAt h l x t' = []
  | [], _, _ => rfl
  | t :: rest, x, hn => by
    unfold genAt
    rw [if_neg fun e => hn (by simp [e])]
    apply List.flatMap_eq_nil_iff.mpr
    intro y _
    exact genAt_not_mem h y fun e => hn (by simp [e])

theorem genAt_generation (h : Heap) {t' : TRef} : ∀ {l : List TRef} (x : Ref) (j : Nat), l.Nodup → l[j]? = some t' →
    genAt h l x t' = generation h j x
  | [], _, _, _, e => by cases e
  | t :: rest, x, 0, _, e => by
    have : t = t' := by simpa using e
    unfold genAt
    rw [if_pos this.symm]
    rfl
  | t :: rest, x, j + 1, nd, e => by
    rw [List.nodup_cons] at nd
    have e : rest[j]? = some t' := by simpa using e
    have hne : t' ≠ t := fun q => nd.1 (q ▸ List.mem_of_getElem? e)
    unfold genAt generation
    rw [if_neg hne]
    congr 1
    funext y
    exact genAt_generation h y j nd.2 e

/-- The heap `k` differs from `h` in that the entries `E t` were added at the end of each of the tiers `t` of `ts`. -/
structure Growing (h k : Heap) (ts : List TRef) (E : TRef → List Ref) : Prop where
  frame : SeqFrame h k
  seq : ∀ t, k.tseq t = ⟨(h.tseq t).vals ++ E t, (h.tseq t).ecls⟩
  plain : ∀ t ∈ ts, ∀ y ∈ (h.tseq t).vals ++ E t, Plain h (h.tcls t) y
  laid : ∀ t ∈ ts, ((h.tseq t).vals ++ E t).Pairwise fun y z => h.stop y ≤ h.start z
  intier : ∀ t ∈ ts, E t ≠ [] → ∀ y ∈ (h.tseq t).vals ++ E t, k.intier y = some t
  other : ∀ y, (∀ t ∈ ts, y ∉ (h.tseq t).vals ++ E t) → k.fol y = h.fol y ∧ k.prev y = h.prev y ∧ k.within y = h.within y ∧
    k.intier y = h.intier y
  linked : ∀ t, ts[0]? = some t → E t ≠ [] → DoublyLinked k ((h.tseq t).vals ++ E t)

/-- the tiers `ts` of the group `g` are interval tiers of distinct classes -/
structure TierRow (h : Heap) (g : GRef) (ts : List TRef) : Prop where
  gtiers : h.gtiers g = ts
  gcont : h.gcont g = some ts
  distinct : (ts.map h.tcls).Nodup
  interval : ∀ t ∈ ts, h.ct.isSub (h.tcls t) cPoint = false
  sup : ∀ t ∈ ts, ∃ s, h.tsup t = some s
  ecls : ∀ t ∈ ts, (h.tseq t).ecls = some (h.tcls t)
  twithin : ∀ t ∈ ts, h.twithin t = some g

theorem nodup_of_map {α β} {f : α → β} {l : List α} (h : (l.map f).Nodup) : l.Nodup := by
  rw [List.nodup_iff_pairwise_ne, List.pairwise_map] at h
  rw [List.nodup_iff_pairwise_ne]
  exact h.imp fun q e => q (by rw [e])

theorem TierRow.nodup {h : Heap} {g : GRef} {ts : List TRef} (r : TierRow h g ts) : ts.Nodup := nodup_of_map r.distinct

theorem nodup_map_inj {α β} {f : α → β} {l : List α} (h : (l.map f).Nodup) {a b : α} (ha : a ∈ l) (hb : b ∈ l)
    (e : f a = f b) : a = b := by
  obtain ⟨i, hi, rfl⟩ := List.mem_iff_getElem.mp ha
  obtain ⟨j, hj, rfl⟩ := List.mem_iff_getElem.mp hb
  have := (List.nodup_iff_pairwise_ne.mp h)
  rw [List.pairwise_map, List.pairwise_iff_getElem] at this
  rcases Nat.lt_trichotomy i j with q | q | q
  · exact absurd e (this i j hi hj q)
  · subst q; rfl
  · exact absurd e.symm (this j i hj hi q)

theorem laid_nodup {h : Heap} {l : List Ref} (hp : l.Pairwise fun y z => h.stop y ≤ h.start z) (hpos : ∀ y ∈ l, h.start y < h.stop y) :
    l.Nodup := by
  rw [List.nodup_iff_pairwise_ne]
  refine List.Pairwise.imp_of_mem (fun {a b} ha _ q e => ?_) hp
  subst e
  have := hpos a ha
  grind

/-- the entry itself is put on its tier -/
theorem Growing.attach {h k : Heap} {g : GRef} {ts : List TRef} {E : TRef → List Ref} (r : TierRow h g ts) (gr : Growing h k ts E)
    {t : TRef} (ht : t ∈ ts) {x : Ref} (hx : Plain h (h.tcls t) x) (hlast : ∀ y ∈ (h.tseq t).vals ++ E t, h.stop y ≤ h.start x) :
    ∃ k1, (∀ n, tierAppendN (n + 1) t x k = appendRest n t x k1) ∧ Growing h k1 ts (fun t' => if t' = t then E t' ++ [x] else E t') := by
  have ect : k.ct = h.ct := by rw [gr.frame]
  have etc : k.tcls = h.tcls := by rw [gr.frame]
  have ets : k.tsup = h.tsup := by rw [gr.frame]
  have ecl : k.cls = h.cls := by rw [gr.frame]
  have elb : k.label = h.label := by rw [gr.frame]
  have est : k.start = h.start := by rw [gr.frame]
  have esp : k.stop = h.stop := by rw [gr.frame]
  obtain ⟨s, hs⟩ := r.sup t ht
  have hv : (k.tseq t).vals = (h.tseq t).vals ++ E t := by rw [gr.seq]
  have hpl : ∀ y ∈ (h.tseq t).vals ++ E t ++ [x], Plain h (h.tcls t) y := by
    intro y hy
    rcases List.mem_append.mp hy with hy | hy
    · exact gr.plain t ht y hy
    · rw [List.mem_singleton.mp hy]; exact hx
  have hlaid : ((h.tseq t).vals ++ E t ++ [x]).Pairwise fun y z => h.stop y ≤ h.start z := by
    rw [List.pairwise_append]
    refine ⟨gr.laid t ht, by simp, ?_⟩
    intro y hy z hz
    rw [List.mem_singleton.mp hz]
    exact hlast y hy
  have hnd := laid_nodup hlaid fun y hy => (hpl y hy).2.2
  obtain ⟨k1, a, e⟩ := tierAppendN_go t x k s (by unfold Heap.isPointTier; rw [ect, etc]; exact r.interval t ht)
    (by rw [ets]; exact hs) (Or.inr (by rw [gr.seq, etc]; exact r.ecls t ht))
    (by rw [hv, ecl, etc]; exact fun y hy => (hpl y hy).1)
    (by rw [hv, elb]; exact fun y hy => (hpl y hy).2.1)
    (by rw [hv]; exact hnd)
    (by
      rw [hv]
      rintro (q | ⟨y, hy, -, q, -⟩)
      · have := hlast x q
        have := hx.2.2
        grind
      · rw [est] at q
        have := hlast y hy
        have := (gr.plain t ht y hy).2.2
        grind)
  have hsort : slSort k ((k.tseq t).vals ++ [x]) = (h.tseq t).vals ++ E t ++ [x] := by
    rw [hv]
    apply slSort_of_sorted
    unfold SortedByStart
    rw [est]
    refine List.Pairwise.imp_of_mem (fun {y z} hy _ q => ?_) hlaid
    have := (hpl y hy).2.2
    grind
  refine ⟨k1, e, ?_, ?_, ?_, ?_, ?_, ?_, ?_⟩
  · refine gr.frame.trans ?_
    have := a.frame
    unfold SeqFrame
    rw [this]
  · intro t'
    have e1 : k1.tseq = upd k.tseq t ⟨slSort k ((k.tseq t).vals ++ [x]), some (k.tcls t)⟩ := by rw [a.frame]
    rw [e1, hsort]
    by_cases q : t' = t
    · subst q
      rw [upd_same, etc, r.ecls t' ht]
      simp
    · rw [upd_ne _ _ _ _ q, gr.seq]
      simp [q]
  · intro t' ht' y hy
    by_cases q : t' = t
    · subst q
      exact hpl y (by simpa using hy)
    · exact gr.plain t' ht' y (by simpa [q] using hy)
  · intro t' ht'
    by_cases q : t' = t
    · subst q
      simpa using hlaid
    · simpa [q] using gr.laid t' ht'
  · intro t' ht' hne y hy
    rw [a.intier, hv]
    by_cases q : t' = t
    · subst q
      rw [if_pos (by simpa using hy)]
    · have hy : y ∈ (h.tseq t').vals ++ E t' := by simpa [q] using hy
      rw [if_neg, gr.intier t' ht' (by simpa [q] using hne) y hy]
      intro hy'
      have h1 := (hpl y hy').1
      have h2 := (gr.plain t' ht' y hy).1
      exact q (nodup_map_inj r.distinct ht' ht (h2.symm.trans h1))
  · intro y hy
    have hy' : y ∉ (h.tseq t).vals ++ E t ++ [x] := by
      have := hy t ht
      simpa using this
    have h1 := a.other y (by rw [hv]; exact hy')
    have h2 := gr.other y (by
      intro t' ht' q
      apply hy t' ht'
      by_cases w : t' = t
      · subst w
        simp only [if_true]
        rw [← List.append_assoc]
        exact List.mem_append_left _ q
      · simpa [w] using q)
    rw [h1.1, h1.2.1, h1.2.2, a.intier, hv, if_neg hy']
    exact h2
  · intro t0 h0 hne
    by_cases q : t0 = t
    · subst q
      have := a.linked
      rw [hsort] at this
      simpa using this
    · have hE : E t0 ≠ [] := by simpa [q] using hne
      have := gr.linked t0 h0 hE
      simp only [q, if_false]
      have ht0 : t0 ∈ ts := List.mem_of_getElem? h0
      have hout : ∀ y ∈ (h.tseq t0).vals ++ E t0, k1.fol y = k.fol y ∧ k1.prev y = k.prev y := by
        intro y hy
        have h1 := a.other y (by
          rw [hv]
          intro hy'
          have h1 := (hpl y hy').1
          have h2 := (gr.plain t0 ht0 y hy).1
          exact q (nodup_map_inj r.distinct ht0 ht (h2.symm.trans h1)))
        exact ⟨h1.1, h1.2.1⟩
      refine ⟨?_, ?_, ?_⟩
      · intro i y z hy hz
        rw [(hout y (List.mem_of_getElem? hy)).1, (hout z (List.mem_of_getElem? hz)).2]
        exact this.next i y z hy hz
      · intro y hy
        rw [(hout y (List.mem_of_mem_head? hy)).2]
        exact this.first y hy
      · intro y hy
        rw [(hout y (List.mem_of_getLast? hy)).1]
        exact this.last y hy

theorem mem_genAt {h : Heap} {t' : TRef} : ∀ {l : List TRef} {x y : Ref}, y ∈ genAt h l x t' → Desc h x y
  | [], _, _, hy => by cases hy
  | t :: rest, x, y, hy => by
    unfold genAt at hy
    split at hy
    · rw [List.mem_singleton.mp hy]; exact .refl _
    · obtain ⟨z, hz, hy⟩ := List.mem_flatMap.mp hy
      exact .step _ z _ hz (mem_genAt hy)

theorem TierRow.pair {h k : Heap} {g : GRef} {ts : List TRef} (r : TierRow h g ts) (f : SeqFrame h k) {i : Nat} {u d : TRef}
    (hu : ts[i]? = some u) (hd : ts[i + 1]? = some d) : TierPair k g u d i := by
  have e1 : k.gtiers = h.gtiers := by rw [f]
  have e2 : k.gcont = h.gcont := by rw [f]
  have e3 : k.twithin = h.twithin := by rw [f]
  refine ⟨?_, ?_, ?_, ?_, ?_, ?_⟩
  · rw [e1, r.gtiers]; exact hu
  · rw [e1, r.gtiers]; exact hd
  · rw [e1, r.gtiers]; exact r.nodup
  · rw [e1, e2, r.gtiers]; exact r.gcont
  · rw [e3]; exact r.twithin u (List.mem_of_getElem? hu)
  · rw [e3]; exact r.twithin d (List.mem_of_getElem? hd)

/-- An interval is appended with everything below it. -/
theorem Growing.tree {h : Heap} {g : GRef} {ts : List TRef} (r : TierRow h g ts) (td : ∀ v x, x ∈ (h.subs v).vals → h.sup x = some v) :
    ∀ (rest : List TRef) (i : Nat) (t : TRef) (x : Ref) (k : Heap) (E : TRef → List Ref) (n : Nat), ts.drop i = t :: rest →
    rest.length + 2 ≤ n → Growing h k ts E → Tree h ((t :: rest).map h.tcls) x →
    (∀ t' ∈ t :: rest, ∀ y ∈ (h.tseq t').vals ++ E t', h.stop y ≤ h.start x) →
    (h.sup x = none ∨ ∃ i' u s, i = i' + 1 ∧ ts[i']? = some u ∧ h.sup x = some s ∧ s ∈ (h.tseq u).vals ++ E u) →
    ∃ k', tierAppendN n t x k = .ok () k' ∧ Growing h k' ts (fun t' => E t' ++ genAt h (t :: rest) x t') := by
  intro rest
  induction rest with
  | nil => ?_
  | cons d rest ih => ?_
  all_goals
    intro i t x k E n hdrop hn gr tr hlast hsup
    obtain ⟨n, rfl⟩ : ∃ m, n = m + 2 := ⟨n - 2, by omega⟩
    have hti : ts[i]? = some t := by rw [← List.head?_drop, hdrop]; rfl
    have ht : t ∈ ts := List.mem_of_getElem? hti
    have hpx : Plain h (h.tcls t) x := tr.plain
    obtain ⟨k1, e1, g1⟩ := gr.attach r ht hpx (hlast t (by simp))
    rw [e1]
    -- the superset is on the tier above already
    have hup : ∀ (k2 : Heap) (E2 : TRef → List Ref), Growing h k2 ts E2 → (∀ t' y, y ∈ E t' → y ∈ E2 t') →
        (do
          let h ← M.get
          (match h.sup x with
            | none => pure ()
            | some s =>
              if (h.subs s).vals.length > 0 then
                match withinTruthy h t with
                | none => pure ()
                | some g => do
                  let u ← siblingTier g t (-1)
                  tierAppendN (n + 1) u s
              else pure ()) : M Unit) k2 = .ok () k2 := by
      intro k2 E2 g2 hE
      mstep M.get_apply _
      have es : k2.sup = h.sup := by rw [g2.frame]
      rcases hsup with q | ⟨i', u, s, rfl, hu, q, hs⟩
      · rw [es, q]; rfl
      · rw [es, q]
        dsimp only
        by_cases hl : (k2.subs s).vals.length > 0
        · rw [if_pos hl]
          have p := r.pair g2.frame hu hti
          rw [p.truthyD]
          dsimp only
          mstep p.above
          have hu' : u ∈ ts := List.mem_of_getElem? hu
          have hs2 : s ∈ (h.tseq u).vals ++ E2 u := by
            rcases List.mem_append.mp hs with hs | hs
            · simp [hs]
            · exact List.mem_append_right _ (hE u s hs)
          unfold tierAppendN
          mstep M.get_apply _
          have ecl : k2.cls = h.cls := by rw [g2.frame]
          have etc : k2.tcls = h.tcls := by rw [g2.frame]
          rw [if_pos (by rw [ecl, etc, (g2.plain u hu' s hs2).1]; simp [isSub_refl]), if_pos (by rw [g2.seq]; simpa using hs2)]
          rfl
        · rw [if_neg hl]; rfl
  · -- the lowest tier
    refine ⟨k1, ?_, ?_⟩
    · unfold appendRest
      mstep M.get_apply _
      have es : k1.subs = h.subs := by rw [g1.frame]
      have hemp : (h.subs x).vals = [] := tr.2
      rw [if_neg (by rw [es, hemp]; simp)]
      mstep M.pure_apply _ _
      exact hup k1 _ g1 (fun t' y hy => by split <;> simp [hy])
    · have : (fun t' => E t' ++ genAt h [t] x t') = fun t' => if t' = t then E t' ++ [x] else E t' := by
        funext t'
        simp only [genAt]
        split
        · rfl
        · have : (h.subs x).vals = [] := tr.2
          simp [this]
      rw [this]
      exact g1
  · have hnd : (t :: d :: rest).Nodup := by
      rw [← hdrop]
      exact List.Nodup.sublist (List.drop_sublist i ts) r.nodup
    have hdi : ts[i + 1]? = some d := by
      have : (ts.drop i)[1]? = some d := by rw [hdrop]; rfl
      rw [List.getElem?_drop] at this
      exact this
    have hdrop' : ts.drop (i + 1) = d :: rest := by
      rw [← List.drop_drop, hdrop]; rfl
    let E1 : TRef → List Ref := fun t' => if t' = t then E t' ++ [x] else E t'
    have loop : ∀ (ys : List Ref) (k2 : Heap) (E2 : TRef → List Ref), Growing h k2 ts E2 → x ∈ E2 t →
        (∀ y ∈ ys, y ∈ (h.subs x).vals) → (ys.Pairwise fun y z => h.stop y ≤ h.start z) →
        (∀ t' ∈ d :: rest, ∀ y ∈ (h.tseq t').vals ++ E2 t', ∀ z ∈ ys, h.stop y ≤ h.start z) →
        ∃ k3, M.forL ys (fun iv => do
              let d ← siblingTier g t 1
              tierAppendN (n + 1) d iv) k2 = .ok () k3 ∧
          Growing h k3 ts (fun t' => E2 t' ++ ys.flatMap fun y => genAt h (d :: rest) y t') := by
      intro ys
      induction ys with
      | nil =>
        intro k2 E2 g2 _ _ _ _
        exact ⟨k2, rfl, by simpa using g2⟩
      | cons y ys ihy =>
        intro k2 E2 g2 hxE hys hp hb
        rw [List.pairwise_cons] at hp
        have hys0 := hys y (by simp)
        obtain ⟨k3, e3, g3⟩ := ih (i + 1) d y k2 E2 (n + 1) hdrop' (by simp only [List.length_cons] at hn; omega) g2
          (tr.below hys0) (fun t' ht' z hz => hb t' ht' z hz y (by simp))
          (Or.inr ⟨i, t, x, rfl, hti, td x y hys0, List.mem_append_right _ hxE⟩)
        obtain ⟨k4, e4, g4⟩ := ihy k3 _ g3 (List.mem_append_left _ hxE) (fun z hz => hys z (by simp [hz])) hp.2 (by
          intro t' ht' z hz w hw
          rw [← List.append_assoc] at hz
          rcases List.mem_append.mp hz with hz | hz
          · exact hb t' ht' z hz w (by simp [hw])
          · have h1 := (tr.below hys0).desc (mem_genAt hz)
            have h2 := hp.1 w hw
            grind)
        refine ⟨k4, ?_, ?_⟩
        · rw [M.forL_cons]
          have : (do
              let d ← siblingTier g t 1
              tierAppendN (n + 1) d y : M Unit) k2 = .ok () k3 := by
            mstep (r.pair g2.frame hti hdi).below
            exact e3
          rw [this]
          exact e4
        · simpa [List.flatMap_cons, List.append_assoc] using g4
    obtain ⟨k3, e3, g3⟩ := loop (h.subs x).vals k1 E1 g1 (by simp [E1]) (fun _ hy => hy) tr.disjoint (by
      intro t' ht' y hy z hz
      have hne : t' ≠ t := fun q => (List.nodup_cons.mp hnd).1 (q ▸ ht')
      have : y ∈ (h.tseq t').vals ++ E t' := by simpa [E1, hne] using hy
      have h1 := hlast t' (List.mem_cons_of_mem _ ht') y this
      have h2 := (tr.child hz).1
      grind)
    refine ⟨k3, ?_, ?_⟩
    · unfold appendRest
      mstep M.get_apply _
      have es : k1.subs = h.subs := by rw [g1.frame]
      have hne : (h.subs x).vals ≠ [] := tr.2.1.ne
      rw [if_pos (by rw [es]; exact List.length_pos_iff.mpr hne), (r.pair g1.frame hti hdi).truthyU]
      dsimp only
      rw [es]
      mstep e3
      exact hup k3 _ g3 (fun t' y hy => by simp only [E1]; split <;> simp [hy])
    · have : (fun t' => E t' ++ genAt h (t :: d :: rest) x t') =
          fun t' => E1 t' ++ (h.subs x).vals.flatMap fun y => genAt h (d :: rest) y t' := by
        funext t'
        by_cases q : t' = t
        · subst q
          have : ((h.subs x).vals.flatMap fun y => genAt h (d :: rest) y t') = [] := by
            apply List.flatMap_eq_nil_iff.mpr
            intro y _
            exact genAt_not_mem h y (List.nodup_cons.mp hnd).1
          rw [this]
          simp [E1, genAt]
        · rw [genAt, if_neg q]
          simp [E1, q]
      rw [this]
      exact g3

end ATG
