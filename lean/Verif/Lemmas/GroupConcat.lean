import Verif.Lemmas.StemRelate
import Verif.Lemmas.GridSweep
import Verif.Model.Concat
/-!
# Joining groups
-/
namespace ATG

/-- moving other entries does not matter to a group -/
theorem RelatedGroup.shifted {h k : Heap} {g : GRef} {ts : List TRef} (r : RelatedGroup h g ts) {S : Ref → Prop} {d : Time}
    (s : ShiftedBy S d h k) (hS : ∀ y, OnTiers h ts y → ¬ S y) : RelatedGroup k g ts := by
  have f := s.rest
  have esq : k.tseq = h.tseq := by rw [f]
  have hv : ∀ t ∈ ts, ∀ x ∈ (h.tseq t).vals, k.start x = h.start x ∧ k.stop x = h.stop x := fun t ht x hx => s.kept x (hS x ⟨t, ht, hx⟩)
  have u : Unmoved h k ts := by
    refine ⟨fun t _ => by rw [esq], fun t _ => by rw [f], fun t _ => by rw [f], ?_, ?_⟩
    · intro t ht x hx
      obtain ⟨a, b⟩ := hv t ht x hx
      exact ⟨a, b, by rw [f], by rw [f]⟩
    · intro t ht x hx
      exact ⟨by rw [f], by rw [f], by rw [f], by rw [f], by rw [f], by rw [f]⟩
  refine ⟨by rw [f]; exact r.gtiers, by rw [f]; exact r.gcont, by rw [f]; exact r.gpoint, r.ne,
    r.chain.congr (by rw [f]) (by rw [f]) (by rw [f]) (by rw [f]), r.aligned.unmoved u (by rw [f]) (by rw [f]), ?_, ?_, ?_, ?_,
    r.related.unmoved u, ?_⟩
  · rw [f]; exact r.interval
  · rw [f]; exact r.ecls
  · intro t ht
    rw [esq]
    have : (h.tseq t).vals.map k.span = (h.tseq t).vals.map h.span := by
      apply List.map_congr_left
      intro x hx
      obtain ⟨a, b⟩ := hv t ht x hx
      unfold Heap.span
      rw [a, b]
    rw [this]
    exact r.laid t ht
  · rw [f]; exact r.twithin
  · have e1 : k.sup = h.sup := by rw [f]
    unfold SupClosed OnTiers
    rw [e1, esq]
    exact r.closed

/-- moving a whole tree leaves the relations tidy -/
theorem Tidy.shifted {h k : Heap} (td : Tidy h) {S : Ref → Prop} {d : Time} (s : ShiftedBy S d h k)
    (hS : ∀ v x, h.sup x = some v → (S v ↔ S x)) : Tidy k := by
  have f := s.rest
  have e1 : k.subs = h.subs := by rw [f]
  have e2 : k.sup = h.sup := by rw [f]
  have e3 : k.cls = h.cls := by rw [f]
  have e4 : k.label = h.label := by rw [f]
  have e5 : k.isPoint = h.isPoint := by rw [f]; rfl
  refine ⟨by rw [e1, e2]; exact td.agree, by rw [e1]; exact td.nodup, ?_, by rw [e1, e3]; exact td.cls, by rw [e1, e4]; exact td.label⟩
  intro v x hx y hy sv
  rw [e1] at hx hy
  apply td.distinct v x hx y hy
  unfold SameValue at sv ⊢
  rw [e5, e4] at sv
  have h1 := hS v x ((td.agree v x).mp hx)
  have h2 := hS v y ((td.agree v y).mp hy)
  obtain ⟨p, q, w, z⟩ := sv
  refine ⟨p, ?_, ?_, z⟩
  · by_cases hv : S v
    · have a := (s.moved x (h1.mp hv)).1
      have b := (s.moved y (h2.mp hv)).1
      grind
    · have a := (s.kept x (fun e => hv (h1.mpr e))).1
      have b := (s.kept y (fun e => hv (h2.mpr e))).1
      grind
  · by_cases hv : S v
    · have a := (s.moved x (h1.mp hv)).2
      have b := (s.moved y (h2.mp hv)).2
      grind
    · have a := (s.kept x (fun e => hv (h1.mpr e))).2
      have b := (s.kept y (fun e => hv (h2.mpr e))).2
      grind

theorem Tidy.desc_closed {h : Heap} (td : Tidy h) {x : Ref} (hs : h.sup x = none) (v y : Ref) (hvy : h.sup y = some v) :
    Desc h x v ↔ Desc h x y := by
  have hyv := (td.agree v y).mpr hvy
  constructor
  · intro hd
    exact hd.trans (.step _ y _ hyv (.refl y))
  · intro hd
    rcases hd.parent with rfl | ⟨z, hy, hz⟩
    · rw [hs] at hvy; cases hvy
    · have := (td.agree z y).mp hy
      rw [hvy] at this
      injection this with this
      rw [this]; exact hz

/-- what is on a tier is what is below the entries of the first tier -/
theorem RelatedGroup.generations {h : Heap} {g : GRef} {ts : List TRef} (r : RelatedGroup h g ts) {t0 : TRef} (h0 : ts[0]? = some t0) :
    ∀ (i : Nat) t, ts[i]? = some t → (h.tseq t0).vals.flatMap (generation h i) = (h.tseq t).vals
  | 0, t, hi => by
    rw [h0] at hi
    injection hi with hi
    subst hi
    have : generation h 0 = fun y => [y] := by funext y; rfl
    rw [this]
    simp
  | i + 1, t, hi => by
    have hlt : i + 1 < ts.length := (List.getElem?_eq_some_iff.mp hi).1
    have hi' : ts[i]? = some ts[i] := List.getElem?_eq_getElem _
    have ih := r.generations h0 i ts[i] hi'
    have e : generation h (i + 1) = fun x => (generation h i x).flatMap fun y => (h.subs y).vals := by
      funext x
      exact generation_succ i x
    rw [e, ← List.flatMap_assoc, ih]
    have al := r.aligned.aligned i _ t hi' hi
    have hpos : ∀ y ∈ (h.tseq t).vals, h.start y < h.stop y := fun y hy => (r.plain (List.mem_of_getElem? hi) hy).2.2
    have hupos : ∀ y ∈ (h.tseq ts[i]).vals, h.start y < h.stop y := fun y hy => (r.plain (List.getElem_mem _) hy).2.2
    have hsub : ∀ u ∈ (h.tseq ts[i]).vals, (h.subs u).vals = (h.tseq t).vals.filter (Inside h u ·) :=
      fun u hu => (r.related.subs i _ t hi' hi u hu).1
    refine List.Perm.eq_of_pairwise (le := fun y z => h.stop y ≤ h.start z ∨ y = z) ?_ ?_ ?_ ?_
    · intro a b ha hb h1 h2
      have hb : b ∈ (h.tseq t).vals := hb
      rcases h1 with h1 | h1
      · rcases h2 with h2 | h2
        · have e1 := hpos b hb
          have ha' : h.start a < h.stop a := by
            obtain ⟨u, hu, ha⟩ := List.mem_flatMap.mp ha
            rw [hsub u hu] at ha
            exact hpos a (List.mem_filter.mp ha).1
          grind
        · exact h2.symm
      · exact h1
    · refine List.Pairwise.imp (fun q => Or.inl q) ?_
      have key : ∀ l : List Ref, (∀ u ∈ l, u ∈ (h.tseq ts[i]).vals) → (l.Pairwise fun y z => h.stop y ≤ h.start z) →
          (l.flatMap fun y => (h.subs y).vals).Pairwise fun y z => h.stop y ≤ h.start z := by
        intro l
        induction l with
        | nil => intro _ _; exact List.Pairwise.nil
        | cons a l ih2 =>
          intro hl hp
          rw [List.pairwise_cons] at hp
          rw [List.flatMap_cons, List.pairwise_append]
          refine ⟨?_, ih2 (fun u hu => hl u (by simp [hu])) hp.2, ?_⟩
          · rw [hsub a (hl a (by simp))]
            exact al.lowerDisjoint.filter _
          · intro y hy z hz
            obtain ⟨b, hb, hz⟩ := List.mem_flatMap.mp hz
            rw [hsub a (hl a (by simp))] at hy
            rw [hsub b (hl b (by simp [hb]))] at hz
            have h1 : Inside h a y := by simpa using (List.mem_filter.mp hy).2
            have h2 : Inside h b z := by simpa using (List.mem_filter.mp hz).2
            have h3 := hp.1 b hb
            have h4 := h1.2
            have h5 := h2.1
            grind
      exact key _ (fun _ hu => hu) al.upperDisjoint
    · exact al.lowerDisjoint.imp fun q => Or.inl q
    · apply (List.perm_ext_iff_of_nodup ?_ (r.aligned.nodup t (List.mem_of_getElem? hi))).mpr
      · intro y
        rw [List.mem_flatMap]
        constructor
        · rintro ⟨u, hu, hy⟩
          rw [hsub u hu] at hy
          exact (List.mem_filter.mp hy).1
        · intro hy
          exact r.related.covered i _ t hi' hi y hy
      · rw [List.nodup_iff_pairwise_ne, List.pairwise_flatMap]
        refine ⟨fun u hu => ?_, ?_⟩
        · rw [← List.nodup_iff_pairwise_ne, hsub u hu]
          exact (r.aligned.nodup t (List.mem_of_getElem? hi)).filter _
        · refine List.Pairwise.imp_of_mem (fun {a b} ha hb q => ?_) al.upperDisjoint
          intro y hy z hz e
          subst e
          rw [hsub a ha] at hy
          rw [hsub b hb] at hz
          have h1 : Inside h a y := by simpa using (List.mem_filter.mp hy).2
          have h2 : Inside h b y := by simpa using (List.mem_filter.mp hz).2
          have h4 := h1.2
          have h5 := h2.1
          have := hpos y (List.mem_filter.mp hy).1
          grind

/-- two groups with tiers of the same classes, without a common entry -/
structure Continues (h : Heap) (g g' : GRef) (ts us : List TRef) (T : Time) : Prop where
  left : RelatedGroup h g ts
  right : RelatedGroup h g' us
  tidy : Tidy h
  ne : g ≠ g'
  classes : us.map h.tcls = ts.map h.tcls
  separate : ∀ y, OnTiers h ts y → ¬ OnTiers h us y
  before : ∀ t ∈ ts, ∀ y ∈ (h.tseq t).vals, h.stop y ≤ T
  after : ∀ u ∈ us, ∀ y ∈ (h.tseq u).vals, 0 ≤ h.start y
  depth : ts.length < appendFuel

theorem Continues.length {h : Heap} {g g' : GRef} {ts us : List TRef} {T : Time} (j : Continues h g g' ts us T) :
    us.length = ts.length := by
  have := congrArg List.length j.classes
  simpa using this

theorem Continues.word {h : Heap} {g g' : GRef} {ts us : List TRef} {T : Time} (j : Continues h g g' ts us T) {u0 : TRef}
    (h0 : us[0]? = some u0) {w : Ref} (hw : w ∈ (h.tseq u0).vals) : Tree h (ts.map h.tcls) w := by
  have hlt : 0 < us.length := (List.getElem?_eq_some_iff.mp h0).1
  have := j.right.tree j.tidy (us.length - 1) 0 u0 (by omega) h0 w hw
  rw [List.drop_zero, j.classes] at this
  exact this

theorem Continues.desc {h : Heap} {g g' : GRef} {ts us : List TRef} {T : Time} (j : Continues h g g' ts us T) {u0 : TRef}
    (h0 : us[0]? = some u0) {w : Ref} (hw : w ∈ (h.tseq u0).vals) {y : Ref} (d : Desc h w y) : OnTiers h us y := by
  obtain ⟨i, hi, hy⟩ := (j.word h0 hw).desc_generation d
  rw [List.length_map, ← j.length] at hi
  refine ⟨us[i], List.getElem_mem _, ?_⟩
  rw [← j.right.generations h0 i us[i] (List.getElem?_eq_getElem _)]
  exact List.mem_flatMap.mpr ⟨w, hw, hy⟩

/-- one more entry of the first tier is carried over -/
theorem Continues.step {h : Heap} {g g' : GRef} {ts us : List TRef} {T : Time} (j : Continues h g g' ts us T) {t0 u0 : TRef}
    (ht0 : ts[0]? = some t0) (hu0 : us[0]? = some u0) {ws : List Ref} {w : Ref} (hin : ∀ x ∈ ws ++ [w], x ∈ (h.tseq u0).vals)
    (hord : ∀ x ∈ ws, h.stop x ≤ h.start w) {k : Heap} (jn : Concatenated h k ts (fun i => ws.flatMap (generation h i)) T)
    (rg : RelatedGroup k g ts) (td : Tidy k) :
    w ∉ (k.tseq t0).vals ∧ k.sup w = none ∧
    ∃ k1 k2, ivalShiftN shiftFuel w T k = .ok () k1 ∧ tierAppend t0 w k1 = .ok () k2 ∧
      Concatenated h k2 ts (fun i => (ws ++ [w]).flatMap (generation h i)) T ∧ RelatedGroup k2 g ts ∧ Tidy k2 := by
  have hw : w ∈ (h.tseq u0).vals := hin w (by simp)
  have hws : ∀ x ∈ ws, x ∈ (h.tseq u0).vals := fun x hx => hin x (by simp [hx])
  have tr := j.word hu0 hw
  have hsup : h.sup w = none := j.right.related.top u0 hu0 w hw
  -- membership
  have hmem : ∀ y, (∃ i, i < ts.length ∧ y ∈ ws.flatMap (generation h i)) ↔ ∃ x ∈ ws, Desc h x y := by
    intro y
    constructor
    · rintro ⟨i, -, hy⟩
      obtain ⟨x, hx, hy⟩ := List.mem_flatMap.mp hy
      exact ⟨x, hx, generation_desc i hy⟩
    · rintro ⟨x, hx, d⟩
      obtain ⟨i, hi, hy⟩ := (j.word hu0 (hws x hx)).desc_generation d
      rw [List.length_map] at hi
      exact ⟨i, hi, List.mem_flatMap.mpr ⟨x, hx, hy⟩⟩
  have hmoved : ∀ y, (∃ x ∈ ws, Desc h x y) → k.start y = h.start y + T ∧ k.stop y = h.stop y + T := by
    intro y hy
    obtain ⟨i, hi, hy⟩ := (hmem y).mpr hy
    exact jn.moved i hi y hy
  have hkept : ∀ y, ¬ (∃ x ∈ ws, Desc h x y) → k.start y = h.start y ∧ k.stop y = h.stop y := by
    intro y hy
    exact jn.kept y fun i hi q => hy ((hmem y).mp ⟨i, hi, q⟩)
  have hdis : ∀ y, Desc h w y → ¬ ∃ x ∈ ws, Desc h x y := by
    rintro y d ⟨x, hx, d'⟩
    have h1 := tr.desc d
    have h2 := (j.word hu0 (hws x hx)).desc d'
    have h3 := hord x hx
    grind
  have hon : ∀ y, OnTiers k ts y → OnTiers h ts y ∨ ∃ x ∈ ws, Desc h x y := by
    rintro y ⟨t, ht, hy⟩
    obtain ⟨i, hi⟩ := List.mem_iff_getElem?.mp ht
    rw [jn.lists i t hi] at hy
    rcases List.mem_append.mp hy with hy | hy
    · exact Or.inl ⟨t, ht, hy⟩
    · exact Or.inr ((hmem y).mp ⟨i, (List.getElem?_eq_some_iff.mp hi).1, hy⟩)
  have hnot : ∀ y, OnTiers k ts y → ¬ Desc h w y := by
    intro y hy d
    rcases hon y hy with q | q
    · exact j.separate y q (j.desc hu0 hw d)
    · exact hdis y d q
  have ecl : k.cls = h.cls := by rw [jn.rest]
  have elb : k.label = h.label := by rw [jn.rest]
  have etc : k.tcls = h.tcls := by rw [jn.rest]
  have hD : ∀ {x y}, Desc k x y ↔ Desc h x y := fun {x y} => ⟨fun d => d.congr jn.subs, fun d => d.congr fun z => (jn.subs z).symm⟩
  have trk : Tree k (ts.map h.tcls) w := tr.congr fun y d => by
    obtain ⟨a, b⟩ := hkept y (hdis y d)
    exact ⟨jn.subs y, by rw [ecl], by rw [elb], a, b⟩
  have hksup : k.sup w = none := by rw [jn.sup]; exact hsup
  have ht0m := List.mem_of_getElem? ht0
  refine ⟨fun q => hnot w ⟨t0, ht0m, q⟩ (.refl w), hksup, ?_⟩
  obtain ⟨k1, e1, s⟩ := trk.shift j.left.chain.distinct shiftFuel (by
    rw [List.length_map]
    have := j.depth
    unfold appendFuel at this
    unfold shiftFuel
    omega) T
  have rg1 : RelatedGroup k1 g ts := rg.shifted s fun y hy d => hnot y hy (hD.mp d)
  have td1 : Tidy k1 := td.shifted s (td.desc_closed hksup)
  have f1 := s.rest
  have sub1 : k1.subs = k.subs := by rw [f1]
  have tr1 : Tree k1 (ts.map k1.tcls) w := by
    rw [show k1.tcls = h.tcls by rw [f1]; exact etc]
    refine Tree.moved T (fun y d => ?_) trk
    obtain ⟨a, b⟩ := s.moved y d
    exact ⟨by rw [sub1], by rw [f1], by rw [f1], a, b⟩
  have hT : ∀ y, OnTiers k ts y → k.stop y ≤ h.start w + T := by
    intro y hy
    rcases hon y hy with q | q
    · have hq : ¬ ∃ x ∈ ws, Desc h x y := by
        rintro ⟨x, hx, d⟩
        exact j.separate y q (j.desc hu0 (hws x hx) d)
      obtain ⟨t, ht, hy'⟩ := q
      have h1 := j.before t ht y hy'
      have h2 := j.after u0 (List.mem_of_getElem? hu0) w hw
      have h3 := (hkept y hq).2
      grind
    · have h1 := (hmoved y q).2
      obtain ⟨x, hx, d⟩ := q
      have h2 := (j.word hu0 (hws x hx)).desc d
      have h3 := hord x hx
      grind
  obtain ⟨k2, e2, rg2, td2, sa⟩ := rg1.append td1 ht0 tr1 (by rw [f1]; exact hksup) (by
    intro t ht y hy
    have esq : k1.tseq = k.tseq := by rw [f1]
    rw [esq] at hy
    have hy' : OnTiers k ts y := ⟨t, ht, hy⟩
    have h1 := (s.kept y fun d => hnot y hy' (hD.mp d)).2
    have h2 := (s.moved w (.refl w)).1
    have h3 := (hkept w (hdis w (.refl w))).1
    have h4 := hT y hy'
    grind) j.depth
  refine ⟨k1, k2, e1, e2, ?_, rg2, td2⟩
  have hgen : ∀ i, generation k1 i w = generation h i w := by
    intro i
    refine generation_congr i fun y _ => ?_
    rw [sub1]
    exact jn.subs y
  have hE : ∀ i, (ws ++ [w]).flatMap (generation h i) = ws.flatMap (generation h i) ++ generation h i w := by
    intro i
    rw [List.flatMap_append]
    simp
  have st2 : k2.start = k1.start := by rw [sa.rest]
  have sp2 : k2.stop = k1.stop := by rw [sa.rest]
  have hD1 : ∀ {x y}, Desc k1 x y ↔ Desc h x y := by
    intro x y
    have e : ∀ z, (k1.subs z).vals = (h.subs z).vals := fun z => by rw [sub1]; exact jn.subs z
    exact ⟨fun d => d.congr e, fun d => d.congr fun z => (e z).symm⟩
  have hlast : ∀ y, (∃ i, i < ts.length ∧ y ∈ generation h i w) ↔ Desc h w y := by
    intro y
    constructor
    · rintro ⟨i, -, hy⟩
      exact generation_desc i hy
    · intro d
      obtain ⟨i, hi, hy⟩ := tr.desc_generation d
      rw [List.length_map] at hi
      exact ⟨i, hi, hy⟩
  refine ⟨?_, ?_, ?_, ?_, ?_, ?_, ?_, ?_, ?_, ?_⟩
  · intro i t hi
    rw [sa.lists i t hi, show k1.tseq = k.tseq by rw [f1], jn.lists i t hi, hgen, hE, List.append_assoc]
  · intro t ht
    rw [sa.tiers t ht, show k1.tseq = k.tseq by rw [f1], jn.tiers t ht]
  · intro i hi y hy
    rw [st2, sp2]
    simp only [hE] at hy
    rcases List.mem_append.mp hy with hy | hy
    · have hx := (hmem y).mp ⟨i, hi, hy⟩
      have h1 := s.kept y fun d => hdis y (hD.mp d) hx
      have h2 := hmoved y hx
      rw [h1.1, h1.2]
      exact h2
    · have d := generation_desc i hy
      have h1 := s.moved y (hD.mpr d)
      have h2 := hkept y (hdis y d)
      rw [h1.1, h1.2, h2.1, h2.2]
      exact ⟨rfl, rfl⟩
  · intro y hy
    rw [st2, sp2]
    have n1 : ¬ Desc h w y := by
      intro d
      obtain ⟨i, hi, q⟩ := (hlast y).mpr d
      exact hy i hi (by simp only [hE]; exact List.mem_append_right _ q)
    have n2 : ¬ ∃ x ∈ ws, Desc h x y := by
      intro d
      obtain ⟨i, hi, q⟩ := (hmem y).mpr d
      exact hy i hi (by simp only [hE]; exact List.mem_append_left _ q)
    have h1 := s.kept y fun d => n1 (hD.mp d)
    have h2 := hkept y n2
    rw [h1.1, h1.2]
    exact h2
  · intro v
    rw [sa.subs, sub1, jn.subs]
  · rw [sa.sup, show k1.sup = k.sup by rw [f1], jn.sup]
  · intro _ t ht y hy
    exact sa.intier t ht y hy
  · intro _ t ht
    exact sa.linked t ht
  · intro y hy hn
    have n1 : ¬ Desc h w y := by
      intro d
      obtain ⟨i, hi, q⟩ := (hlast y).mpr d
      exact hn i hi (by simp only [hE]; exact List.mem_append_right _ q)
    have n2 : ∀ i, i < ts.length → y ∉ ws.flatMap (generation h i) := by
      intro i hi q
      exact hn i hi (by simp only [hE]; exact List.mem_append_left _ q)
    have n3 : ¬ OnTiers k1 ts y := by
      intro q
      have q : OnTiers k ts y := by
        obtain ⟨t, ht, q⟩ := q
        exact ⟨t, ht, by rw [← show k1.tseq = k.tseq by rw [f1]]; exact q⟩
      rcases hon y q with q | q
      · exact hy q
      · obtain ⟨i, hi, q⟩ := (hmem y).mpr q
        exact n2 i hi q
    have h1 := sa.other y n3 fun d => n1 (hD1.mp d)
    have h2 := jn.other y hy n2
    rw [h1.1, h1.2.1, h1.2.2.1, h1.2.2.2.1, h1.2.2.2.2, f1]
    exact h2
  · have a := sa.rest
    have b := s.rest
    have c := jn.rest
    rw [b, c] at a
    rw [a]

/-- all entries of the first tier are carried over -/
theorem Continues.loop {h : Heap} {g g' : GRef} {ts us : List TRef} {T : Time} (j : Continues h g g' ts us T) {t0 u0 : TRef}
    (ht0 : ts[0]? = some t0) (hu0 : us[0]? = some u0) : ∀ (todo ws : List Ref) (k : Heap), (h.tseq u0).vals = ws ++ todo →
    Concatenated h k ts (fun i => ws.flatMap (generation h i)) T → RelatedGroup k g ts → Tidy k →
    ∃ k', M.forL todo (fun x => do
        let h ← M.get
        if h.sup x ≠ none then pure ()
        else if (h.tseq t0).vals.contains x then pure ()
        else do
          ivalShiftN shiftFuel x T
          tierAppend t0 x) k = .ok () k' ∧
      Concatenated h k' ts (fun i => (h.tseq u0).vals.flatMap (generation h i)) T ∧ RelatedGroup k' g ts ∧ Tidy k' := by
  intro todo
  induction todo with
  | nil =>
    intro ws k hv jn rg td
    rw [List.append_nil] at hv
    rw [hv]
    exact ⟨k, rfl, jn, rg, td⟩
  | cons w todo ih =>
    intro ws k hv jn rg td
    have hp := j.right.disjoint (List.mem_of_getElem? hu0)
    rw [hv, List.pairwise_append] at hp
    obtain ⟨n1, n2, k1, k2, e1, e2, jn2, rg2, td2⟩ := j.step ht0 hu0 (ws := ws) (w := w) (by
      intro x hx
      rw [hv]
      rcases List.mem_append.mp hx with hx | hx
      · simp [hx]
      · rw [List.mem_singleton.mp hx]; simp) (fun x hx => hp.2.2 x hx w (by simp)) jn rg td
    obtain ⟨k3, e3, r⟩ := ih (ws ++ [w]) k2 (by rw [hv]; simp) jn2 rg2 td2
    refine ⟨k3, ?_, r⟩
    rw [M.forL_cons]
    have : (do
        let h ← M.get
        if h.sup w ≠ none then pure ()
        else if (h.tseq t0).vals.contains w then pure ()
        else do
          ivalShiftN shiftFuel w T
          tierAppend t0 w : M Unit) k = .ok () k2 := by
      mstep M.get_apply _
      rw [if_neg (by simp [n2]), if_neg (by simpa using n1)]
      mstep e1
      exact e2
    rw [this]
    exact e3

/-- Joining two groups. -/
theorem Continues.concat {h : Heap} {g g' : GRef} {ts us : List TRef} {T : Time} (j : Continues h g g' ts us T)
    (hT : groupXmax h g = .ok T) :
    ∃ h', groupConcat g g' h = .ok () h' ∧ RelatedGroup h' g ts ∧ Tidy h' ∧
      Concatenated h h' ts (fun i => (us[i]?.map fun u => (h.tseq u).vals).getD []) T := by
  obtain ⟨t0, tr, rfl⟩ : ∃ t0 tr, ts = t0 :: tr := by
    cases ts with
    | nil => exact absurd rfl j.left.ne
    | cons a l => exact ⟨a, l, rfl⟩
  obtain ⟨u0, ur, rfl⟩ : ∃ u0 ur, us = u0 :: ur := by
    cases us with
    | nil => exact absurd rfl j.right.ne
    | cons a l => exact ⟨a, l, rfl⟩
  have j0 : Concatenated h h (t0 :: tr) (fun i => ([] : List Ref).flatMap (generation h i)) T :=
    ⟨fun _ _ _ => by simp, fun _ _ => rfl, fun _ _ y hy => by simp at hy, fun _ _ => ⟨rfl, rfl⟩, fun _ => rfl, rfl,
      fun q => absurd rfl q, fun q => absurd rfl q, fun _ _ _ => ⟨rfl, rfl, rfl, rfl, rfl⟩, rfl⟩
  obtain ⟨h', e, jn, rg, td⟩ := j.loop rfl rfl (h.tseq u0).vals [] h (by simp) j0 j.left j.tidy
  refine ⟨h', ?_, rg, td, ?_⟩
  · unfold groupConcat
    mstep M.get_apply h
    rw [if_pos, hT]
    · dsimp only
      rw [j.left.gtiers, j.right.gtiers, List.zip_cons_cons, M.forL_cons]
      rw [show (do
          let h ← M.get
          M.forL (h.tseq u0).vals (fun x => do
            let h ← M.get
            if h.sup x ≠ none then pure ()
            else if (h.tseq t0).vals.contains x then pure ()
            else do
              ivalShiftN shiftFuel x T
              tierAppend t0 x) : M Unit) h = .ok () h' from by
        mstep M.get_apply h
        exact e]
      dsimp only
      -- the lower tiers
      have key : ∀ l : List (TRef × TRef), (∀ p ∈ l, p.2 ∈ ur) → M.forL l (fun p => do
          let h ← M.get
          M.forL (h.tseq p.2).vals (fun x => do
            let h ← M.get
            if h.sup x ≠ none then pure ()
            else if (h.tseq p.1).vals.contains x then pure ()
            else do
              ivalShiftN shiftFuel x T
              tierAppend p.1 x)) h' = .ok () h' := by
        intro l
        induction l with
        | nil => intro _; rfl
        | cons p l ih =>
          intro hl
          have hp := hl p (by simp)
          have hnot : p.2 ∉ t0 :: tr := by
            intro q
            have h1 := j.left.twithin _ q
            have h2 := j.right.twithin _ (List.mem_cons_of_mem _ hp)
            rw [h1] at h2
            injection h2 with h2
            exact j.ne h2
          rw [M.forL_cons]
          have inner : ∀ xs : List Ref, (∀ x ∈ xs, x ∈ (h.tseq p.2).vals) → M.forL xs (fun x => do
              let h ← M.get
              if h.sup x ≠ none then pure ()
              else if (h.tseq p.1).vals.contains x then pure ()
              else do
                ivalShiftN shiftFuel x T
                tierAppend p.1 x) h' = .ok () h' := by
            intro xs
            induction xs with
            | nil => intro _; rfl
            | cons x xs ihx =>
              intro hx
              rw [M.forL_cons]
              have : h'.sup x ≠ none := by
                rw [jn.sup]
                obtain ⟨i, hi⟩ := List.mem_iff_getElem?.mp hp
                have hlt : i < ur.length := (List.getElem?_eq_some_iff.mp hi).1
                have hlt' : i < (u0 :: ur).length := by simp only [List.length_cons]; omega
                have hi0 : (u0 :: ur)[i]? = some (u0 :: ur)[i] := List.getElem?_eq_getElem hlt'
                obtain ⟨u, hu, hxu⟩ := j.right.related.covered i _ p.2 hi0 (by simpa using hi) x (hx x (by simp))
                rw [(j.tidy.agree u x).mp hxu]
                simp
              rw [show (do
                  let h ← M.get
                  if h.sup x ≠ none then pure ()
                  else if (h.tseq p.1).vals.contains x then pure ()
                  else do
                    ivalShiftN shiftFuel x T
                    tierAppend p.1 x : M Unit) h' = .ok () h' from by
                mstep M.get_apply h'
                rw [if_pos this]
                rfl]
              exact ihx fun y hy => hx y (by simp [hy])
          rw [show (do
              let h ← M.get
              M.forL (h.tseq p.2).vals (fun x => do
                let h ← M.get
                if h.sup x ≠ none then pure ()
                else if (h.tseq p.1).vals.contains x then pure ()
                else do
                  ivalShiftN shiftFuel x T
                  tierAppend p.1 x) : M Unit) h' = .ok () h' from by
            mstep M.get_apply h'
            rw [jn.tiers p.2 hnot]
            exact inner _ fun _ hx => hx]
          exact ih fun q hq => hl q (by simp [hq])
      exact key _ fun p hp => (List.of_mem_zip hp).2
    · unfold classCheck
      rw [j.left.gtiers, j.right.gtiers, j.length.symm]
      have : ∀ l : List TRef, (l.map fun t => h.ct.name (h.tcls t)) = (l.map h.tcls).map h.ct.name := by
        intro l
        rw [List.map_map]
        rfl
      rw [this, this, j.classes]
      simp
  · have hE : ∀ i, i < (t0 :: tr).length → (((u0 :: ur)[i]?.map fun u => (h.tseq u).vals).getD [] : List Ref) =
        (h.tseq u0).vals.flatMap (generation h i) := by
      intro i hi
      rw [← j.length] at hi
      rw [List.getElem?_eq_getElem hi]
      exact (j.right.generations rfl i _ (List.getElem?_eq_getElem hi)).symm
    refine ⟨?_, jn.tiers, ?_, ?_, jn.subs, jn.sup, ?_, ?_, ?_, jn.rest⟩
    · intro i t hi
      rw [hE i (List.getElem?_eq_some_iff.mp hi).1]
      exact jn.lists i t hi
    · intro i hi y hy
      rw [hE i hi] at hy
      exact jn.moved i hi y hy
    · intro y hy
      refine jn.kept y fun i hi q => hy i hi ?_
      rw [hE i hi]
      exact q
    · intro q
      rw [hE 0 (by simp)] at q
      exact jn.intier q
    · intro q
      rw [hE 0 (by simp)] at q
      exact jn.linked q
    · intro y h1 hy
      refine jn.other y h1 fun i hi q => hy i hi ?_
      rw [hE i hi]
      exact q

end ATG
