import Verif.Lemmas.StemAppend
/-!
# Appending an interval with everything below it to a group
-/
namespace ATG

theorem RelatedGroup.row {h : Heap} {g : GRef} {ts : List TRef} (r : RelatedGroup h g ts) : TierRow h g ts := by
  refine ⟨r.gtiers, r.gcont, r.chain.distinct, r.interval, ?_, r.ecls, r.twithin⟩
  intro t ht
  obtain ⟨i, hi⟩ := List.mem_iff_getElem?.mp ht
  cases i with
  | zero =>
    obtain ⟨c, hc, -⟩ := r.chain.top t hi
    exact ⟨c, hc⟩
  | succ i =>
    have hlt : i + 1 < ts.length := (List.getElem?_eq_some_iff.mp hi).1
    exact ⟨_, (r.chain.down i ts[i] t (List.getElem?_eq_getElem _) hi).2⟩

theorem RelatedGroup.plain {h : Heap} {g : GRef} {ts : List TRef} (r : RelatedGroup h g ts) {t : TRef} (ht : t ∈ ts) {y : Ref}
    (hy : y ∈ (h.tseq t).vals) : Plain h (h.tcls t) y :=
  ⟨r.aligned.cls t ht y hy, r.aligned.label t ht y hy, (r.laid t ht).1 (h.span y) (List.mem_map_of_mem hy)⟩

theorem RelatedGroup.disjoint {h : Heap} {g : GRef} {ts : List TRef} (r : RelatedGroup h g ts) {t : TRef} (ht : t ∈ ts) :
    (h.tseq t).vals.Pairwise fun y z => h.stop y ≤ h.start z := List.pairwise_map.mp (r.laid t ht).2

theorem RelatedGroup.start {h : Heap} {g : GRef} {ts : List TRef} (r : RelatedGroup h g ts) : Growing h h ts fun _ => [] := by
  refine ⟨SeqFrame.refl h, fun t => by simp, ?_, ?_, (fun t _ q => absurd rfl q), fun _ _ => ⟨rfl, rfl, rfl, rfl⟩,
    fun t _ q => absurd rfl q⟩
  · intro t ht y hy
    exact r.plain ht (by simpa using hy)
  · intro t ht
    simpa using r.disjoint ht

/-- an entry of the lowest tier has no subset list -/
theorem bottom_out {h : Heap} {ts : List TRef} (al : AlignedTiers h ts) (r : RelatedByContainment h ts)
    (td : ∀ v x, x ∈ (h.subs v).vals → h.sup x = some v) {i : Nat} {t : TRef} (hi : ts[i]? = some t) (hlast : i + 1 = ts.length)
    {v : Ref} (hv : v ∈ (h.tseq t).vals) {y : Ref} (hy : y ∈ (h.subs v).vals) : ¬ OnTiers h ts y := by
  rintro ⟨t', ht', hy'⟩
  obtain ⟨j, hj⟩ := List.mem_iff_getElem?.mp ht'
  cases j with
  | zero =>
    have := r.top t' hj y hy'
    rw [td v y hy] at this
    cases this
  | succ j =>
    have hlt : j + 1 < ts.length := (List.getElem?_eq_some_iff.mp hj).1
    have hj' : ts[j]? = some ts[j] := List.getElem?_eq_getElem _
    obtain ⟨u, hu, hyu⟩ := r.covered j ts[j] t' hj' hj y hy'
    have e : v = u := by
      have h1 := td v y hy
      rw [td u y hyu] at h1
      injection h1 with h1
      exact h1.symm
    subst e
    have hne : j ≠ i := by omega
    have := al.once
    rw [List.nodup_iff_pairwise_ne, List.pairwise_flatten] at this
    have hp := this.2
    rw [List.pairwise_map, List.pairwise_iff_getElem] at hp
    have hil : i < ts.length := by omega
    have hti : ts[i] = t := (List.getElem?_eq_some_iff.mp hi).2
    exact hp j i (by omega) hil (by omega) v hu v (by rw [hti]; exact hv) rfl

theorem RelatedGroup.bottom {h : Heap} {g : GRef} {ts : List TRef} (r : RelatedGroup h g ts) (td : Tidy h) {i : Nat} {t : TRef}
    (hi : ts[i]? = some t) (hlast : i + 1 = ts.length) {v : Ref} (hv : v ∈ (h.tseq t).vals) : (h.subs v).vals = [] := by
  apply List.eq_nil_iff_forall_not_mem.mpr
  intro y hy
  have hs := (td.agree v y).mp hy
  exact bottom_out r.aligned r.related (fun v x hx => (td.agree v x).mp hx) hi hlast hv hy
    ((r.closed v y hs).mp ⟨t, List.mem_of_getElem? hi, hv⟩)

/-- an entry of a tier of a related group with everything below it -/
theorem RelatedGroup.tree {h : Heap} {g : GRef} {ts : List TRef} (r : RelatedGroup h g ts) (td : Tidy h) :
    ∀ (n i : Nat) (t : TRef), i + 1 + n = ts.length → ts[i]? = some t → ∀ v ∈ (h.tseq t).vals, Tree h ((ts.drop i).map h.tcls) v
  | 0, i, t, hl, hi, v, hv => by
    have hlt : i < ts.length := (List.getElem?_eq_some_iff.mp hi).1
    have e : ts.drop i = [t] := by
      rw [List.drop_eq_getElem_cons hlt, List.drop_of_length_le (by omega), (List.getElem?_eq_some_iff.mp hi).2]
    rw [e]
    exact ⟨r.plain (List.mem_of_getElem? hi) hv, r.bottom td hi (by omega) hv⟩
  | n + 1, i, t, hl, hi, v, hv => by
    have hlt : i < ts.length := (List.getElem?_eq_some_iff.mp hi).1
    have hlt' : i + 1 < ts.length := by omega
    have hi' : ts[i + 1]? = some ts[i + 1] := List.getElem?_eq_getElem _
    have ih := r.tree td n (i + 1) ts[i + 1] (by omega) hi'
    have e : ts.drop i = t :: ts[i + 1] :: ts.drop (i + 2) := by
      rw [List.drop_eq_getElem_cons hlt, List.drop_eq_getElem_cons hlt', (List.getElem?_eq_some_iff.mp hi).2]
    have e' : ts.drop (i + 1) = ts[i + 1] :: ts.drop (i + 2) := List.drop_eq_getElem_cons hlt'
    rw [e'] at ih
    rw [e]
    obtain ⟨h1, h2⟩ := r.related.subs i t _ hi hi' v hv
    refine ⟨r.plain (List.mem_of_getElem? hi) hv, ?_, ?_⟩
    · rw [h1]
      exact (r.aligned.aligned i t _ hi hi').tiled v hv
    · intro y hy
      rw [h1] at hy
      exact ih y (List.mem_filter.mp hy).1

/-- the part of a list of blocks that lies in one of the spans is that block -/
theorem filter_block {h : Heap} {f : Ref → List Ref} : ∀ {us : List Ref}, (us.Pairwise fun u v => h.stop u ≤ h.start v) →
    (∀ u ∈ us, ∀ y ∈ f u, h.start u ≤ h.start y ∧ h.start y < h.stop y ∧ h.stop y ≤ h.stop u) → ∀ u ∈ us,
    (us.flatMap f).filter (Inside h u ·) = f u
  | [], _, _, _, hu => by cases hu
  | a :: us, hp, hf, u, hu => by
    rw [List.pairwise_cons] at hp
    rw [List.flatMap_cons, List.filter_append]
    have out : ∀ v ∈ a :: us, ∀ w ∈ a :: us, (h.stop v ≤ h.start w ∨ h.stop w ≤ h.start v) → (f w).filter (Inside h v ·) = [] := by
      intro v _ w hw q
      apply List.filter_eq_nil_iff.mpr
      intro y hy
      have h2 := hf w hw y hy
      intro hd
      obtain ⟨h3, h4⟩ : Inside h v y := by simpa using hd
      rcases q with q | q <;> grind
    by_cases e : u = a
    · subst e
      rw [List.filter_eq_self.mpr]
      · have : (us.flatMap f).filter (Inside h u ·) = [] := by
          rw [List.filter_flatMap]
          apply List.flatMap_eq_nil_iff.mpr
          intro w hw
          exact out u hu w (by simp [hw]) (Or.inl (hp.1 w hw))
        rw [this, List.append_nil]
      · intro y hy
        have := hf u hu y hy
        simp only [decide_eq_true_eq]
        exact ⟨this.1, this.2.2⟩
    · have hu' : u ∈ us := by simpa [e] using hu
      rw [out u hu a (by simp) (Or.inr (hp.1 u hu')), filter_block hp.2 (fun v hv => hf v (by simp [hv])) u hu']
      rfl

theorem Tree.below_generation {h : Heap} : ∀ (j : Nat) {cs : List CRef} {x u : Ref}, Tree h cs x → u ∈ generation h j x →
    Tree h (cs.drop j) u
  | 0, cs, x, u, t, hu => by
    have : u = x := by simpa [generation] using hu
    subst this
    exact t
  | j + 1, [], _, _, t, _ => t.elim
  | j + 1, c :: cs, x, u, t, hu => by
    obtain ⟨z, hz, hu⟩ := List.mem_flatMap.mp hu
    exact (t.below hz).below_generation j hu

theorem Tree.filter_generation {h : Heap} {cs : List CRef} {x : Ref} (t : Tree h cs x) (j : Nat) {u : Ref} (hu : u ∈ generation h j x) :
    (generation h (j + 1) x).filter (Inside h u ·) = (h.subs u).vals := by
  rw [generation_succ]
  refine filter_block (t.generation_disjoint j) ?_ u hu
  intro v hv y hy
  exact (t.below_generation j hv).child hy

/-- Appending an entry with everything below it to a group whose entries all end before. -/
theorem RelatedGroup.append {h : Heap} {g : GRef} {ts : List TRef} (r : RelatedGroup h g ts) (td : Tidy h) {t : TRef}
    (ht : ts[0]? = some t) {x : Ref} (tr : Tree h (ts.map h.tcls) x) (hs : h.sup x = none)
    (hlast : ∀ t ∈ ts, ∀ y ∈ (h.tseq t).vals, h.stop y ≤ h.start x) (hlen : ts.length < appendFuel) :
    ∃ h', tierAppend t x h = .ok () h' ∧ RelatedGroup h' g ts ∧ Tidy h' ∧ StemAdded h h' ts x := by
  have row := r.row
  obtain ⟨rest, hts⟩ : ∃ rest, ts = t :: rest := by
    cases ts with
    | nil => cases ht
    | cons a l => exact ⟨l, by rw [show a = t by simpa using ht]⟩
  have htm : t ∈ ts := List.mem_of_getElem? ht
  obtain ⟨k, ek, gk⟩ := Growing.tree row (fun v x hx => (td.agree v x).mp hx) rest 0 t x h (fun _ => []) appendFuel
    (by rw [hts]; rfl) (by rw [hts] at hlen; simp only [List.length_cons] at hlen; omega) r.start
    (by rw [← hts]; exact tr) (by
      rw [← hts]
      intro t' ht' y hy
      exact hlast t' ht' y (by simpa using hy)) (Or.inl hs)
  rw [← hts] at gk
  have elist : ∀ (i : Nat) t', ts[i]? = some t' → (k.tseq t').vals = (h.tseq t').vals ++ generation h i x := by
    intro i t' hi
    rw [gk.seq]
    simp only [List.nil_append]
    rw [genAt_generation h x i row.nodup hi]
  have egen : ∀ (i : Nat) t', ts[i]? = some t' → ([] ++ genAt h ts x t') = generation h i x := by
    intro i t' hi
    rw [List.nil_append, genAt_generation h x i row.nodup hi]
  have est : k.start = h.start := by rw [gk.frame]
  have esp : k.stop = h.stop := by rw [gk.frame]
  have ecl : k.cls = h.cls := by rw [gk.frame]
  have elb : k.label = h.label := by rw [gk.frame]
  have etc : k.tcls = h.tcls := by rw [gk.frame]
  have ect : k.ct = h.ct := by rw [gk.frame]
  have esu : k.subs = h.subs := by rw [gk.frame]
  have esp' : k.sup = h.sup := by rw [gk.frame]
  have ets : k.tsup = h.tsup := by rw [gk.frame]
  have etb : k.tsub = h.tsub := by rw [gk.frame]
  have hgen : ∀ (i : Nat), ∀ y ∈ generation h i x, h.start x ≤ h.start y ∧ h.start y < h.stop y ∧ h.stop y ≤ h.stop x := by
    intro i y hy
    have := tr.desc (generation_desc i hy)
    exact ⟨this.1, this.2.1, this.2.2.1⟩
  have hbefore : ∀ t' ∈ ts, ∀ y ∈ (h.tseq t').vals, ∀ i, ∀ z ∈ generation h i x, h.stop y ≤ h.start z := by
    intro t' ht' y hy i z hz
    have h1 := hlast t' ht' y hy
    have h2 := hgen i z hz
    grind
  -- the tiers fit together
  have al : AlignedTiers k ts := by
    refine ⟨?_, ?_, ?_, ?_, ?_⟩
    · refine nodup_flatten_map _ _ row.nodup ?_ ?_
      · intro t' ht'
        rw [gk.seq]
        exact laid_nodup (gk.laid t' ht') fun y hy => (gk.plain t' ht' y hy).2.2
      · intro a ha b hb hne y hy hy'
        rw [gk.seq] at hy hy'
        exact hne (nodup_map_inj row.distinct ha hb ((gk.plain a ha y hy).1.symm.trans (gk.plain b hb y hy').1))
    · intro t' ht' y hy
      rw [gk.seq] at hy
      rw [ecl, etc]
      exact (gk.plain t' ht' y hy).1
    · intro t' ht' y hy
      rw [gk.seq] at hy
      rw [elb]
      exact (gk.plain t' ht' y hy).2.1
    · rw [ect, etc]
      exact r.aligned.chain
    · intro i a b ha hb
      rw [elist i a ha, elist (i + 1) b hb]
      have hblt : i + 1 < (ts.map h.tcls).length := by
        rw [List.length_map]
        exact (List.getElem?_eq_some_iff.mp hb).1
      have ham := List.mem_of_getElem? ha
      have hbm := List.mem_of_getElem? hb
      refine Aligned.congr ?_ est esp
      exact (r.aligned.aligned i a b ha hb).append (tr.aligned i hblt) (fun y hy => (r.plain hbm hy).2.2)
        (fun y hy => (hgen _ y hy).2.1) (fun u hu v hv => hbefore a ham u hu _ v hv) (fun u hu v hv => hbefore b hbm u hu _ v hv)
        (fun u hu v hv => hbefore a ham u hu _ v hv) (fun u hu v hv => hbefore b hbm u hu _ v hv)
  have hon : ∀ y, OnTiers k ts y ↔ OnTiers h ts y ∨ Desc h x y := by
    intro y
    constructor
    · rintro ⟨t', ht', hy⟩
      obtain ⟨i, hi⟩ := List.mem_iff_getElem?.mp ht'
      rw [elist i t' hi] at hy
      rcases List.mem_append.mp hy with hy | hy
      · exact Or.inl ⟨t', ht', hy⟩
      · exact Or.inr (generation_desc i hy)
    · rintro (⟨t', ht', hy⟩ | hd)
      · exact ⟨t', ht', by rw [gk.seq]; exact List.mem_append_left _ hy⟩
      · obtain ⟨j, hj, hy⟩ := tr.desc_generation hd
        rw [List.length_map] at hj
        exact ⟨ts[j], List.getElem_mem _, by rw [elist j _ (List.getElem?_eq_getElem hj)]; exact List.mem_append_right _ hy⟩
  have hdesc : ∀ v y, h.sup y = some v → (Desc h x v ↔ Desc h x y) := by
    intro v y hvy
    have hyv := (td.agree v y).mpr hvy
    constructor
    · intro hd
      exact hd.trans (.step _ y _ hyv (.refl y))
    · intro hd
      rcases hd.parent with rfl | ⟨z, hy, hz⟩
      · rw [hs] at hvy; cases hvy
      · have := (td.agree z y).mp hy
        rw [hvy] at this
        injection this with this
        rw [this]; exact hz
  have hcl : ∀ v y, h.sup y = some v → (OnTiers k ts v ↔ OnTiers k ts y) := by
    intro v y hvy
    rw [hon, hon, r.closed v y hvy, hdesc v y hvy]
  have chk : ClassChain k ts := r.chain.congr etc etb ets ect
  have tdk : Tidy k := td.congr esu esp' est esp ecl elb ect
  have hgt : k.gtiers g = ts := by rw [show k.gtiers = h.gtiers by rw [gk.frame]]; exact r.gtiers
  obtain ⟨h', e', rs, htd⟩ := reRelate_among g ts k hgt
    (by rw [show k.gpoint = h.gpoint by rw [gk.frame]]; exact r.gpoint) chk r.ne al (L := fun _ => True) (A := OnTiers k ts)
    (tdk.on _) (fun _ _ => trivial) (fun y hy => mem_entriesOf.mp hy) (by rw [esp']; exact hcl)
  have td' : Tidy h' := by
    refine (htd ?_).tidy fun _ => trivial
    intro i a b ha hb v hv y hy _
    rw [esu] at hy
    exact mem_entriesOf.mpr ((hcl v y ((td.agree v y).mp hy)).mp ⟨a, List.mem_of_getElem? ha, hv⟩)
  have sc := rs.same
  have kst : h'.start = h.start := sc.start.trans est
  have ksp : h'.stop = h.stop := sc.stop.trans esp
  have ksq : h'.tseq = k.tseq := sc.tseq
  -- the relations are the same
  have hins : ∀ u l, List.filter (Inside h' u ·) l = List.filter (Inside h u ·) l := by
    intro u l
    unfold Inside
    simp only [kst, ksp]
  have al' : AlignedTiers h' ts := al.congr sc.start sc.stop sc.tseq sc.cls sc.tcls sc.label sc.ct
  have hsubs : ∀ v, (h'.subs v).vals = (h.subs v).vals := by
    intro v
    by_cases hv : OnTiers k ts v
    · obtain ⟨a, ha, hva⟩ := hv
      obtain ⟨i, hi⟩ := List.mem_iff_getElem?.mp ha
      have hlt : i < ts.length := (List.getElem?_eq_some_iff.mp hi).1
      have hva' := hva
      rw [elist i a hi] at hva'
      by_cases hb : i + 1 < ts.length
      · have hbi : ts[i + 1]? = some ts[i + 1] := List.getElem?_eq_getElem _
        rw [(rs.related.subs i a _ hi hbi v (by rw [ksq]; exact hva)).1, ksq, elist (i + 1) _ hbi, hins, List.filter_append]
        rcases List.mem_append.mp hva' with q | q
        · rw [← (r.related.subs i a _ hi hbi v q).1]
          have : (generation h (i + 1) x).filter (Inside h v ·) = [] := by
            apply List.filter_eq_nil_iff.mpr
            intro y hy hd
            obtain ⟨h3, h4⟩ : Inside h v y := by simpa using hd
            have h1 := hbefore a ha v q (i + 1) y hy
            have h2 := hgen _ y hy
            grind
          rw [this, List.append_nil]
        · rw [tr.filter_generation i q]
          have : (h.tseq ts[i + 1]).vals.filter (Inside h v ·) = [] := by
            apply List.filter_eq_nil_iff.mpr
            intro y hy hd
            obtain ⟨h3, h4⟩ : Inside h v y := by simpa using hd
            have h1 := hbefore _ (List.getElem_mem _) y hy i v q
            have h2 := (r.plain (List.getElem_mem _) hy).2.2
            grind
          rw [this, List.nil_append]
      · have hlast' : i + 1 = ts.length := by omega
        have e1 : (h.subs v).vals = [] := by
          rcases List.mem_append.mp hva' with q | q
          · exact r.bottom td hi hlast' q
          · have h1 := tr.generation_nil (i + 1) (by rw [List.length_map]; omega)
            rw [generation_succ] at h1
            exact List.flatMap_eq_nil_iff.mp h1 v q
        rw [e1]
        apply List.eq_nil_iff_forall_not_mem.mpr
        intro y hy
        rcases rs.subs v y hy with ⟨q, -⟩ | ⟨-, q⟩
        · rw [esu, e1] at q; cases q
        · refine bottom_out al' rs.related (fun v x hx => (td'.agree v x).mp hx) hi hlast' (by rw [ksq]; exact hva) hy ?_
          obtain ⟨b, hb1, hb2⟩ := mem_entriesOf.mp q
          exact ⟨b, hb1, by rw [ksq]; exact hb2⟩
    · rw [rs.apart.subs v hv, esu]
  have hsup : h'.sup = h.sup := by
    funext y
    apply Option.ext
    intro v
    rw [← td'.agree, ← td.agree, hsubs]
  have hgc : h'.gcont = h.gcont := by
    funext q
    have e : k.gcont = h.gcont := by rw [gk.frame]
    rcases rs.gcont q with e1 | ⟨rfl, e1⟩
    · rw [e1, e]
    · rw [e1, r.gcont]
  have htw : h'.twithin = h.twithin := by
    funext q
    have e : k.twithin = h.twithin := by rw [gk.frame]
    rcases rs.twithin q with e1 | ⟨hq, e1⟩
    · rw [e1, e]
    · rw [e1, r.twithin q hq]
  have hrest : h' = { h with fol := h'.fol, prev := h'.prev, intier := h'.intier, within := h'.within, tcont := h'.tcont,
                              tseq := h'.tseq, subs := h'.subs, sup := h'.sup, cont := h'.cont } := by
    have f := rs.frame
    have f2 := gk.frame
    unfold SeqFrame at f2
    rw [hgc, htw] at f
    rw [f2] at f
    rw [f]
  have hon' : ∀ y, OnTiers h' ts y ↔ OnTiers k ts y := by
    intro y
    unfold OnTiers
    rw [ksq]
  refine ⟨h', ?_, ?_, td', ?_⟩
  · unfold tierAppend
    mstep M.get_apply h
    mstep (show tierAppendNR t x h = .ok () k from ek)
    rw [if_neg (by
      intro q
      have hx : x ∈ (h.tseq t).vals := by simpa using q
      have h1 := hlast t htm x hx
      have h2 := (r.plain htm hx).2.2
      grind)]
    mstep M.get_apply _
    have : withinTruthy k t = some g := by
      unfold withinTruthy
      rw [show k.twithin = h.twithin by rw [gk.frame], r.twithin t htm]
      dsimp only
      rw [if_pos (by rw [hgt, hts]; simp)]
    rw [this]
    exact e'
  · refine ⟨?_, ?_, ?_, r.ne, ?_, al', ?_, ?_, ?_, ?_, rs.related, ?_⟩
    · rw [hrest]; exact r.gtiers
    · rw [hgc]; exact r.gcont
    · rw [hrest]; exact r.gpoint
    · exact r.chain.congr (by rw [hrest]) (by rw [hrest]) (by rw [hrest]) (by rw [hrest])
    · rw [show h'.ct = h.ct by rw [hrest], show h'.tcls = h.tcls by rw [hrest]]; exact r.interval
    · rw [show h'.tcls = h.tcls by rw [hrest], ksq]
      intro t' ht'
      rw [gk.seq]
      exact r.ecls t' ht'
    · intro t' ht'
      rw [ksq, gk.seq]
      have e : h'.span = h.span := by
        funext y
        unfold Heap.span
        rw [kst, ksp]
      rw [e]
      refine ⟨?_, List.pairwise_map.mpr (gk.laid t' ht')⟩
      intro p hp
      obtain ⟨y, hy, rfl⟩ := List.mem_map.mp hp
      exact (gk.plain t' ht' y hy).2.2
    · rw [htw]; exact r.twithin
    · intro v y hvy
      rw [hsup] at hvy
      rw [hon', hon']
      exact hcl v y hvy
  · refine ⟨?_, ?_, hsubs, hsup, ?_, ?_, ?_, hrest⟩
    · intro i t' hi
      rw [ksq]
      exact elist i t' hi
    · intro t' ht'
      rw [ksq, gk.seq]
      simp [genAt_not_mem h x ht']
    · intro t' ht' y hy
      obtain ⟨i, hi⟩ := List.mem_iff_getElem?.mp ht'
      rw [show h'.intier = k.intier by rw [rs.frame]]
      refine gk.intier t' ht' ?_ y (by rw [ksq, gk.seq] at hy; exact hy)
      rw [egen i t' hi]
      exact tr.generation_ne i (by rw [List.length_map]; exact (List.getElem?_eq_some_iff.mp hi).1)
    · intro t0 h0
      have e0 : t0 = t := by rw [ht] at h0; injection h0 with h0; exact h0.symm
      subst e0
      have hl := gk.linked t0 ht (by rw [egen 0 t0 ht]; simp [generation])
      have : (h'.tseq t0).vals = (h.tseq t0).vals ++ ([] ++ genAt h ts x t0) := by rw [ksq, gk.seq]
      rw [this]
      have hk : ∀ y ∈ (h.tseq t0).vals ++ ([] ++ genAt h ts x t0), h'.fol y = k.fol y ∧ h'.prev y = k.prev y := by
        intro y hy
        refine rs.toplinks t0 ht y (by rw [gk.seq]; exact hy) ?_
        rw [esp']
        rcases List.mem_append.mp hy with hy | hy
        · exact r.related.top t0 ht y hy
        · rw [egen 0 t0 ht] at hy
          rw [show y = x by simpa [generation] using hy]
          exact hs
      refine ⟨?_, ?_, ?_⟩
      · intro i y z hy hz
        rw [(hk y (List.mem_of_getElem? hy)).1, (hk z (List.mem_of_getElem? hz)).2]
        exact hl.next i y z hy hz
      · intro y hy
        rw [(hk y (List.mem_of_mem_head? hy)).2]
        exact hl.first y hy
      · intro y hy
        rw [(hk y (List.mem_of_getLast? hy)).1]
        exact hl.last y hy
    · intro y h1 h2
      have hy : ¬ OnTiers k ts y := fun q => ((hon y).mp q).elim h1 h2
      have o := gk.other y (by
        intro t' ht' q
        exact hy ⟨t', ht', by rw [gk.seq]; exact q⟩)
      refine ⟨(rs.apart.fol y hy).trans o.1, (rs.apart.prev y hy).trans o.2.1, (rs.apart.within y hy).trans o.2.2.1,
        (rs.apart.cont y hy).trans ?_, ?_⟩
      · rw [show k.cont = h.cont by rw [gk.frame]]
      · rw [show h'.intier = k.intier by rw [rs.frame]]
        exact o.2.2.2

end ATG
