import Verif.Spec.Nest
import Verif.Lemmas.Extent
import Verif.Props.TgCleanup
/-!
# C68: flat lists of classes of several hierarchies
-/
namespace ATG

theorem findIdx?_of_nodup {l : List CRef} (hnd : l.Nodup) {x : CRef} (hx : x ∈ l) :
    l.findIdx? (· == x) = some (l.idxOf x) := by
  have hlt : l.idxOf x < l.length := List.idxOf_lt_length_iff.mpr hx
  rw [List.findIdx?_eq_some_iff_getElem]
  refine ⟨hlt, by simp, ?_⟩
  intro j hj e
  have e' : l[j]'(by omega) = l[l.idxOf x] := by simpa using e
  have := (List.getElem_inj hnd).mp e'
  omega

/-- following one hierarchy down gives the places of its other classes -/
theorem followDown_ok {ct : ClassTab} {l : List CRef} (hnd : l.Nodup) :
    ∀ (n : Nat) (c : CRef) (rest : List CRef), rest.length < n → (∀ d ∈ rest, d ∈ l) →
      (∀ (i : Nat) a b, (c :: rest)[i]? = some a → (c :: rest)[i + 1]? = some b →
        ct.sub a = some b ∧ ct.isSub b cBottom = false) →
      (∀ a, (c :: rest).getLast? = some a → ∃ d, ct.sub a = some d ∧ (ct.isSub d cBottom = true ∨ d ∉ l)) →
      followDown ct l n c = .ok (rest.map (l.idxOf ·))
  | 0, _, _, hn, _, _, _ => absurd hn (Nat.not_lt_zero _)
  | n + 1, c, [], _, _, _, hb => by
    obtain ⟨d, e, hd⟩ := hb c rfl
    unfold followDown
    rw [e]
    dsimp only
    rcases hd with hd | hd
    · rw [if_pos hd]; rfl
    · by_cases hs : ct.isSub d cBottom = true
      · rw [if_pos hs]; rfl
      · rw [if_neg hs]
        have : l.findIdx? (· == d) = none := by
          rw [List.findIdx?_eq_none_iff]
          intro x hx
          simp only [beq_eq_false_iff_ne, ne_eq]
          rintro rfl; exact hd hx
        rw [this]; rfl
  | n + 1, c, d :: rest, hn, hm, hc, hb => by
    obtain ⟨e, hs⟩ := hc 0 c d rfl rfl
    have ih := followDown_ok hnd n d rest (by simp only [List.length_cons] at hn; omega)
      (fun x hx => hm x (by simp [hx])) (fun i a b h1 h2 => hc (i + 1) a b h1 h2)
      (fun a ha => hb a (by rw [List.getLast?_cons_cons]; exact ha))
    unfold followDown
    rw [e]
    dsimp only
    rw [if_neg (by simp [hs]), findIdx?_of_nodup hnd (hm d (by simp))]
    dsimp only
    rw [ih]
    rfl

/-- is the class at the top of its hierarchy? -/
def isTopClass (ct : ClassTab) (c : CRef) : Bool :=
  match ct.sup c with
  | some s => ct.isSub s cTop
  | none => false

theorem Hierarchies.sup {ct : ClassTab} {l : List CRef} {hs : List (List CRef)} (o : Hierarchies ct l hs) :
    ∀ c ∈ l, ∃ s, ct.sup c = some s := by
  intro c hc
  obtain ⟨hh, h1, h2⟩ := List.mem_flatten.mp (o.all.mem_iff.mp hc)
  obtain ⟨i, hi⟩ := List.mem_iff_getElem?.mp h2
  cases i with
  | zero =>
    obtain ⟨c', s, h3, h4, -⟩ := o.top hh h1
    rw [hi] at h3
    exact ⟨s, by rw [Option.some.inj h3]; exact h4⟩
  | succ i =>
    obtain ⟨-, -, s, h3, -⟩ := o.below hh h1 i _ c
      (List.getElem?_eq_getElem (by have := getElem?_lt hi; omega)) hi
    exact ⟨s, h3⟩

theorem Hierarchies.filter_top {ct : ClassTab} {l : List CRef} {hs : List (List CRef)} (o : Hierarchies ct l hs) :
    ∀ hh ∈ hs, hh.filter (isTopClass ct) = hh.take 1 := by
  intro hh h1
  obtain ⟨c, s, h2, h3, h4⟩ := o.top hh h1
  have hb := o.below hh h1
  cases hh with
  | nil => simp at h2
  | cons c' rest =>
    simp only [List.getElem?_cons_zero, Option.some.injEq] at h2
    subst h2
    have hc : isTopClass ct c' = true := by unfold isTopClass; rw [h3]; exact h4
    rw [List.filter_cons_of_pos hc, List.take_succ_cons, List.take_zero]
    congr 1
    rw [List.filter_eq_nil_iff]
    intro d hd
    obtain ⟨i, hi⟩ := List.mem_iff_getElem?.mp hd
    have hlt := getElem?_lt hi
    obtain ⟨-, -, s', h5, h6⟩ := hb i _ d
      (List.getElem?_eq_getElem (by simp only [List.length_cons]; omega)) hi
    unfold isTopClass
    rw [h5]; simp [h6]

/-- the hierarchy with the given top class -/
def hierAt (hs : List (List CRef)) (c : CRef) : List CRef :=
  (hs.find? (fun hh => hh.head? == some c)).getD []

theorem Hierarchies.hierAt {ct : ClassTab} {l : List CRef} {hs : List (List CRef)} (o : Hierarchies ct l hs)
    {hh : List CRef} (h1 : hh ∈ hs) {c : CRef} (hc : hh[0]? = some c) : hierAt hs c = hh := by
  have hnd : hs.flatten.Nodup := o.all.nodup_iff.mp o.nodup
  unfold ATG.hierAt
  cases e : hs.find? (fun hh => hh.head? == some c) with
  | none =>
    rw [List.find?_eq_none] at e
    exact absurd (by rw [List.head?_eq_getElem?, hc]; simp) (e hh h1)
  | some h2 =>
    have m2 := List.mem_of_find?_eq_some e
    have e2 := List.find?_some e
    simp only [beq_iff_eq] at e2
    simp only [Option.getD_some]
    obtain ⟨i, hi, rfl⟩ := List.mem_iff_getElem.mp h1
    obtain ⟨j, hj, rfl⟩ := List.mem_iff_getElem.mp m2
    have p := List.pairwise_iff_getElem.mp (List.pairwise_flatten.mp hnd).2
    have c1 : c ∈ hs[i] := List.mem_of_getElem? hc
    have c2 : c ∈ hs[j] := List.mem_of_head? e2
    rcases Nat.lt_trichotomy i j with hij | hij | hij
    · exact absurd rfl (p i j hi hj hij c c1 c c2)
    · subst hij; rfl
    · exact absurd rfl (p j i hj hi hij c c2 c c1)

theorem filterMap_congr_mem {α β} {f k : α → Option β} {l : List α} (hh : ∀ x ∈ l, f x = k x) :
    l.filterMap f = l.filterMap k := by
  induction l with
  | nil => rfl
  | cons x xs ih =>
    rw [List.filterMap_cons, List.filterMap_cons, hh x (by simp), ih (fun y hy => hh y (by simp [hy]))]

/-- the tops, with their places -/
theorem topIdxes_eq {ct : ClassTab} {l : List CRef} {hs : List (List CRef)} (o : Hierarchies ct l hs) :
    topIdxes ct l = .ok ((l.filter (isTopClass ct)).map (l.idxOf ·)) := by
  unfold topIdxes
  rw [if_neg (by
    rw [Bool.not_eq_true, List.any_eq_false]
    intro c hc; rw [o.interval c hc]; simp), if_neg (by
    rw [Bool.not_eq_true, List.any_eq_false]
    intro c hc; obtain ⟨s, e⟩ := o.sup c hc; rw [e]; simp)]
  congr 1
  have hz : ∀ p ∈ (List.range l.length).zip l, l.idxOf p.2 = p.1 ∧ p.2 ∈ l := by
    intro p hp
    obtain ⟨n, hn⟩ := List.mem_iff_getElem?.mp hp
    rw [List.getElem?_zip_eq_some] at hn
    obtain ⟨h1, h2⟩ := hn
    have hlt : n < l.length := getElem?_lt h2
    rw [List.getElem?_range hlt] at h1
    have : p.1 = n := (Option.some.inj h1).symm
    have e2 := (List.getElem?_eq_some_iff.mp h2).2
    refine ⟨?_, List.mem_of_getElem? h2⟩
    have hm : p.2 ∈ l := List.mem_of_getElem? h2
    have hi : l.idxOf p.2 < l.length := List.idxOf_lt_length_iff.mpr hm
    rw [this]
    exact (List.getElem_inj o.nodup).mp (by rw [e2]; simp : l[l.idxOf p.2]'hi = l[n]'hlt)
  have e1 : l = ((List.range l.length).zip l).map (·.2) := by
    rw [List.map_snd_zip]; simp
  conv => rhs; arg 2; rw [e1]
  rw [List.filter_map, List.map_map]
  rw [← List.filterMap_eq_filter, List.map_filterMap]
  apply filterMap_congr_mem
  intro p hp
  obtain ⟨h1, h2⟩ := hz p hp
  obtain ⟨s, e⟩ := o.sup p.2 h2
  simp only [Function.comp, Option.guard, isTopClass, e]
  split
  · simp [h1]
  · simp

theorem pick_ok {α} {l : List α} {is : List Nat} (hh : ∀ i ∈ is, i < l.length) :
    ∃ r, pick l is = .ok r ∧ r.length = is.length ∧ ∀ (j i : Nat), is[j]? = some i → r[j]? = l[i]? := by
  unfold pick
  obtain ⟨r, e⟩ := mapM_exists_ok (fun i => match l[i]? with | some a => .ok a | none => .error .indexError) is
    (fun i hi => ⟨l[i]'(hh i hi), by rw [List.getElem?_eq_getElem (hh i hi)]⟩)
  refine ⟨r, e, ?_, ?_⟩
  · have := congrArg List.length ((mapM_ok_iff _ _ _).mp e)
    simpa using this.symm
  · intro j i hj
    have := congrArg (·[j]?) ((mapM_ok_iff _ _ _).mp e)
    simp only [List.getElem?_map, hj, Option.map_some] at this
    have hlt := hh i (List.mem_of_getElem? hj)
    rw [List.getElem?_eq_getElem hlt] at this ⊢
    cases hr : r[j]? with
    | none => rw [hr] at this; simp at this
    | some a =>
      rw [hr] at this
      simp only [Option.map_some, Option.some.injEq, Except.ok.injEq] at this
      rw [this]

/-- C68 for classes of several hierarchies, listed once each in any order: the tiers are split into one group
    per hierarchy, in the order of the top classes; each group has the classes of its hierarchy from top to
    bottom, and each tier keeps the class that is listed at its place. `_partial`: it fails when a hierarchy is
    listed again (`C68_repeated_violated`). Missing: lists with a class whose superset class is missing. -/
theorem C68_hierarchies_partial {α} (ct : ClassTab) (tiers : List α) (l : List CRef) (hs : List (List CRef))
    (o : Hierarchies ct l hs) (h2 : 2 ≤ hs.length) (hn : l.length ≤ tiers.length) :
    ∃ gs cs, nestify ct tiers (.flat l) = .ok (gs, cs) ∧ cs.Perm hs ∧
      cs.map (·.head?) = (l.filter fun c => hs.any (·.head? == some c)).map some ∧
      gs.length = cs.length ∧
      ∀ (i : Nat) g hh, gs[i]? = some g → cs[i]? = some hh → g.length = hh.length ∧
        ∀ (j k : Nat) c, hh[j]? = some c → l[k]? = some c → g[j]? = tiers[k]? := by
  -- the classes at the top
  have htops : (l.filter (isTopClass ct)).Perm (hs.map fun hh => hh.headD 0) := by
    refine (o.all.filter _).trans ?_
    rw [List.filter_flatten]
    have : hs.map (List.filter (isTopClass ct)) = hs.map fun hh => [hh.headD 0] := by
      apply List.map_congr_left
      intro hh hm
      rw [o.filter_top hh hm]
      obtain ⟨c, s, h3, -⟩ := o.top hh hm
      cases hh with
      | nil => simp at h3
      | cons a r => simp
    rw [this]
    have single : ∀ r : List (List CRef), (r.map fun hh => [hh.headD 0]).flatten = r.map fun hh => hh.headD 0 := by
      intro r
      induction r with
      | nil => rfl
      | cons a r ih => rw [List.map_cons, List.map_cons, List.flatten_cons, ih]; rfl
    rw [single]
  have head0 : ∀ hh ∈ hs, hh[0]? = some (hh.headD 0) ∧ hh.head? = some (hh.headD 0) := by
    intro hh hm
    obtain ⟨c, s, h3, -⟩ := o.top hh hm
    cases hh with
    | nil => simp at h3
    | cons a r => exact ⟨rfl, rfl⟩
  have ofTop : ∀ c ∈ l.filter (isTopClass ct), ATG.hierAt hs c ∈ hs ∧ (ATG.hierAt hs c)[0]? = some c := by
    intro c hc
    obtain ⟨hh, hm, rfl⟩ := List.mem_map.mp (htops.mem_iff.mp hc)
    have e := o.hierAt hm (head0 hh hm).1
    rw [e]; exact ⟨hm, (head0 hh hm).1⟩
  have inl : ∀ hh ∈ hs, ∀ d ∈ hh, d ∈ l := fun hh hm d hd =>
    o.all.mem_iff.mpr (List.mem_flatten.mpr ⟨hh, hm, hd⟩)
  have topFilter : l.filter (isTopClass ct) = l.filter fun c => hs.any (·.head? == some c) := by
    apply List.filter_congr
    intro c hc
    rw [Bool.eq_iff_iff, List.any_eq_true]
    constructor
    · intro ht
      have := ofTop c (List.mem_filter.mpr ⟨hc, ht⟩)
      exact ⟨_, this.1, by rw [List.head?_eq_getElem?, this.2]; simp⟩
    · rintro ⟨hh, hm, e⟩
      have e' : hh.head? = some c := by simpa using e
      rw [(head0 hh hm).2] at e'
      have : c ∈ l.filter (isTopClass ct) := htops.mem_iff.mpr (List.mem_map.mpr ⟨hh, hm, Option.some.inj e'⟩)
      exact (List.mem_filter.mp this).2
  have len : (l.filter (isTopClass ct)).length = hs.length := by rw [htops.length_eq]; simp
  -- what `nestify` computes
  have hl2 : 2 ≤ l.length := Nat.le_trans (by omega) (List.length_filter_le (isTopClass ct) l)
  have ex : extendClasses ct tiers.length (.flat l) = .ok (.flat l) := by
    cases l with
    | nil => simp at hl2
    | cons c0 l0 =>
      unfold extendClasses
      dsimp only
      rw [topIdxes_eq o]
      dsimp only
      rw [if_neg (by simp only [List.length_cons] at hl2 ⊢; omega), if_neg (by rw [List.length_map, len]; omega)]
  have hfit : ∀ hh ∈ hs, ∀ i ∈ hh.map (l.idxOf ·), i < l.length := by
    intro hh hm i hi
    obtain ⟨d, hd, rfl⟩ := List.mem_map.mp hi
    exact List.idxOf_lt_length_iff.mpr (inl hh hm d hd)
  have hlen : ∀ hh ∈ hs, hh.length ≤ l.length := by
    intro hh hm
    rw [o.all.length_eq]
    exact (List.sublist_flatten_of_mem hm).length_le
  have m1 : ((l.filter (isTopClass ct)).map (l.idxOf ·)).mapM (fun i => match l[i]? with
      | none => .error .indexError
      | some c => match followDown ct l (l.length + 1) c with
        | .error e => .error e
        | .ok r => .ok (i :: r)) =
      (.ok ((l.filter (isTopClass ct)).map fun c => (ATG.hierAt hs c).map (l.idxOf ·)) : Except Err _) := by
    rw [mapM_ok_iff, List.map_map, List.map_map]
    apply List.map_congr_left
    intro c hc
    obtain ⟨k1, k2⟩ := ofTop c hc
    have hcl := (List.mem_filter.mp hc).1
    simp only [Function.comp]
    have : l[l.idxOf c]? = some c := by
      rw [List.getElem?_eq_getElem (List.idxOf_lt_length_iff.mpr hcl)]; simp
    rw [this]
    dsimp only
    cases hh : ATG.hierAt hs c with
    | nil => rw [hh] at k2; simp at k2
    | cons a r =>
      rw [hh] at k1 k2
      simp only [List.getElem?_cons_zero, Option.some.injEq] at k2
      subst k2
      rw [followDown_ok o.nodup (l.length + 1) a r
        (by have := hlen _ k1; simp only [List.length_cons] at this; omega)
        (fun d hd => inl _ k1 d (by simp [hd]))
        (fun i x y h3 h4 => ⟨(o.below _ k1 i x y h3 h4).1, (o.below _ k1 i x y h3 h4).2.1⟩)
        (o.bottom _ k1)]
      rfl
  have m3 : ((l.filter (isTopClass ct)).map fun c => (ATG.hierAt hs c).map (l.idxOf ·)).mapM (pick l) =
      .ok ((l.filter (isTopClass ct)).map (ATG.hierAt hs)) := by
    rw [mapM_ok_iff, List.map_map, List.map_map]
    apply List.map_congr_left
    intro c hc
    simp only [Function.comp]
    unfold pick
    rw [mapM_ok_iff, List.map_map]
    apply List.map_congr_left
    intro d hd
    have hdl := inl _ (ofTop c hc).1 d hd
    simp only [Function.comp]
    rw [List.getElem?_eq_getElem (List.idxOf_lt_length_iff.mpr hdl)]; simp
  obtain ⟨gs, m2⟩ := mapM_exists_ok (pick tiers)
    ((l.filter (isTopClass ct)).map fun c => (ATG.hierAt hs c).map (l.idxOf ·)) (fun is his => by
      obtain ⟨c, hc, rfl⟩ := List.mem_map.mp his
      obtain ⟨r, e, -⟩ := pick_ok (l := tiers) (is := (ATG.hierAt hs c).map (l.idxOf ·))
        (fun i hi => Nat.lt_of_lt_of_le (hfit _ (ofTop c hc).1 i hi) hn)
      exact ⟨r, e⟩)
  have m2' := (mapM_ok_iff _ _ _).mp m2
  refine ⟨gs, (l.filter (isTopClass ct)).map (ATG.hierAt hs), ?_, ?_, ?_, ?_, ?_⟩
  · unfold nestify
    rw [ex]
    dsimp only
    rw [topIdxes_eq o]
    dsimp only
    rw [if_neg (by rw [List.length_map, len]; omega)]
    refine (congrArg (fun z => Except.bind z _) m1).trans ?_
    simp only [bind, Except.bind, m2, m3, pure, Except.pure]
  · refine (htops.map _).trans ?_
    rw [List.map_map]
    have : hs.map (ATG.hierAt hs ∘ fun hh => hh.headD 0) = hs.map id := by
      apply List.map_congr_left
      intro hh hm
      exact o.hierAt hm (head0 hh hm).1
    rw [this, List.map_id]
  · rw [← topFilter, List.map_map]
    apply List.map_congr_left
    intro c hc
    simp only [Function.comp]
    rw [List.head?_eq_getElem?]; exact (ofTop c hc).2
  · have := congrArg List.length m2'
    simpa using this.symm
  · intro i g hh hg hc
    rw [List.getElem?_map] at hc
    cases hti : (l.filter (isTopClass ct))[i]? with
    | none => rw [hti] at hc; cases hc
    | some c =>
      rw [hti] at hc
      simp only [Option.map_some, Option.some.injEq] at hc
      have hct := ofTop c (List.mem_of_getElem? hti)
      have e := congrArg (·[i]?) m2'
      simp only [List.getElem?_map, hti, hg, Option.map_some, Option.some.injEq] at e
      obtain ⟨r, e2, e3, e4⟩ := pick_ok (l := tiers) (is := (ATG.hierAt hs c).map (l.idxOf ·))
        (fun i hi => Nat.lt_of_lt_of_le (hfit _ hct.1 i hi) hn)
      rw [e2] at e
      have erg : r = g := by injection e
      subst erg
      subst hc
      refine ⟨by rw [e3, List.length_map], ?_⟩
      intro j k d hj hk
      rw [e4 j (l.idxOf d) (by rw [List.getElem?_map, hj]; rfl)]
      have hdl : d ∈ l := List.mem_of_getElem? hk
      congr 1
      exact (List.getElem_inj o.nodup).mp (by
        rw [(List.getElem?_eq_some_iff.mp hk).2]; simp :
          l[l.idxOf d]'(List.idxOf_lt_length_iff.mpr hdl) = l[k]'(getElem?_lt hk))

/-- C68 fails when a hierarchy is listed again in a flat list: for words and phones of two speakers, the
    second group gets the phones of the first, and the last tier is in no group. -/
theorem C68_repeated_violated :
    nestify baseClasses ["w1", "p1", "w2", "p2"] (.flat [cWord, cPhone, cWord, cPhone]) =
      .ok ([["w1", "p1"], ["w2", "p1"]], [[cWord, cPhone], [cWord, cPhone]]) := by decide +kernel

/-- the base classes and two more, `A` (11) above `B` (12) -/
def exTwoHier : ClassTab := (customClasses baseClasses ["A", "B"] []).1

-- the hypotheses of C68_hierarchies_partial
theorem exTwoHier_ok : Hierarchies exTwoHier [12, cPhone, 11, cWord] [[cWord, cPhone], [11, 12]] where
  nodup := by decide
  all := by decide
  interval := by decide +kernel
  top := by
    intro hh hm
    rcases (by simpa using hm : hh = [cWord, cPhone] ∨ hh = [11, 12]) with rfl | rfl
    · exact ⟨cWord, 7, rfl, by decide +kernel, by decide +kernel⟩
    · exact ⟨11, 9, rfl, by decide +kernel, by decide +kernel⟩
  below := by
    intro hh hm i c d h1 h2
    rcases (by simpa using hm : hh = [cWord, cPhone] ∨ hh = [11, 12]) with rfl | rfl
    · match i with
      | 0 => cases h1; cases h2; exact ⟨by decide +kernel, by decide +kernel, cWord, by decide +kernel, by decide +kernel⟩
      | i + 1 => simp at h2
    · match i with
      | 0 => cases h1; cases h2; exact ⟨by decide +kernel, by decide +kernel, 11, by decide +kernel, by decide +kernel⟩
      | i + 1 => simp at h2
  bottom := by
    intro hh hm c h1
    rcases (by simpa using hm : hh = [cWord, cPhone] ∨ hh = [11, 12]) with rfl | rfl
    · cases h1; exact ⟨8, by decide +kernel, Or.inl (by decide +kernel)⟩
    · cases h1; exact ⟨10, by decide +kernel, Or.inl (by decide +kernel)⟩

example : nestify exTwoHier ["b", "p", "a", "w", "x"] (.flat [12, cPhone, 11, cWord]) =
    .ok ([["a", "b"], ["w", "p"]], [[11, 12], [cWord, cPhone]]) := by decide +kernel

end ATG
