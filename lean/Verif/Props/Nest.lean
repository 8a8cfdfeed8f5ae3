import Verif.Model.Textgrid
/-!
# C35: how a flat list of entry classes is spread over the tiers
-/
namespace ATG

/-- Interval classes linked to supersets, at most one of them at the top of a hierarchy. -/
structure OneHierarchy (ct : ClassTab) (l : List CRef) : Prop where
  ne : l ≠ []
  interval : ∀ c ∈ l, ct.isSub c cPoint = false
  linked : ∀ c ∈ l, ∃ s, ct.sup c = some s
  top : ∀ (i j : Nat) (c d s t : CRef), l[i]? = some c → l[j]? = some d → ct.sup c = some s → ct.sup d = some t →
    ct.isSub s cTop = true → ct.isSub t cTop = true → i = j

theorem any_false {α} {l : List α} {p : α → Bool} (h : ∀ x ∈ l, p x = false) : l.any p = false := by
  rw [List.any_eq_false]; intro x hx; rw [h x hx]; simp

theorem length_le_one_of {l : List Nat} (hn : l.Nodup) (h : ∀ a ∈ l, ∀ b ∈ l, a = b) : l.length ≤ 1 := by
  match l with
  | [] => simp
  | [_] => simp
  | a :: b :: l =>
    rw [List.nodup_cons] at hn
    exact absurd (h a (by simp) b (by simp)) (fun e => hn.1 (by rw [e]; simp))

theorem tops_mem {ct : ClassTab} {l : List CRef} {i : Nat}
    (h : i ∈ ((List.range l.length).zip l).filterMap fun p => match ct.sup p.2 with
      | some s => if ct.isSub s cTop then some p.1 else none
      | none => none) :
    ∃ c s, l[i]? = some c ∧ ct.sup c = some s ∧ ct.isSub s cTop = true := by
  rw [List.mem_filterMap] at h
  obtain ⟨⟨k, c⟩, hm, he⟩ := h
  have hk : l[k]? = some c := by
    obtain ⟨n, hn, e⟩ := List.mem_iff_getElem.mp hm
    rw [List.getElem_zip] at e
    simp only [List.getElem_range, Prod.mk.injEq] at e
    rw [List.length_zip, List.length_range] at hn
    rw [← e.1, ← e.2]
    exact List.getElem?_eq_getElem (by omega)
  dsimp only at he
  split at he
  · rename_i s hs
    by_cases ht : ct.isSub s cTop = true
    · rw [if_pos ht] at he
      injection he with he
      exact ⟨c, s, by rw [← he]; exact hk, hs, ht⟩
    · rw [if_neg ht] at he; cases he
  · cases he

theorem tops_nodup (a : Nat) (l : List CRef) (ct : ClassTab) :
    (((List.range' a l.length).zip l).filterMap fun p => match ct.sup p.2 with
      | some s => if ct.isSub s cTop then some p.1 else none
      | none => none).Nodup ∧
    ∀ i ∈ ((List.range' a l.length).zip l).filterMap (fun p => match ct.sup p.2 with
      | some s => if ct.isSub s cTop then some p.1 else none
      | none => none), a ≤ i := by
  induction l generalizing a with
  | nil => simp
  | cons c l ih =>
    have q := ih (a + 1)
    rw [List.length_cons, List.range'_succ, List.zip_cons_cons]
    refine ⟨?_, ?_⟩
    · rw [List.filterMap_cons]
      split
      · exact q.1
      · rename_i b hb
        rw [List.nodup_cons]
        refine ⟨?_, q.1⟩
        intro hm
        have := q.2 _ hm
        have hb' : b = a := by
          dsimp only at hb
          split at hb
          · split at hb
            · injection hb with hb; exact hb.symm
            · cases hb
          · cases hb
        omega
    · intro i hi
      rw [List.filterMap_cons] at hi
      split at hi
      · have := q.2 _ hi; omega
      · rename_i b hb
        rcases List.mem_cons.mp hi with r | r
        · dsimp only at hb
          split at hb
          · split at hb
            · injection hb with hb; omega
            · cases hb
          · cases hb
        · have := q.2 _ r; omega

theorem OneHierarchy.tops {ct : ClassTab} {l : List CRef} (o : OneHierarchy ct l) :
    ∃ ts, topIdxes ct l = .ok ts ∧ ts.length ≤ 1 := by
  unfold topIdxes
  rw [if_neg (by rw [any_false o.interval]; simp), if_neg (by
    rw [any_false (fun c hc => by obtain ⟨s, e⟩ := o.linked c hc; rw [e]; rfl)]; simp)]
  refine ⟨_, rfl, length_le_one_of ?_ ?_⟩
  · rw [List.range_eq_range']
    exact (tops_nodup 0 l ct).1
  · intro a ha b hb
    obtain ⟨c, s, h1, h2, h3⟩ := tops_mem ha
    obtain ⟨d, t, k1, k2, k3⟩ := tops_mem hb
    exact o.top a b c d s t h1 k1 h2 k2 h3 k3

theorem takeTiers_ok {α} (tiers : List α) (cs : List CRef) (i : Nat) (h : i + cs.length ≤ tiers.length) :
    takeTiers tiers i cs = .ok ((tiers.drop i).take cs.length) := by
  induction cs generalizing i with
  | nil => simp [takeTiers]
  | cons c cs ih =>
    rw [List.length_cons] at h
    unfold takeTiers
    rw [List.getElem?_eq_getElem (by omega), ih (i + 1) (by omega)]
    simp only []
    rw [List.drop_eq_getElem_cons (i := i) (by omega), List.length_cons, List.take_succ_cons]

theorem nestTiers_replicate {α} (tiers : List α) (l : List CRef) (m i : Nat)
    (h : i + m * l.length ≤ tiers.length) :
    nestTiers tiers i (List.replicate m l) =
      .ok ((List.range m).map fun j => (tiers.drop (i + j * l.length)).take l.length) := by
  induction m generalizing i with
  | zero => simp [nestTiers]
  | succ m ih =>
    rw [Nat.succ_mul] at h
    rw [List.replicate_succ]
    unfold nestTiers
    rw [takeTiers_ok _ _ _ (by omega), ih (i + l.length) (by omega)]
    simp only []
    rw [List.range_succ_eq_map, List.map_cons, List.map_map]
    congr 2
    · simp
    · apply List.map_congr_left
      intro j _
      simp only [Function.comp]
      rw [Nat.succ_mul]
      congr 2
      omega

theorem chunks_flatten {α} (tiers : List α) (k m : Nat) :
    ((List.range m).map fun j => (tiers.drop (j * k)).take k).flatten = tiers.take (m * k) := by
  induction m with
  | zero => simp
  | succ m ih =>
    rw [List.range_succ, List.map_append, List.flatten_append, ih, Nat.succ_mul, List.take_add]
    simp

/-- C35: a flat list of `k` classes of one hierarchy splits `n ≥ k` tiers into `n / k` groups; the `j`-th
    tier of group `i` is tier `i * k + j` and gets class `j`; read one after the other the groups are the
    first `n / k * k` tiers. -/
theorem C35_split {α} (ct : ClassTab) (tiers : List α) (l : List CRef) (o : OneHierarchy ct l)
    (hn : l.length ≤ tiers.length) :
    ∃ gs, nestify ct tiers (.flat l) = .ok (gs, List.replicate (tiers.length / l.length) l) ∧
      gs.length = tiers.length / l.length ∧
      (∀ (i : Nat) (g : List α), gs[i]? = some g → g.length = l.length ∧
        ∀ j, j < l.length → g[j]? = tiers[i * l.length + j]?) ∧
      gs.flatten = tiers.take (tiers.length / l.length * l.length) := by
  obtain ⟨ts, e1, e2⟩ := o.tops
  have hk : 0 < l.length := List.length_pos_iff.mpr o.ne
  have hm : 0 < tiers.length / l.length := Nat.div_pos hn hk
  have hle : tiers.length / l.length * l.length ≤ tiers.length := Nat.div_mul_le_self _ _
  have ex : extendClasses ct tiers.length (.flat l) =
      .ok (.nested (List.replicate (tiers.length / l.length) l)) := by
    have : extendClasses ct tiers.length (.flat l) = (match topIdxes ct l with
      | .error e => .error e
      | .ok tops =>
        if l.length = 1 then .ok (.nested (List.replicate (tiers.length / l.length) l))
        else if tops.length ≤ 1 then .ok (.nested (List.replicate (tiers.length / l.length) l))
        else .ok (.flat l)) := by
      cases l with
      | nil => exact absurd rfl o.ne
      | cons c l => rfl
    rw [this, e1]
    dsimp only
    rw [if_pos e2]
    split <;> rfl
  refine ⟨(List.range (tiers.length / l.length)).map fun j => (tiers.drop (j * l.length)).take l.length,
    ?_, by simp, ?_, chunks_flatten _ _ _⟩
  · unfold nestify
    rw [ex]
    have hs : List.replicate (tiers.length / l.length) l =
        l :: List.replicate (tiers.length / l.length - 1) l := by
      rw [← List.replicate_succ]; congr 1; omega
    have hr := nestTiers_replicate tiers l (tiers.length / l.length) 0 (by omega)
    rw [hs] at hr ⊢
    simp only []
    rw [hr]
    simp
  · intro i g hg
    rw [List.getElem?_map] at hg
    cases hi : (List.range (tiers.length / l.length))[i]? with
    | none => rw [hi] at hg; cases hg
    | some i' =>
      rw [hi] at hg
      obtain ⟨hlt, hii⟩ := List.getElem?_eq_some_iff.mp hi
      rw [List.getElem_range] at hii
      rw [List.length_range] at hlt
      subst hii
      simp only [Option.map_some, Option.some.injEq] at hg
      have hb : i * l.length + l.length ≤ tiers.length := by
        rw [← Nat.succ_mul]
        exact Nat.le_trans (Nat.mul_le_mul_right _ hlt) hle
      subst hg
      refine ⟨by rw [List.length_take, List.length_drop]; omega, ?_⟩
      intro j hj
      rw [List.getElem?_take_of_lt hj, List.getElem?_drop]

/-- C35: when `k` divides `n`, each tier is in exactly one group. -/
theorem C35_exact {α} (ct : ClassTab) (tiers : List α) (l : List CRef) (o : OneHierarchy ct l)
    (hn : tiers ≠ []) (hd : tiers.length % l.length = 0) :
    ∃ gs cs, nestify ct tiers (.flat l) = .ok (gs, cs) ∧ gs.flatten = tiers := by
  have hle : l.length ≤ tiers.length := by
    rcases Nat.lt_or_ge tiers.length l.length with q | q
    · rw [Nat.mod_eq_of_lt q] at hd
      exact absurd (List.length_eq_zero_iff.mp hd) hn
    · exact q
  obtain ⟨gs, h1, _, _, h4⟩ := C35_split ct tiers l o hle
  refine ⟨gs, _, h1, ?_⟩
  rw [h4, Nat.div_mul_cancel (Nat.dvd_of_mod_eq_zero hd), List.take_length]

/-- C35: the tiers after the last full group are in no group. -/
theorem C35_leftover {α} (ct : ClassTab) (tiers : List α) (l : List CRef) (o : OneHierarchy ct l)
    (hn : l.length ≤ tiers.length) :
    ∃ gs cs, nestify ct tiers (.flat l) = .ok (gs, cs) ∧
      gs.flatten ++ tiers.drop (tiers.length - tiers.length % l.length) = tiers := by
  obtain ⟨gs, h1, _, _, h4⟩ := C35_split ct tiers l o hn
  refine ⟨gs, _, h1, ?_⟩
  have e : tiers.length / l.length * l.length = tiers.length - tiers.length % l.length := by
    have := Nat.div_add_mod' tiers.length l.length; omega
  rw [h4, e, List.take_append_drop]

/-- C35, the error branches: fewer tiers than classes, and a point class in the flat list. -/
theorem C35_too_few {α} (ct : ClassTab) (tiers : List α) (l : List CRef) (o : OneHierarchy ct l)
    (hn : tiers.length < l.length) : nestify ct tiers (.flat l) = .error .indexError := by
  obtain ⟨ts, e1, e2⟩ := o.tops
  unfold nestify
  have ex : extendClasses ct tiers.length (.flat l) = .ok (.nested []) := by
    cases l with
    | nil => exact absurd rfl o.ne
    | cons c l =>
      unfold extendClasses
      simp only [e1, Nat.div_eq_of_lt hn, List.replicate_zero]
      rw [if_pos e2]
      split <;> rfl
  rw [ex]

theorem C35_point_class {α} (ct : ClassTab) (tiers : List α) (l : List CRef) (c : CRef) (hc : c ∈ l)
    (hp : ct.isSub c cPoint = true) : nestify ct tiers (.flat l) = .error .attributeError := by
  have e : topIdxes ct l = .error .attributeError := by
    unfold topIdxes
    rw [if_pos (List.any_eq_true.mpr ⟨c, hc, hp⟩)]
  unfold nestify
  have ex : extendClasses ct tiers.length (.flat l) = .error .attributeError := by
    cases l with
    | nil => cases hc
    | cons d l => unfold extendClasses; simp only [e]
  rw [ex]

-- words and phones over five tiers
theorem exOneHierarchy : OneHierarchy baseClasses [cWord, cPhone] := by
  refine ⟨by simp, ?_, ?_, ?_⟩
  · decide +kernel
  · intro c hc
    rcases (by simpa using hc : c = cWord ∨ c = cPhone) with q | q <;> subst q
    · exact ⟨7, by decide +kernel⟩
    · exact ⟨cWord, by decide +kernel⟩
  · have key : ∀ (i : Nat) c s, [cWord, cPhone][i]? = some c → baseClasses.sup c = some s →
        baseClasses.isSub s cTop = true → i = 0 := by
      intro i c s h1 h2 h3
      match i, h1 with
      | 0, _ => rfl
      | 1, h1 =>
        injection h1 with h1
        subst h1
        rw [show baseClasses.sup cPhone = some cWord by decide +kernel] at h2
        injection h2 with h2
        subst h2
        rw [show baseClasses.isSub cWord cTop = false by decide +kernel] at h3
        cases h3
      | i + 2, h1 => simp at h1
    intro i j c d s t h1 h2 h3 h4 h5 h6
    rw [key i c s h1 h3 h5, key j d t h2 h4 h6]

example : nestify baseClasses ["w1", "p1", "w2", "p2", "x"] (.flat [cWord, cPhone]) =
    .ok ([["w1", "p1"], ["w2", "p2"]], [[cWord, cPhone], [cWord, cPhone]]) := by decide +kernel

end ATG
