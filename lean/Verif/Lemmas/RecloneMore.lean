import Verif.Lemmas.Import
/-!
# Cloning classes for a textgrid that has classes already
-/
namespace ATG

theorem swapClasses_run {ct : ClassTab} {cs K new : List CRef} (hn : K.map ct.name = cs.map ct.name) (hin : ∀ y ∈ K, y ∈ new)
    (hu : ∀ y ∈ K, ∀ z ∈ new, ct.name z = ct.name y → z = y) : swapClasses ct cs new = .ok K := by
  unfold swapClasses
  rw [mapM_ok_iff]
  apply List.ext_getElem?
  intro j
  rw [List.getElem?_map, List.getElem?_map]
  have hj := congrArg (·[j]?) hn
  simp only [List.getElem?_map] at hj
  cases ho : cs[j]? with
  | none =>
    rw [ho] at hj
    cases hy : K[j]? with
    | none => rfl
    | some y => rw [hy] at hj; cases hj
  | some o =>
    rw [ho] at hj
    cases hy : K[j]? with
    | none => rw [hy] at hj; cases hj
    | some y =>
      rw [hy] at hj
      have hj : ct.name y = ct.name o := Option.some.inj hj
      have hyK := List.mem_of_getElem? hy
      have : new.find? (fun c => ct.name c == ct.name o) = some y :=
        find?_unique (hin y hyK) (by rw [hj]; simp) fun z hz hzn => hu y hyK z hz (by rw [hj]; simpa using hzn)
      simp only [Option.map_some, this]

theorem eraseDups_of_nodup : ∀ {l : List CRef}, l.Nodup → l.eraseDups = l
  | [], _ => rfl
  | a :: l, h => by
    rw [List.nodup_cons] at h
    rw [List.eraseDups_cons, List.filter_eq_self.mpr, eraseDups_of_nodup h.2]
    intro b hb
    have : b ≠ a := fun e => h.1 (e ▸ hb)
    simpa using this

/-- One more hierarchy: it is cloned if the textgrid has no classes of these names; otherwise those are used. -/
theorem reclone_more {ct : ClassTab} (w : WFC ct) {Ls : List (List CRef)} (gc : GoodClasses ct Ls) {cs : List CRef}
    (hier : IsHierarchy ct cs) (plain : ∀ c ∈ cs, PlainName (ct.name c)) (nm : (cs.map ct.name).Nodup)
    (compat : ∀ L ∈ Ls, ∀ c ∈ cs, ∀ d ∈ L, ct.name c = ct.name d → L.map ct.name = cs.map ct.name) :
    ∃ ct' K, reclone Ls.flatten ct cs = (ct', .ok K) ∧ WFC ct' ∧ Ext ct ct' ∧
      swapClasses ct' cs (Ls.flatten ++ K) = .ok K ∧ IsHierarchy ct' K ∧ K.map ct'.name = cs.map ct.name ∧
      (K ∈ Ls ∧ ct' = ct ∨ (∀ c ∈ K, ct.next ≤ c) ∧ ∀ c ∈ cs, ∀ d ∈ Ls.flatten, ct.name c ≠ ct.name d) ∧
      GoodClasses ct' (Ls ++ [K]) := by
  obtain ⟨c, rest, hcs⟩ : ∃ c rest, cs = c :: rest := by
    cases cs with
    | nil => exact absurd rfl hier.ne
    | cons c rest => exact ⟨c, rest, rfl⟩
  have hu : cs.eraseDups = cs := eraseDups_of_nodup hier.nodup
  have hpoints : cs.filter (fun c => ct.isSub c cPoint) = [] := by
    rw [List.filter_eq_nil_iff]
    intro d hd
    rw [hier.not_point w hd]; simp
  have hivs : cs.filter (fun c => ct.isSub c cInterval) = cs := by
    rw [List.filter_eq_self]
    intro d hd
    exact (hier.mem d hd).2.1
  have hany : cs.any (fun c => (ct.sup c).isNone) = false := by
    rw [List.any_eq_false]
    intro d hd
    obtain ⟨s, hs⟩ := hier.sup_some hd
    rw [hs]; simp
  let isTop : CRef → Bool := fun c => match ct.sup c with
      | some s => ct.isSub s cTop
      | none => false
  have hcase : ∀ c, isTop c = true ↔ ∃ s, ct.sup c = some s ∧ ct.isSub s cTop = true := by
    intro c
    show (match ct.sup c with | some s => ct.isSub s cTop | none => false) = true ↔ _
    cases ct.sup c with
    | none => simp
    | some s => simp
  have htops : cs.filter isTop = [c] := by
    have h1 : isTop c = true := (hcase c).mpr (hier.top c (by rw [hcs]; rfl))
    rw [hcs, List.filter_cons_of_pos h1, List.filter_eq_nil_iff.mpr]
    intro d hd ht
    obtain ⟨s, k1, k2⟩ := (hcase d).mp ht
    have := hier.head_of_top (by rw [hcs]; simp [hd]) k1 k2
    rw [hcs] at this
    have e : c = d := Option.some.inj this
    have hn := hier.nodup
    rw [hcs, List.nodup_cons] at hn
    exact hn.1 (e ▸ hd)
  have hrun : ∀ ct' d K, cloneOrReuse Ls.flatten (Ls.flatten.map ct.name) ct c = (ct', .ok d) → IsHierarchy ct' K →
      K.head? = some d → reclone Ls.flatten ct cs = (ct', .ok K) := by
    intro ct' d K e hK hd
    have e2 := hiersOf_run (ct := ct') (tops := [d]) (Ls := [K]) (by simp [hd]) (by simpa using hK)
    rw [show [K].flatten = K by simp] at e2
    unfold reclone
    simp only [hu, hpoints, hivs, hany]
    rw [if_neg (by simp)]
    show ((cloneAll _ _ ct []).bind fun ct ps => (cloneAll _ _ ct (cs.filter isTop)).bind fun ct ts => _) = _
    rw [htops]
    simp only [cloneAll, CRes.bind_ok, List.nil_append]
    rw [e]
    simp only [CRes.bind_ok]
    rw [e2]
  cases hf : (Ls.flatten.map ct.name).findIdx? (· == ct.name c) with
  | some i =>
    obtain ⟨hi, hin, -⟩ := List.findIdx?_eq_some_iff_getElem.mp hf
    rw [List.length_map] at hi
    rw [List.getElem_map] at hin
    have hin : ct.name Ls.flatten[i] = ct.name c := by simpa using hin
    have hi' : Ls.flatten[i]? = some Ls.flatten[i] := List.getElem?_eq_getElem hi
    generalize Ls.flatten[i] = d at *
    obtain ⟨L, hL, hdL⟩ := List.mem_flatten.mp (List.mem_of_getElem? hi')
    have hLn := compat L hL c (by rw [hcs]; simp) d hdL hin.symm
    have hLh : L.head? = some d := by
      cases hLc : L with
      | nil => rw [hLc] at hdL; cases hdL
      | cons e r =>
        have : ct.name e = ct.name c := by
          rw [hLc, hcs] at hLn
          simpa using (List.cons.inj hLn).1
        rw [gc.names e (List.mem_flatten.mpr ⟨L, hL, by rw [hLc]; simp⟩) d (List.mem_of_getElem? hi') (this.trans hin.symm)]
        rfl
    have hsub : ∀ y ∈ L, y ∈ Ls.flatten := fun y hy => List.mem_flatten.mpr ⟨L, hL, hy⟩
    have hfl : (Ls ++ [L]).flatten = Ls.flatten ++ L := by simp
    have hmem : ∀ z ∈ Ls.flatten ++ L, z ∈ Ls.flatten := by
      intro z hz
      rcases List.mem_append.mp hz with hz | hz
      · exact hz
      · exact hsub z hz
    refine ⟨ct, L, hrun ct d L ?_ (gc.hier L hL) hLh, w, Ext.refl ct, ?_, gc.hier L hL, hLn, Or.inl ⟨hL, rfl⟩, ?_, ?_, ?_⟩
    · unfold cloneOrReuse
      rw [hf]
      simp only [hi']
    · exact swapClasses_run hLn (fun y hy => List.mem_append_right _ hy) fun y hy z hz hzn =>
        gc.names z (hmem z hz) y (hsub y hy) hzn
    · intro K hK
      rcases List.mem_append.mp hK with hK | hK
      · exact gc.hier K hK
      · rw [List.mem_singleton.mp hK]; exact gc.hier L hL
    · rw [hfl]
      exact fun z hz => gc.plain z (hmem z hz)
    · rw [hfl]
      exact fun z hz y hy => gc.names z (hmem z hz) y (hmem y hy)
  | none =>
    have hno : ∀ d ∈ Ls.flatten, ct.name d ≠ ct.name c := by
      intro d hd e
      have := List.findIdx?_eq_none_iff.mp hf (ct.name d) (List.mem_map_of_mem hd)
      rw [e] at this
      simp at this
    have hno' : ∀ b ∈ cs, ∀ d ∈ Ls.flatten, ct.name b ≠ ct.name d := by
      intro b hb d hd e
      obtain ⟨L, hL, hdL⟩ := List.mem_flatten.mp hd
      have hLn := compat L hL b hb d hdL e
      have : ct.name c ∈ L.map ct.name := by rw [hLn, hcs]; simp
      obtain ⟨z, hz, hzn⟩ := List.mem_map.mp this
      exact hno z (List.mem_flatten.mpr ⟨L, hL, hz⟩) hzn
    obtain ⟨ct', K, d, e1, w', x', hK, hd, hnm, hge, -⟩ := clone_hierarchy w hier plain (c := c) (by rw [hcs]; rfl)
    have hold : ∀ z ∈ Ls.flatten, ct'.name z = ct.name z := by
      intro z hz
      obtain ⟨L, hL, hzL⟩ := List.mem_flatten.mp hz
      exact x'.name z ((gc.hier L hL).mem z hzL).1
    have holdc : ∀ z ∈ cs, ct'.name z = ct.name z := fun z hz => x'.name z (hier.mem z hz).1
    have hKn : ∀ y ∈ K, ∃ b ∈ cs, ct'.name y = ct.name b := by
      intro y hy
      have := List.mem_map_of_mem (f := ct'.name) hy
      rw [hnm] at this
      obtain ⟨b, hb, e⟩ := List.mem_map.mp this
      exact ⟨b, hb, e.symm⟩
    have hKu : ∀ y ∈ K, ∀ z ∈ K, ct'.name z = ct'.name y → z = y := by
      intro y hy z hz e
      obtain ⟨i, hi⟩ := List.mem_iff_getElem?.mp hy
      obtain ⟨j, hj⟩ := List.mem_iff_getElem?.mp hz
      have hnd : (K.map ct'.name).Nodup := by rw [hnm]; exact nm
      have := nodup_index hnd (i := i) (j := j) (a := ct'.name y) (by rw [List.getElem?_map, hi]; rfl)
        (by rw [List.getElem?_map, hj, ← e]; rfl)
      subst this
      rw [hi] at hj
      exact (Option.some.inj hj).symm
    have hcross : ∀ y ∈ K, ∀ z ∈ Ls.flatten, ct'.name z ≠ ct'.name y := by
      intro y hy z hz e
      obtain ⟨b, hb, eb⟩ := hKn y hy
      exact hno' b hb z hz (by rw [← eb, ← e, hold z hz])
    have hfl : (Ls ++ [K]).flatten = Ls.flatten ++ K := by simp
    refine ⟨ct', K, hrun ct' d K ?_ hK hd, w', x', ?_, hK, hnm, Or.inr ⟨hge, hno'⟩, ?_, ?_, ?_⟩
    · unfold cloneOrReuse
      rw [hf]
      exact e1
    · refine swapClasses_run ?_ (fun y hy => List.mem_append_right _ hy) ?_
      · rw [hnm]
        exact (List.map_congr_left holdc).symm
      · intro y hy z hz e
        rcases List.mem_append.mp hz with hz | hz
        · exact absurd e (hcross y hy z hz)
        · exact hKu y hy z hz e
    · intro L hL
      rcases List.mem_append.mp hL with hL | hL
      · exact (gc.hier L hL).ext w x'
      · rw [List.mem_singleton.mp hL]; exact hK
    · rw [hfl]
      intro z hz
      rcases List.mem_append.mp hz with hz | hz
      · rw [hold z hz]; exact gc.plain z hz
      · obtain ⟨b, hb, eb⟩ := hKn z hz
        rw [eb]; exact plain b hb
    · rw [hfl]
      intro z hz y hy e
      rcases List.mem_append.mp hz with hz | hz
      · rcases List.mem_append.mp hy with hy | hy
        · rw [hold z hz, hold y hy] at e; exact gc.names z hz y hy e
        · exact absurd e (hcross y hy z hz)
      · rcases List.mem_append.mp hy with hy | hy
        · exact absurd e.symm (hcross z hz y hy)
        · exact hKu y hy z hz e

end ATG
