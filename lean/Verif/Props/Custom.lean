import Verif.Props.Classes
/-!
# C31-C34, C56: `custom_classes`, cloning and listing of class hierarchies
-/
namespace ATG

/-- The classes of `l`, from top to bottom, form a class hierarchy. -/
structure IsHierarchy (ct : ClassTab) (l : List CRef) : Prop where
  ne : l ≠ []
  nodup : l.Nodup
  mem : ∀ c ∈ l, c < ct.next ∧ ct.isSub c cInterval = true ∧ ct.isSub c cTop = false ∧
    ct.isSub c cBottom = false
  top : ∀ c, l.head? = some c → ∃ t, ct.sup c = some t ∧ ct.isSub t cTop = true
  bottom : ∀ c, l.getLast? = some c → ∃ b, ct.sub c = some b ∧ ct.isSub b cBottom = true
  links : ∀ i a b, l[i]? = some a → l[i + 1]? = some b → ct.sub a = some b ∧ ct.sup b = some a

/-! ## C34, C56 -/

section listing
variable {ct : ClassTab} {l : List CRef}

theorem classHier_full (hl : IsHierarchy ct l) {out : List CRef} (hout : ∀ c ∈ l, c ∈ out) :
    ∀ (k i n : Nat) (c : CRef), l.length - i ≤ k → l[i]? = some c → k ≤ n →
      classHierN ct n c out = .ok out := by
  intro k
  induction k with
  | zero =>
    intro i n c hk hc _
    have := (List.getElem?_eq_some_iff.1 hc).1
    omega
  | succ k ih =>
    intro i n c hk hc hn
    obtain ⟨hi, hci⟩ := List.getElem?_eq_some_iff.1 hc
    obtain ⟨n, rfl⟩ : ∃ m, n = m + 1 := ⟨n - 1, by omega⟩
    have hcm : c ∈ l := List.mem_of_getElem? hc
    have hsup : ∃ s, ct.sup c = some s ∧ (!ct.isSub s cTop && !out.contains s) = false := by
      cases i with
      | zero =>
        obtain ⟨t, h1, h2⟩ := hl.top c (by rw [List.head?_eq_getElem?, hc])
        exact ⟨t, h1, by simp [h2]⟩
      | succ i =>
        have hi' : i < l.length := by omega
        have := (hl.links i l[i] c (List.getElem?_eq_getElem hi') hc).2
        refine ⟨l[i], this, ?_⟩
        have : l[i] ∈ out := hout _ (List.getElem_mem hi')
        simp [this]
    obtain ⟨s, hs1, hs2⟩ := hsup
    have hcc : out.contains c = true := by simpa using hout c hcm
    simp only [classHierN, hs1, hs2, Bool.false_eq_true, if_false]
    by_cases hlast : i + 1 < l.length
    · have hd := List.getElem?_eq_getElem hlast
      have h1 := (hl.links i c _ hc hd).1
      have hb := (hl.mem _ (List.getElem_mem hlast)).2.2.2
      have := ih (i + 1) n _ (by omega) hd (by omega)
      simp [Bind.bind, Except.bind, hout c hcm, h1, hb, this]
    · obtain ⟨b, h1, h2⟩ := hl.bottom c (by
        rw [List.getLast?_eq_getElem?]
        have : l.length - 1 = i := by omega
        rw [this, hc])
      simp [Bind.bind, Except.bind, hout c hcm, h1, h2]

theorem classHier_down (hl : IsHierarchy ct l) {out : List CRef} (hout : ∀ c ∈ l, c ∉ out) :
    ∀ (k i n : Nat) (c : CRef), l.length - i ≤ k → l[i]? = some c → k ≤ n →
      classHierN ct n c (out ++ l.take i) = .ok (out ++ l) := by
  intro k
  induction k with
  | zero =>
    intro i n c hk hc _
    have := (List.getElem?_eq_some_iff.1 hc).1
    omega
  | succ k ih =>
    intro i n c hk hc hn
    obtain ⟨hi, hci⟩ := List.getElem?_eq_some_iff.1 hc
    obtain ⟨n, rfl⟩ : ∃ m, n = m + 1 := ⟨n - 1, by omega⟩
    have hcm : c ∈ l := List.mem_of_getElem? hc
    have hsup : ∃ s, ct.sup c = some s ∧ (!ct.isSub s cTop && !(out ++ l.take i).contains s) = false := by
      cases i with
      | zero =>
        obtain ⟨t, h1, h2⟩ := hl.top c (by rw [List.head?_eq_getElem?, hc])
        exact ⟨t, h1, by simp [h2]⟩
      | succ i =>
        have hi' : i < l.length := by omega
        have := (hl.links i l[i] c (List.getElem?_eq_getElem hi') hc).2
        refine ⟨l[i], this, ?_⟩
        have : l[i] ∈ l.take (i + 1) := by
          rw [List.take_succ_eq_append_getElem hi']; exact List.mem_append_right _ (by simp)
        simp [this]
    obtain ⟨s, hs1, hs2⟩ := hsup
    have hnot : c ∉ out ++ l.take i := by
      rw [List.mem_append]
      rintro (h | h)
      · exact hout c hcm h
      · obtain ⟨j, hj, he⟩ := List.mem_iff_getElem.1 h
        have hj' : j < i := by
          rw [List.length_take] at hj; omega
        rw [List.getElem_take] at he
        have : j = i := (List.getElem_inj hl.nodup (h₀ := by omega) (h₁ := hi)).1 (he.trans hci.symm)
        omega
    have htake : out ++ l.take i ++ [c] = out ++ l.take (i + 1) := by
      rw [List.take_succ_eq_append_getElem hi, hci, List.append_assoc]
    simp only [classHierN, hs1, hs2, Bool.false_eq_true, if_false]
    have hcf : (out ++ l.take i).contains c = false := by
      rw [List.contains_eq_mem]; simpa using hnot
    simp only [Bind.bind, Except.bind, hcf, Bool.false_eq_true, if_false, htake]
    by_cases hlast : i + 1 < l.length
    · have hd := List.getElem?_eq_getElem hlast
      have h1 := (hl.links i c _ hc hd).1
      have hb := (hl.mem _ (List.getElem_mem hlast)).2.2.2
      have := ih (i + 1) n _ (by omega) hd (by omega)
      simp [h1, hb, this]
    · obtain ⟨b, h1, h2⟩ := hl.bottom c (by
        rw [List.getLast?_eq_getElem?]
        have : l.length - 1 = i := by omega
        rw [this, hc])
      have : l.take (i + 1) = l := List.take_of_length_le (by omega)
      simp [h1, h2, this]

theorem classHier_at (hl : IsHierarchy ct l) {out : List CRef} (hout : ∀ c ∈ l, c ∉ out) :
    ∀ (i n : Nat) (c : CRef), l[i]? = some c → l.length + i ≤ n →
      classHierN ct n c out = .ok (out ++ l) := by
  intro i
  induction i with
  | zero =>
    intro n c hc hn
    have := classHier_down hl hout l.length 0 n c (by omega) hc (by omega)
    simpa using this
  | succ i ih =>
    intro n c hc hn
    obtain ⟨hi, hci⟩ := List.getElem?_eq_some_iff.1 hc
    obtain ⟨n, rfl⟩ : ∃ m, n = m + 1 := ⟨n - 1, by omega⟩
    have hi' : i < l.length := by omega
    have hd := List.getElem?_eq_getElem hi'
    have hsup := (hl.links i l[i] c hd hc).2
    have hcm : c ∈ l := List.mem_of_getElem? hc
    have hpm : l[i] ∈ l := List.getElem_mem hi'
    have e := ih n l[i] hd (by omega)
    simp only [classHierN, hsup, (hl.mem _ hpm).2.2.1, Bool.not_false, Bool.true_and,
      show out.contains l[i] = false by rw [List.contains_eq_mem]; simpa using hout _ hpm, if_true, e]
    have hcc : (out ++ l).contains c = true := by simp [hcm]
    simp only [Bind.bind, Except.bind, hcc, if_true]
    by_cases hlast : i + 1 + 1 < l.length
    · have hd := List.getElem?_eq_getElem hlast
      have h1 := (hl.links (i + 1) c _ hc hd).1
      have hb := (hl.mem _ (List.getElem_mem hlast)).2.2.2
      have := classHier_full hl (out := out ++ l) (fun c h => by simp [h]) l.length (i + 1 + 1) n _
        (by omega) hd (by omega)
      simp [h1, hb, this]
    · obtain ⟨b, h1, h2⟩ := hl.bottom c (by
        rw [List.getLast?_eq_getElem?]
        have : l.length - 1 = i + 1 := by omega
        rw [this, hc])
      simp [h1, h2]

end listing

/-- C34: `get_class_hierarchy(c, [])` lists the whole hierarchy, each class once and from top to
    bottom, from whichever class of it the search starts; the recursion needs at most twice as many
    levels as there are classes. -/
theorem C34_hierarchy {ct : ClassTab} {l : List CRef} (hl : IsHierarchy ct l) {c : CRef} (hc : c ∈ l)
    (n : Nat) (hn : 2 * l.length ≤ n) : classHierN ct n c [] = .ok l := by
  obtain ⟨i, hi, rfl⟩ := List.mem_iff_getElem.1 hc
  have := classHier_at hl (out := []) (fun _ _ => by simp) i n _ (List.getElem?_eq_getElem hi) (by omega)
  simpa using this

/-- A hierarchy of three: `Utt` (9) above `Word` above `Phone`. -/
def exUWP : ClassTab := (setSupClass (setSupClass exMore 9 (some cTop)).1 cWord (some 9)).1

theorem isHierarchy_of_check {ct : ClassTab} {l : List CRef}
    (h1 : l ≠ []) (h2 : l.Nodup)
    (h3 : ∀ c ∈ l, c < ct.next ∧ ct.isSub c cInterval = true ∧ ct.isSub c cTop = false ∧
      ct.isSub c cBottom = false)
    (h4 : (l.head?.bind ct.sup).any (fun t => ct.isSub t cTop) = true)
    (h5 : (l.getLast?.bind ct.sub).any (fun t => ct.isSub t cBottom) = true)
    (h6 : ∀ p ∈ l.zip l.tail, ct.sub p.1 = some p.2 ∧ ct.sup p.2 = some p.1) : IsHierarchy ct l := by
  refine ⟨h1, h2, h3, ?_, ?_, ?_⟩
  · intro c hc
    rw [hc, Option.bind_some] at h4
    cases h : ct.sup c with
    | none => rw [h] at h4; simp at h4
    | some t => rw [h] at h4; exact ⟨t, rfl, by simpa using h4⟩
  · intro c hc
    rw [hc, Option.bind_some] at h5
    cases h : ct.sub c with
    | none => rw [h] at h5; simp at h5
    | some t => rw [h] at h5; exact ⟨t, rfl, by simpa using h5⟩
  · intro i a b ha hb
    refine h6 (a, b) ?_
    refine List.mem_of_getElem? (i := i) ?_
    rw [List.getElem?_zip_eq_some]
    exact ⟨ha, by rw [List.getElem?_tail]; exact hb⟩

theorem exUWP_hierarchy : IsHierarchy exUWP [9, cWord, cPhone] :=
  isHierarchy_of_check (by decide) (by decide) (by decide +kernel) (by decide +kernel)
    (by decide +kernel) (by decide +kernel)

example : classHierN exUWP 6 cWord [] = .ok [9, cWord, cPhone] ∧
    classHierN exUWP 6 cPhone [] = .ok [9, cWord, cPhone] :=
  ⟨C34_hierarchy exUWP_hierarchy (by decide) 6 (by decide),
   C34_hierarchy exUWP_hierarchy (by decide) 6 (by decide)⟩

/-! ## The default list of `get_class_hierarchy` -/

/-- `get_class_hierarchy(c)` without a list (`custom_classes.py:208-236`): the default list is one
    object for all calls; it is appended to in place and is also what is returned. `dflt` is its
    content before the call; the result is its content afterwards. -/
def classHierDefault (ct : ClassTab) (dflt : List CRef) (c : CRef) : Except Err (List CRef) :=
  classHierN ct (hierFuel ct) c dflt

theorem nodup_length_le : ∀ (n : Nat) (l : List Nat), l.Nodup → (∀ x ∈ l, x < n) → l.length ≤ n := by
  intro n
  induction n with
  | zero =>
    intro l _ h
    cases l with
    | nil => exact Nat.le_refl _
    | cons a l => exact absurd (h a (by simp)) (Nat.not_lt_zero _)
  | succ n ih =>
    intro l hnd h
    have h1 := ih (l.erase n) (hnd.erase n) (fun x hx => by
      have := (List.Nodup.mem_erase_iff hnd).1 hx
      have := h x this.2
      omega)
    have : l.length ≤ (l.erase n).length + 1 := by
      by_cases hm : n ∈ l
      · rw [List.length_erase_of_mem hm]; omega
      · rw [List.erase_of_not_mem hm]; omega
    omega

theorem hier_length {ct : ClassTab} {l : List CRef} (h : IsHierarchy ct l) : l.length ≤ ct.next :=
  nodup_length_le ct.next l h.nodup (fun c hc => (h.mem c hc).1)

/-- C56 fails: `get_class_hierarchy(c)` called without a list does not return the hierarchy of `c` if it
    was called for another hierarchy before: the first result is still in the list. -/
theorem C56_default_violated :
    ∃ ct l₁ l₂ c₁ c₂ first, IsHierarchy ct l₁ ∧ IsHierarchy ct l₂ ∧ c₁ ∈ l₁ ∧ c₂ ∈ l₂ ∧
      classHierDefault ct [] c₁ = .ok first ∧ classHierDefault ct first c₂ ≠ .ok l₂ := by
  refine ⟨(customClasses baseClasses ["A", "B"] []).1, [cWord, cPhone], [11, 12], cPhone, 11,
    [cWord, cPhone], ?_, ?_, by decide, by decide, by decide +kernel, by decide +kernel⟩
  · exact isHierarchy_of_check (by decide) (by decide) (by decide +kernel) (by decide +kernel)
      (by decide +kernel) (by decide +kernel)
  · exact isHierarchy_of_check (by decide) (by decide) (by decide +kernel) (by decide +kernel)
      (by decide +kernel) (by decide +kernel)

/-- C56, what is returned instead: everything listed by earlier calls, then the hierarchy of `c`, for a
    hierarchy none of whose classes was listed before. The first call of all is right. -/
theorem C56_default_partial {ct : ClassTab} {l : List CRef} (hl : IsHierarchy ct l) {c : CRef}
    (hc : c ∈ l) (dflt : List CRef) (hd : ∀ x ∈ l, x ∉ dflt) :
    classHierDefault ct dflt c = .ok (dflt ++ l) := by
  obtain ⟨i, hi, rfl⟩ := List.mem_iff_getElem.1 hc
  have := hier_length hl
  exact classHier_at hl hd i _ _ (List.getElem?_eq_getElem hi) (by unfold hierFuel; omega)

example : classHierDefault exUWP [cInterval] cPhone = .ok [cInterval, 9, cWord, cPhone] :=
  C56_default_partial exUWP_hierarchy (by decide) _ (by decide)

/-! ## C33 -/

/-- The names that `set_superset_class` and `set_subset_class` accept as they are. -/
def PlainName (n : String) : Prop := hasSubstr "Top" n = false ∧ hasSubstr "Bottom" n = false

instance (n : String) : Decidable (PlainName n) := by unfold PlainName; infer_instance

theorem down_of_links {ct : ClassTab} : ∀ (l : List CRef), l ≠ [] → (∀ c ∈ l, Fit ct c) →
    (∀ c, l.getLast? = some c → ∃ b, ct.sub c = some b ∧ ct.isSub b cBottom = true) →
    (∀ i a b, l[i]? = some a → l[i + 1]? = some b → ct.sub a = some b ∧ ct.sup b = some a) →
    Down ct l := by
  intro l
  induction l with
  | nil => intro h; exact absurd rfl h
  | cons c r ih =>
    intro _ hf hb hl
    cases r with
    | nil => exact ⟨hf c (by simp), hb c (by simp)⟩
    | cons d r =>
      have := hl 0 c d rfl rfl
      refine ⟨hf c (by simp), this.1, this.2, ih (by simp) (fun x hx => hf x (List.mem_cons_of_mem _ hx))
        (fun x hx => hb x (by simpa [List.getLast?_cons] using hx)) ?_⟩
      intro i a b ha hb'
      exact hl (i + 1) a b (by simpa using ha) (by simpa using hb')

theorem links_of_downO {ct : ClassTab} : ∀ (l : List CRef), DownO ct l →
    (∀ c, l.getLast? = some c → ∃ b, ct.sub c = some b ∧ ct.isSub b cBottom = true) ∧
    (∀ i a b, l[i]? = some a → l[i + 1]? = some b → ct.sub a = some b ∧ ct.sup b = some a) := by
  intro l
  induction l with
  | nil => intro h; exact h.elim
  | cons c r ih =>
    cases r with
    | nil =>
      rintro ⟨_, b, h1, h2⟩
      refine ⟨fun x hx => ?_, fun i a b ha hb => by simp at hb⟩
      have : c = x := by simpa using hx
      subst this
      exact ⟨b, sub_own h1, h2⟩
    | cons d r =>
      rintro ⟨_, h1, h2, h3⟩
      obtain ⟨k1, k2⟩ := ih h3
      refine ⟨fun x hx => k1 x (by simpa [List.getLast?_cons] using hx), ?_⟩
      intro i a b ha hb
      cases i with
      | zero =>
        simp at ha hb
        subst ha; subst hb
        exact ⟨sub_own h1, sup_own h2⟩
      | succ i => exact k2 i a b (by simpa using ha) (by simpa using hb)

theorem clone_hierarchy {ct : ClassTab} (w : WFC ct) {l : List CRef} (hl : IsHierarchy ct l)
    (hn : ∀ c ∈ l, PlainName (ct.name c)) {c : CRef} (hc : l.head? = some c) :
    ∃ ct' l' d, cloneClassN (hierFuel ct) ct c false = (ct', .ok d) ∧ WFC ct' ∧ Ext ct ct' ∧ IsHierarchy ct' l' ∧
      l'.head? = some d ∧ l'.map ct'.name = l.map ct.name ∧ (∀ x ∈ l', ct.next ≤ x) ∧
      (∀ t, ct'.sup d = some t → ct.next ≤ t) ∧ OwnRow ct' l' := by
  obtain ⟨rest, rfl⟩ : ∃ rest, l = c :: rest := by
    cases l with
    | nil => simp at hc
    | cons a r => simp at hc; exact ⟨r, by rw [hc]⟩
  obtain ⟨t, ht1, ht2⟩ := hl.top c rfl
  have hfit : ∀ x ∈ c :: rest, Fit ct x := fun x hx =>
    ⟨(hl.mem x hx).1, (hl.mem x hx).2.1, (hl.mem x hx).2.2.1, (hl.mem x hx).2.2.2,
      (hn x hx).1, (hn x hx).2⟩
  have hlen := hier_length hl
  have hcl := (hl.mem c (by simp)).1
  obtain ⟨ct', rest', p', e, w', x', hd, hnm, hnc, hlt, hfresh, hnd, hs, hst, _, hbot⟩ :=
    clone_down rest (hierFuel ct) ct c t false (by simp at hlen; unfold hierFuel; omega) w
      (down_of_links _ (by simp) hfit hl.bottom hl.links) ht1
      (sup_lt w c c t (Nat.le_refl _) hcl ht1) (Or.inr ht2)
  obtain ⟨k1, k2⟩ := links_of_downO _ hd
  refine ⟨ct', ct.next :: rest', ct.next, e, w', x', ⟨by simp, ?_, ?_, ?_, k1, k2⟩, rfl, ?_, ?_, ?_, ?_, hd.sub, ?_, hbot⟩
  · exact List.nodup_cons.2 ⟨fun h => Nat.lt_irrefl _ (hfresh _ h).1, hnd⟩
  · intro x hx
    have := hd.fit x hx
    exact ⟨this.1, this.2.1, this.2.2.1, this.2.2.2.1⟩
  · intro x hx
    have : ct.next = x := by simpa using hx
    subst this
    exact ⟨p', hs, (hst ht2).1⟩
  · rw [List.map_cons, List.map_cons, hnm, hnc]
  · intro x hx
    rcases List.mem_cons.1 hx with rfl | hx
    · exact Nat.le_refl _
    · exact Nat.le_of_lt (hfresh x hx).1
  · intro t' ht'
    rw [hs] at ht'
    exact (Option.some.inj ht') ▸ (hst ht2).2.1
  · intro x hx
    rcases List.mem_cons.1 hx with rfl | hx
    · exact ⟨p', (hst ht2).2.2.1⟩
    · exact hd.sup x hx
  · intro x p hx hp
    have : ct.next = x := by simpa using hx
    rw [← this, (hst ht2).2.2.1] at hp
    rw [← Option.some.inj (Option.some.inj hp)]
    exact (hst ht2).2.2.2

/-- C33, for hierarchies whose class names do not contain `Top` or `Bottom`: `clone_class` of the first
    class returns the first class of a new hierarchy with the same names in the same order. All its
    classes are new, and of every class that existed before, name, base, own attributes and the
    attributes as looked up are as they were.
    The full statement, without the condition on the names, is false (`C33_name_violated`). -/
theorem C33_clone_partial {ct : ClassTab} (hr : ReachC ct) {l : List CRef} (hl : IsHierarchy ct l)
    (hn : ∀ c ∈ l, PlainName (ct.name c)) {c : CRef} (hc : l.head? = some c) :
    ∃ ct' l' d, cloneClassN (hierFuel ct) ct c false = (ct', .ok d) ∧ IsHierarchy ct' l' ∧
      l'.head? = some d ∧ l'.map ct'.name = l.map ct.name ∧ (∀ x ∈ l', ct.next ≤ x) ∧
      (∀ t, ct'.sup d = some t → ct.next ≤ t) ∧
      ∀ x < ct.next, ct'.name x = ct.name x ∧ ct'.parent x = ct.parent x ∧
        ct'.ownSup x = ct.ownSup x ∧ ct'.ownSub x = ct.ownSub x ∧
        ct'.sup x = ct.sup x ∧ ct'.sub x = ct.sub x := by
  have w := hr.wfc
  obtain ⟨ct', l', d, e, w', x', h1, h2, h3, h4, h5, -⟩ := clone_hierarchy w hl hn hc
  refine ⟨ct', l', d, e, h1, h2, h3, h4, h5, fun x hx => ?_⟩
  exact ⟨x'.name x hx, x'.parent x hx, x'.ownSup x hx, x'.ownSub x hx, sup_ext w x' x hx, sub_ext w x' x hx⟩

theorem exUWP_reach : ReachC exUWP := by
  refine .step (.setSup cWord (some 9)) (.step (.setSup 9 (some cTop))
    (.step (.define "Syl" cInterval) (.step (.define "Utt" cInterval) .base ?_) ?_) ?_) ?_
  · exact (by decide +kernel : cInterval < baseClasses.next)
  · exact (by decide +kernel : cInterval < (newClass baseClasses "Utt" cInterval).1.next)
  · exact ⟨(by decide +kernel : 9 < exMore.next), fun x hx => by
      cases hx; exact (by decide +kernel : cTop < exMore.next)⟩
  · exact ⟨(by decide +kernel : cWord < (setSupClass exMore 9 (some cTop)).1.next), fun x hx => by
      cases hx; exact (by decide +kernel : 9 < (setSupClass exMore 9 (some cTop)).1.next)⟩

example : ∃ ct' l' d, cloneClassN (hierFuel exUWP) exUWP 9 false = (ct', .ok d) ∧
    IsHierarchy ct' l' ∧ l'.map ct'.name = ["Utt", "Word", "Phone"] := by
  obtain ⟨ct', l', d, h1, h2, _, h3, _⟩ := C33_clone_partial exUWP_reach exUWP_hierarchy
    (by decide +kernel) (c := 9) rfl
  exact ⟨ct', l', d, h1, h2, h3.trans (by decide +kernel)⟩

/-- C33, the exception: `clone_class` of a class of the hierarchy that is not the first raises, and no
    class changes. -/
theorem C33_not_top {ct : ClassTab} {l : List CRef} (hl : IsHierarchy ct l) {i : Nat} {c : CRef}
    (hc : l[i + 1]? = some c) : cloneClassN (hierFuel ct) ct c false = (ct, .error .exc) := by
  obtain ⟨hi, hci⟩ := List.getElem?_eq_some_iff.1 hc
  have hi' : i < l.length := by omega
  have hs := (hl.links i l[i] c (List.getElem?_eq_getElem hi') hc).2
  have h1 := hl.mem c (List.mem_of_getElem? hc)
  have h2 := (hl.mem l[i] (List.getElem_mem hi')).2.2.1
  unfold hierFuel
  rw [cloneClassN, if_pos h1.2.1, hs]
  simp [subO, h2]

example : cloneClassN (hierFuel exUWP) exUWP cWord false = (exUWP, .error .exc) :=
  C33_not_top exUWP_hierarchy (i := 0) rfl

/-- C33 fails for a class whose name contains `Top`: with `class Topic(SequenceInterval)`, a hierarchy
    of its own, the clone has no `superset_class` at all, so it cannot be used for a tier. -/
theorem C33_name_violated :
    ∃ ct l c ct' d, ReachC ct ∧ IsHierarchy ct l ∧ l.head? = some c ∧
      cloneClassN (hierFuel ct) ct c false = (ct', .ok d) ∧ ct'.sup d = none := by
  refine ⟨(newClass baseClasses "Topic" cInterval).1, [9], 9,
    (cloneClassN (hierFuel (newClass baseClasses "Topic" cInterval).1)
      (newClass baseClasses "Topic" cInterval).1 9 false).1, 10, ?_, ?_, rfl, ?_, ?_⟩
  · exact .step (.define "Topic" cInterval) .base (by decide +kernel : cInterval < baseClasses.next)
  · exact isHierarchy_of_check (by decide) (by decide) (by decide +kernel) (by decide +kernel)
      (by decide +kernel) (by decide +kernel)
  · have h : (cloneClassN (hierFuel (newClass baseClasses "Topic" cInterval).1)
      (newClass baseClasses "Topic" cInterval).1 9 false).2 = .ok 10 := by decide +kernel
    exact Prod.ext rfl h
  · decide +kernel

/-! ## C31 -/

theorem isSub_base {ct : ClassTab} (w : WFC ct) :
    (∀ x, ct.isSub cInterval x = (cInterval == x || cHierarchyPart == x)) ∧
    (∀ x, ct.isSub cPoint x = (cPoint == x)) := by
  have h3 : (3 : CRef) < ct.next := Nat.lt_of_lt_of_le (by decide) w.base
  refine ⟨fun x => ?_, fun x => ?_⟩
  · have := isSub_parent w x h3 w.p3
    show ct.isSub 3 x = _
    rw [this]
    simp [ClassTab.isSub, ClassTab.isSubN, cInterval, cHierarchyPart]
  · show ct.isSub 4 x = _
    simp [ClassTab.isSub, ClassTab.isSubN, w.p4, cPoint]

/-- What `custom_classes` has done before the return order is applied. -/
theorem customCore_spec {ct : ClassTab} (w : WFC ct) (names : List String) (points : List Nat)
    (hn : ∀ j nm, names[j]? = some nm → points.contains j = false → PlainName nm) :
    ∃ ct', customClassesCore ct names points = (ct', .ok (List.range' (ct.next + 2) names.length)) ∧
      WFC ct' ∧ Ext ct ct' ∧ ct'.next = ct.next + 2 + names.length ∧
      (List.range' (ct.next + 2) names.length).map ct'.name = names ∧
      (∀ j, j < names.length →
        ct'.isSub (ct.next + 2 + j) cInterval = !points.contains j ∧
        ct'.isSub (ct.next + 2 + j) cPoint = points.contains j) ∧
      (∀ c r, (List.range' (ct.next + 2) names.length).filter (fun c => ct'.isSub c cInterval) = c :: r →
        DownO ct' (c :: r) ∧ ct'.ownSup c = some (some ct.next) ∧ ct'.isSub ct.next cTop = true ∧
        ct'.ownSub ((c :: r).getLast (by simp)) = some (some (ct.next + 1)) ∧
        ct'.isSub (ct.next + 1) cBottom = true) := by
  have hb5 := w.base
  have h1 : (1 : CRef) < ct.next := Nat.lt_of_lt_of_le (by decide) w.base
  have h2 : (2 : CRef) < ct.next := Nat.lt_of_lt_of_le (by decide) w.base
  -- the top class
  generalize hnm1 : "Top_" ++ toString (nSubclasses ct cTop) = nm1
  generalize hct1 : addClass ct nm1 cTop none none = ct1
  have w1 : WFC ct1 := hct1 ▸ wfc_addClass w nm1 h1 (by simp) (by simp)
  have x1 : Ext ct ct1 := hct1 ▸ ext_addClass ct nm1 cTop none none
  have n1 : ct1.next = ct.next + 1 := by rw [← hct1]; rfl
  -- the bottom class
  generalize hnm2 : "Bottom_" ++ toString (nSubclasses ct1 cBottom) = nm2
  generalize hct2 : addClass ct1 nm2 cBottom none none = ct2
  have h2' : cBottom < ct1.next := Nat.lt_of_lt_of_le h2 x1.le
  have w2 : WFC ct2 := hct2 ▸ wfc_addClass w1 nm2 h2' (by simp) (by simp)
  have x2 : Ext ct1 ct2 := hct2 ▸ ext_addClass ct1 nm2 cBottom none none
  have n2 : ct2.next = ct.next + 2 := by rw [← hct2]; show ct1.next + 1 = _; rw [n1]
  -- the classes
  obtain ⟨ct3, e3, w3, x3, n3, hj3⟩ := mkCustom_spec points names ct2 0 w2
  have x03 : Ext ct ct3 := (x1.trans x2).trans x3
  have top_lt1 : ct.next < ct1.next := by rw [n1]; exact Nat.lt_succ_self _
  have top_lt : ct.next < ct2.next := by rw [n2]; omega
  have bot_lt : ct.next + 1 < ct2.next := by rw [n2]; omega
  have top_lt3 : ct.next < ct3.next := Nat.lt_of_lt_of_le top_lt x3.le
  have bot_lt3 : ct.next + 1 < ct3.next := Nat.lt_of_lt_of_le bot_lt x3.le
  have htop3 : ct3.parent ct.next = some cTop ∧ ct3.ownSup ct.next = none ∧ ct3.ownSub ct.next = none ∧
      ct3.name ct.next = nm1 := by
    rw [x3.parent _ top_lt, x3.ownSup _ top_lt, x3.ownSub _ top_lt, x3.name _ top_lt,
      x2.parent _ top_lt1, x2.ownSup _ top_lt1, x2.ownSub _ top_lt1, x2.name _ top_lt1, ← hct1]
    simp [addClass]
  have hbot3 : ct3.parent (ct.next + 1) = some cBottom ∧ ct3.ownSup (ct.next + 1) = none ∧
      ct3.ownSub (ct.next + 1) = none ∧ ct3.name (ct.next + 1) = nm2 := by
    rw [x3.parent _ bot_lt, x3.ownSup _ bot_lt, x3.ownSub _ bot_lt, x3.name _ bot_lt, ← hct2, ← n1]
    simp [addClass]
  have htop3s : ct3.isSub ct.next cTop = true := by
    rw [isSub_parent w3 _ top_lt3 htop3.1, isSub_refl, Bool.or_true]
  have hbot3s : ct3.isSub (ct.next + 1) cBottom = true := by
    rw [isSub_parent w3 _ bot_lt3 hbot3.1, isSub_refl, Bool.or_true]
  -- their base classes
  have hbase : ∀ j, j < names.length → ct.next + 2 + j < ct3.next ∧
      ct3.parent (ct.next + 2 + j) = some (customBase points j) ∧
      (∀ s, ct3.ownSup (ct.next + 2 + j) = some (some s) → s < ct.next) ∧
      ct3.name (ct.next + 2 + j) = names[j]! := by
    intro j hj
    have := hj3 j names[j] (List.getElem?_eq_getElem hj)
    rw [n2, Nat.zero_add] at this
    have hbl := customBase_lt w points j
    refine ⟨by rw [n3, n2]; omega, this.2.1, ?_, ?_⟩
    · intro s hs
      rw [this.2.2.1, (x1.trans x2).ownSup _ hbl] at hs
      exact w.supLt _ s hbl hs
    · rw [this.1, getElem!_pos names j hj]
  have hsubj : ∀ (j : Nat), j < names.length → ∀ (x : Nat), x < 5 →
      ct3.isSub (ct.next + 2 + j) x = ct3.isSub (customBase points j) x := by
    intro j hj x hx
    rw [isSub_parent w3 x (hbase j hj).1 (hbase j hj).2.1]
    have : (ct.next + 2 + j == x) = false := beq_eq_false_iff_ne.2 (by omega)
    rw [this, Bool.false_or]
  have hiv : ∀ j, j < names.length → ct3.isSub (ct.next + 2 + j) cInterval = !points.contains j ∧
      ct3.isSub (ct.next + 2 + j) cPoint = points.contains j ∧
      ct3.isSub (ct.next + 2 + j) cTop = false ∧ ct3.isSub (ct.next + 2 + j) cBottom = false := by
    intro j hj
    rw [hsubj j hj _ (by decide), hsubj j hj _ (by decide), hsubj j hj _ (by decide),
      hsubj j hj _ (by decide)]
    unfold customBase
    cases points.contains j
    · simp only [Bool.false_eq_true, if_false, (isSub_base w3).1]; decide
    · simp only [if_true, (isSub_base w3).2]; decide
  have hnames3 : (List.range' (ct.next + 2) names.length).map ct3.name = names := by
    apply List.ext_getElem
    · simp
    · intro j h1 h2
      rw [List.getElem_map, List.getElem_range']
      have := (hbase j h2).2.2.2
      rw [Nat.one_mul, this, getElem!_pos names j h2]
  have hcore : customClassesCore ct names points =
      (match (List.range' (ct.next + 2) names.length).filter fun c => ct3.isSub c cInterval with
      | [] => (ct3, .ok (List.range' (ct.next + 2) names.length))
      | c :: r => (setSupClass ct3 c (some ct.next)).bind fun ct' _ =>
          (linkCustom (ct.next + 1) ct' (c :: r)).bind fun ct' _ =>
            (ct', .ok (List.range' (ct.next + 2) names.length))) := by
    simp only [customClassesCore, makeTop, makeBottom, newClass_eq, hnm1, hct1, hnm2, hct2, e3, n2, n1]
    cases (List.range' (ct.next + 2) names.length).filter fun c => ct3.isSub c cInterval <;> rfl
  rw [hcore]
  cases hivs : (List.range' (ct.next + 2) names.length).filter fun c => ct3.isSub c cInterval with
  | nil =>
    exact ⟨ct3, rfl, w3, x03, by rw [n3, n2], hnames3, fun j hj => ⟨(hiv j hj).1, (hiv j hj).2.1⟩,
      fun c r h => by simp [hivs] at h⟩
  | cons c r =>
    have hmem : ∀ e ∈ c :: r, ∃ j, j < names.length ∧ e = ct.next + 2 + j ∧ points.contains j = false := by
      intro e he
      rw [← hivs, List.mem_filter, List.mem_range'_1] at he
      obtain ⟨⟨a, b⟩, c'⟩ := he
      have hej : e = ct.next + 2 + (e - (ct.next + 2)) := by unfold CRef at *; omega
      have hjl : e - (ct.next + 2) < names.length := by unfold CRef at *; omega
      refine ⟨e - (ct.next + 2), hjl, hej, ?_⟩
      rw [hej, (hiv _ hjl).1] at c'
      simpa using c'
    have hfit : ∀ e ∈ c :: r, Fit ct3 e ∧ ct.next ≤ e := by
      intro e he
      obtain ⟨j, hj, rfl, hp⟩ := hmem e he
      obtain ⟨a, b, c', d⟩ := hiv j hj
      have hpn := hn j names[j] (List.getElem?_eq_getElem hj) hp
      have hnm := (hbase j hj).2.2.2
      rw [getElem!_pos names j hj] at hnm
      refine ⟨⟨(hbase j hj).1, by rw [a, hp]; rfl, c', d, ?_, ?_⟩, by omega⟩
      · rw [hnm]; exact hpn.1
      · rw [hnm]; exact hpn.2
    have hnd : (c :: r).Nodup := by
      rw [← hivs]; exact List.Pairwise.filter _ List.nodup_range'
    obtain ⟨fc, hc0⟩ := hfit c (by simp)
    have hctop : ct.next ≠ c := by
      obtain ⟨j, _, rfl, _⟩ := hmem c (by simp)
      omega
    have hsubtop : ct3.sub ct.next ≠ some c := by
      rw [sub_parent w3 top_lt3 htop3.1 htop3.2.2.1, sub_ext w x03 cTop h1]
      intro h
      exact absurd (sub_lt w _ _ c (Nat.le_refl _) h1 h) (Nat.not_lt.2 hc0)
    have es := setSupClass_new (ct := ct3) (c := c) (s := ct.next) fc.2.2.2.2.1
      (by rw [htop3.2.2.2, ← hnm1]; exact top_no_bottom _)
      (isSub_trans w3 (top_hier w3) _ _ (Nat.le_refl _) top_lt3 htop3s)
      (isSub_trans w3 (interval_hier w3) _ _ (Nat.le_refl _) fc.1 fc.2.1) hctop hsubtop
    generalize hct4 : (ct3.putSup c (some ct.next)).putSub ct.next (some c) = ct4 at es
    have w4 : WFC ct4 := hct4 ▸ wfc_putSub (wfc_putSup w3 _ _ top_lt3) _ _ fc.1
    have x4 : Ext ct ct4 := hct4 ▸ ext_putSub (ext_putSup x03 _ hc0) _ (Nat.le_refl _)
    have hx4 : ct4.next = ct3.next := by rw [← hct4]; rfl
    have hn4 : ct4.name = ct3.name := by rw [← hct4]; rfl
    have hp4 : ct4.parent = ct3.parent := by rw [← hct4]; rfl
    have hsup4 : ∀ y, y ≠ c → ct4.ownSup y = ct3.ownSup y := by
      intro y hy; rw [← hct4]; simp [ClassTab.putSup, ClassTab.putSub, upd, hy]
    have hbc : ct.next + 1 ∉ c :: r := by
      intro h
      obtain ⟨j, _, he, _⟩ := hmem _ h
      unfold CRef at *; omega
    have hold : ∀ e ∈ r, OldSup ct ct4 e := by
      intro e he
      obtain ⟨j, hj, rfl, hp⟩ := hmem e (List.mem_cons_of_mem _ he)
      have hec : ct.next + 2 + j ≠ c := by
        rintro rfl; exact (List.nodup_cons.1 hnd).1 he
      refine ⟨by omega, by rw [hx4]; exact (hbase j hj).1, ⟨_, by rw [hp4]; exact (hbase j hj).2.1,
        customBase_lt w points j⟩, ?_⟩
      rw [hsup4 _ hec]; exact (hbase j hj).2.2.1
    have holdb : OldSup ct ct4 (ct.next + 1) := by
      refine ⟨by omega, by rw [hx4]; exact bot_lt3, ⟨cBottom, by rw [hp4]; exact hbot3.1, h2⟩, ?_⟩
      rw [hsup4 _ (fun h => hbc (by simp [h])), hbot3.2.1]
      simp
    obtain ⟨ct', e', w', x', a1, a2, a3, a4, a5, a6, a7, _⟩ := linkCustom_spec w (ct.next + 1) r c ct4 w4 x4
      hnd hbc (fun e he => ⟨fit_congr hx4 hn4 hp4 (hfit e he).1, (hfit e he).2⟩) hold holdb
      (by rw [isSub_congr hp4]; exact hbot3s) (by rw [hn4, hbot3.2.2.2, ← hnm2]; exact bottom_no_top _)
    have hpp : ct'.parent = ct3.parent := a3.trans hp4
    refine ⟨ct', ?_, w', x', by rw [a1, hx4, n3, n2], ?_, ?_, ?_⟩
    · simp only [es, CRes.bind_ok, e']
    · rw [a2, hn4]; exact hnames3
    · intro j hj
      rw [isSub_congr hpp, isSub_congr hpp]
      exact ⟨(hiv j hj).1, (hiv j hj).2.1⟩
    · intro c2 r2 h2
      have hfe : (fun c => ct'.isSub c cInterval) = fun c => ct3.isSub c cInterval :=
        funext fun c => isSub_congr hpp c _
      rw [hfe, hivs] at h2
      obtain ⟨rfl, rfl⟩ := List.cons.inj h2
      refine ⟨a6, ?_, by rw [isSub_congr hpp]; exact htop3s, a7, by rw [isSub_congr hpp]; exact hbot3s⟩
      rw [a4 c (List.nodup_cons.1 hnd).1 (fun h => hbc (by simp [h])), ← hct4]
      simp [ClassTab.putSup, ClassTab.putSub]

/-- C31, for distinct names that do not contain `Top` or `Bottom`: `custom_classes(names, points)`
    returns one new class per name, point classes at the point positions and interval classes elsewhere;
    the interval classes, in order, form a hierarchy between a new top and a new bottom class; nothing
    about earlier classes changes.
    Without the conditions the statement is false (`C31_name_violated`, `C31_repeated_violated`). -/
theorem C31_custom_classes_partial {ct : ClassTab} (hr : ReachC ct) (names : List String)
    (points : List Nat) (hne : names ≠ []) (hnd : names.Nodup)
    (hn : ∀ j nm, names[j]? = some nm → points.contains j = false → PlainName nm) :
    ∃ ct' cs, customClasses ct names points = (ct', .ok cs) ∧ cs.map ct'.name = names ∧ cs.Nodup ∧
      (∀ c ∈ cs, ct.next ≤ c ∧ c < ct'.next) ∧
      (∀ j c, cs[j]? = some c → ct'.isSub c cInterval = !points.contains j ∧
        ct'.isSub c cPoint = points.contains j) ∧
      (∀ ivs, ivs = cs.filter (fun c => ct'.isSub c cInterval) → ivs ≠ [] →
        IsHierarchy ct' ivs ∧ (∀ c t, ivs.head? = some c → ct'.sup c = some t → ct.next ≤ t) ∧
        (∀ c b, ivs.getLast? = some c → ct'.sub c = some b → ct.next ≤ b)) ∧
      ∀ x < ct.next, ct'.name x = ct.name x ∧ ct'.parent x = ct.parent x ∧
        ct'.ownSup x = ct.ownSup x ∧ ct'.ownSub x = ct.ownSub x := by
  have w := hr.wfc
  obtain ⟨ct', e, w', x', n', hnames, hkind, hlink⟩ := customCore_spec w names points hn
  refine ⟨ct', List.range' (ct.next + 2) names.length, ?_, hnames, List.nodup_range', ?_, ?_, ?_, ?_⟩
  · unfold customClasses
    rw [e, CRes.bind_ok]
    cases names with
    | nil => exact absurd rfl hne
    | cons nm names =>
      simp only []
      rw [orderByName_self (nm :: names) _ hnd (by simp)]
  · intro c hc
    rw [List.mem_range'_1] at hc
    exact ⟨by unfold CRef at *; omega, by rw [n']; unfold CRef at *; omega⟩
  · intro j c hc
    obtain ⟨hj, rfl⟩ := List.getElem?_eq_some_iff.1 hc
    rw [List.getElem_range', Nat.one_mul]
    exact hkind j (by simpa using hj)
  · intro ivs hivs hivne
    cases ivs with
    | nil => exact absurd rfl hivne
    | cons c r =>
      obtain ⟨hd, ht, hts, hb, hbs⟩ := hlink c r hivs.symm
      obtain ⟨k1, k2⟩ := links_of_downO _ hd
      refine ⟨⟨by simp, ?_, ?_, ?_, k1, k2⟩, ?_, ?_⟩
      · rw [hivs]; exact List.Pairwise.filter _ List.nodup_range'
      · intro x hx
        have := hd.fit x hx
        exact ⟨this.1, this.2.1, this.2.2.1, this.2.2.2.1⟩
      · intro x hx
        have : c = x := by simpa using hx
        subst this
        exact ⟨_, sup_own ht, hts⟩
      · intro x t hx hxt
        have : c = x := by simpa using hx
        subst this
        rw [sup_own ht] at hxt
        exact (Option.some.inj hxt) ▸ Nat.le_refl _
      · intro x b hx hxb
        have : (c :: r).getLast (by simp) = x := by
          rw [List.getLast?_eq_some_getLast (by simp)] at hx
          exact Option.some.inj hx
        subst this
        rw [sub_own hb] at hxb
        exact (Option.some.inj hxb) ▸ Nat.le_succ _
  · intro x hx
    exact ⟨x'.name x hx, x'.parent x hx, x'.ownSup x hx, x'.ownSub x hx⟩

/-- The hypotheses of `C31_custom_classes_partial` hold for three intervals and a point class. -/
example : ∃ ct' cs, customClasses baseClasses ["Utt", "Word", "Peak", "Phone"] [2] = (ct', .ok cs) ∧
    cs.map ct'.name = ["Utt", "Word", "Peak", "Phone"] := by
  obtain ⟨ct', cs, h1, h2, _⟩ := C31_custom_classes_partial .base ["Utt", "Word", "Peak", "Phone"] [2]
    (by decide) (by decide) (by
      intro j nm h _
      have : nm ∈ ["Utt", "Word", "Peak", "Phone"] := List.mem_of_getElem? h
      revert this
      have : ∀ nm ∈ ["Utt", "Word", "Peak", "Phone"], PlainName nm := by decide +kernel
      exact this nm)
  exact ⟨ct', cs, h1, h2⟩

/-- C31 fails for a name that contains `Top`: in `custom_classes(["Utterance", "Topic"])` the second
    class has no superset class. -/
theorem C31_name_violated :
    (customClasses baseClasses ["Utterance", "Topic"] []).2 = .ok [11, 12] ∧
      (customClasses baseClasses ["Utterance", "Topic"] []).1.sup 12 = none := by decide +kernel

/-- C31 fails for a repeated name: one of the two classes is returned twice, so the second returned
    class is not the subset class of the first. -/
theorem C31_repeated_violated :
    (customClasses baseClasses ["A", "A"] []).2 = .ok [11, 11] ∧
      (customClasses baseClasses ["A", "A"] []).1.sub 11 = some 12 := by decide +kernel

/-- C31, the empty list: `custom_classes([])` raises `IndexError` (`return_order[0]`). -/
theorem C31_empty (ct : ClassTab) (points : List Nat) :
    (customClasses ct [] points).2 = .error .indexError := by
  simp [customClasses, customClassesCore, mkCustom, CRes.bind]

/-! ## C32 -/

/-- C32 fails for names in an order that is not its own inverse: asked for `[B, C, A]`, the function
    returns the classes named `[C, A, B]`. -/
theorem C32_names_violated :
    ∃ ct cs, customClassesNamed baseClasses ["A", "B", "C"] ["B", "C", "A"] [] = (ct, .ok cs) ∧
      cs.map ct.name = ["C", "A", "B"] := by
  refine ⟨(customClassesNamed baseClasses ["A", "B", "C"] ["B", "C", "A"] []).1, [13, 11, 12],
    Prod.ext rfl ?_, ?_⟩ <;> decide +kernel

/-- C32 for names, in general, for distinct names that do not contain `Top` or `Bottom`: the class
    returned at the position of `x` in `class_list` is the one created at the position of `x` in
    `return_order`. So the order asked for is met exactly when the permutation is its own inverse. -/
theorem C32_names_partial {ct : ClassTab} (hr : ReachC ct) (names order : List String)
    (points : List Nat) (hnd : names.Nodup) (hperm : order.Perm names) (hne : names ≠ [])
    (hn : ∀ nm ∈ names, PlainName nm) :
    ∃ ct' cs, customClassesNamed ct names order points = (ct', .ok cs) ∧ cs.length = names.length ∧
      (∀ (i j : Nat) (x : String), names[j]? = some x → order[i]? = some x →
        (cs.map ct'.name)[j]? = names[i]?) ∧
      (cs.map ct'.name = order ↔
        ∀ (i j : Nat) (x : String), names[j]? = some x → order[i]? = some x → names[i]? = order[j]?) := by
  obtain ⟨ct', e, w', x', n', hnames, hkind, hlink⟩ := customCore_spec hr.wfc names points
    (fun j nm h _ => hn nm (List.mem_of_getElem? h))
  generalize List.range' (ct.next + 2) names.length = out at e hnames hlink
  have hol : out.length = names.length := by
    have := congrArg List.length hnames; simpa using this
  have hond : order.Nodup := hperm.nodup_iff.2 hnd
  have hlen : order.length = names.length := hperm.length_eq
  have hidx : ∀ x ∈ names, ∃ i c, order.findIdx? (· == x) = some i ∧ out[i]? = some c ∧
      order[i]? = some x := by
    intro x hx
    have hxo : x ∈ order := hperm.mem_iff.2 hx
    cases h : order.findIdx? (· == x) with
    | none =>
      rw [List.findIdx?_eq_none_iff] at h
      have := h x hxo
      simp at this
    | some i =>
      obtain ⟨hi, hxi, _⟩ := List.findIdx?_eq_some_iff_getElem.1 h
      have hio : i < out.length := by omega
      exact ⟨i, out[i], rfl, List.getElem?_eq_getElem hio, by
        rw [List.getElem?_eq_getElem hi]; simpa using hxi⟩
  have hex : ∃ cs, orderByName names out order = .ok cs := by
    unfold orderByName
    refine mapM_exists_ok _ _ ?_
    intro x hx
    obtain ⟨i, c, h1, h2, _⟩ := hidx x hx
    exact ⟨c, by simp [h1, h2]⟩
  obtain ⟨cs, hcs⟩ := hex
  have hmap := hcs
  unfold orderByName at hmap
  rw [mapM_ok_iff] at hmap
  have hcl : cs.length = names.length := by
    have := congrArg List.length hmap; simpa using this.symm
  have key : ∀ (i j : Nat) (x : String), names[j]? = some x → order[i]? = some x →
      (cs.map ct'.name)[j]? = names[i]? := by
    intro i j x hj hi
    obtain ⟨k, c, h1, h2, h3⟩ := hidx x (List.mem_of_getElem? hj)
    have hk : k = i := by
      obtain ⟨hk', ek⟩ := List.getElem?_eq_some_iff.1 h3
      obtain ⟨hi', ei⟩ := List.getElem?_eq_some_iff.1 hi
      exact (List.getElem_inj hond (h₀ := hk') (h₁ := hi')).1 (ek.trans ei.symm)
    subst hk
    have hcj : cs[j]? = some c := by
      have := congrArg (fun l => l[j]?) hmap
      simp only [List.getElem?_map, hj, Option.map_some, h1, h2] at this
      cases h : cs[j]? with
      | none => rw [h] at this; simp at this
      | some d => rw [h] at this; simp at this; rw [this]
    rw [List.getElem?_map, hcj, ← hnames, List.getElem?_map, h2]
  refine ⟨ct', cs, ?_, hcl, key, ?_, ?_⟩
  · unfold customClassesNamed
    rw [e, CRes.bind_ok]
    cases order with
    | nil => exact absurd (List.length_eq_zero_iff.1 hlen.symm) hne
    | cons o os => exact congrArg (Prod.mk ct') hcs
  · intro h i j x hj hi
    rw [← key i j x hj hi, h]
  · intro h
    apply List.ext_getElem?
    intro j
    by_cases hj : j < names.length
    · have hx := List.getElem?_eq_getElem hj
      obtain ⟨i, c, _, _, h3⟩ := hidx _ (List.getElem_mem hj)
      rw [key i j _ hx h3, h i j _ hx h3]
    · rw [List.getElem?_eq_none (by simp; omega), List.getElem?_eq_none (by omega)]

/-- The hypotheses hold for a swap (met) and for a cycle of three (not met). -/
example : (∃ ct' cs, customClassesNamed baseClasses ["A", "B"] ["B", "A"] [] = (ct', .ok cs) ∧
    cs.map ct'.name = ["B", "A"]) := by
  obtain ⟨ct', cs, h1, _, _, h2⟩ := C32_names_partial .base ["A", "B"] ["B", "A"] [] (by decide)
    (by decide) (by decide) (by decide +kernel)
  refine ⟨ct', cs, h1, h2.2 ?_⟩
  intro i j x hj hi
  match i, j with
  | 0, 0 => simp at hj hi; simp [← hj] at hi
  | 0, 1 => rfl
  | 1, 0 => rfl
  | 1, 1 => simp at hj hi; simp [← hj] at hi
  | _ + 2, _ => simp at hi
  | _, _ + 2 => simp at hj

/-- C32 for indices: the `j`-th returned class is the one created for `class_list[return_order[j]]`. -/
theorem C32_indices {ct : ClassTab} (hr : ReachC ct) (names : List String) (order points : List Nat)
    (hne : order ≠ []) (hlt : ∀ i ∈ order, i < names.length)
    (hn : ∀ j nm, names[j]? = some nm → points.contains j = false → PlainName nm) :
    ∃ ct' cs, customClassesIdx ct names order points = (ct', .ok cs) ∧
      cs.map (fun c => some (ct'.name c)) = order.map (fun i => names[i]?) := by
  obtain ⟨ct', e, w', x', n', hnames, hkind, hlink⟩ := customCore_spec hr.wfc names points hn
  generalize List.range' (ct.next + 2) names.length = out at e hnames hlink
  have hol : out.length = names.length := by
    have := congrArg List.length hnames; simpa using this
  have hex : ∃ cs, orderByIdx out order = .ok cs := by
    unfold orderByIdx
    refine mapM_exists_ok _ _ ?_
    intro i hi
    have hio : i < out.length := by rw [hol]; exact hlt i hi
    exact ⟨out[i], by simp [List.getElem?_eq_getElem hio]⟩
  obtain ⟨cs, hcs⟩ := hex
  have hmap := hcs
  unfold orderByIdx at hmap
  rw [mapM_ok_iff] at hmap
  refine ⟨ct', cs, ?_, ?_⟩
  · unfold customClassesIdx
    rw [e, CRes.bind_ok]
    cases order with
    | nil => exact absurd rfl hne
    | cons o os => exact congrArg (Prod.mk ct') hcs
  · apply List.ext_getElem?
    intro j
    have := congrArg (fun l => l[j]?) hmap
    simp only [List.getElem?_map] at this ⊢
    cases ho : order[j]? with
    | none =>
      rw [ho] at this
      cases hc : cs[j]? with
      | none => rfl
      | some d => rw [hc] at this; simp at this
    | some i =>
      have hio : i < out.length := by rw [hol]; exact hlt i (List.mem_of_getElem? ho)
      rw [ho] at this
      cases hc : cs[j]? with
      | none => rw [hc] at this; simp at this
      | some d =>
        rw [hc] at this
        simp only [Option.map_some, List.getElem?_eq_getElem hio, Option.some.injEq,
          Except.ok.injEq] at this
        subst this
        simp only [Option.map_some, ← hnames, List.getElem?_map, List.getElem?_eq_getElem hio]

example : ∃ ct' cs, customClassesIdx baseClasses ["A", "B", "C"] [1, 2, 0] [] = (ct', .ok cs) ∧
    cs.map (fun c => some (ct'.name c)) = [some "B", some "C", some "A"] := by
  obtain ⟨ct', cs, h1, h2⟩ := C32_indices .base ["A", "B", "C"] [1, 2, 0] [] (by decide) (by decide) (by
    intro j nm h _
    have : ∀ nm ∈ ["A", "B", "C"], PlainName nm := by decide +kernel
    exact this nm (List.mem_of_getElem? h))
  exact ⟨ct', cs, h1, h2⟩

end ATG
