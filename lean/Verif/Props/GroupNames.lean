import Verif.Lemmas.Names
import Verif.Model.Program
/-!
# C77, C78: names of groups and named accessors
-/
namespace ATG

/-- **C77**: the name two tiers have in common is a contiguous part of the names of both. -/
theorem C77_common (a b : List Char) : longestName a b <:+: a ∧ longestName a b <:+: b := by
  obtain ⟨i, j, k, h, e⟩ := longestName_block a b
  refine ⟨e ▸ (List.take_prefix _ _).isInfix.trans (List.drop_suffix _ _).isInfix, ?_⟩
  rw [e, h.2.2]
  exact (List.take_prefix _ _).isInfix.trans (List.drop_suffix _ _).isInfix

/-- **C77**: it is empty exactly if the two names share no character. -/
theorem C77_none (a b : List Char) : longestName a b = [] ↔ ∀ c ∈ a, c ∉ b := by
  constructor
  · intro h c hca hcb
    have h0 := longestName_nil a b h
    obtain ⟨i, hi, ei⟩ := List.mem_iff_getElem.mp hca
    obtain ⟨j, hj, ej⟩ := List.mem_iff_getElem.mp hcb
    have hm := longestMatch_max a b i j
    rw [List.drop_eq_getElem_cons hi, List.drop_eq_getElem_cons hj, ei, ej, commonLen, if_pos rfl] at hm
    omega
  · intro h
    obtain ⟨h1, h2⟩ := C77_common a b
    rw [List.eq_nil_iff_forall_not_mem]
    intro c hc
    exact h c (h1.subset hc) (h2.subset hc)

/-- **C77**: if the names start in the same way with `p`, go on differently (or one ends), and have nothing longer in
    common than `p`, then `p` is the name in common. -/
theorem C77_start (p x y : List Char) (hxy : ∀ c d : Char, x.head? = some c → y.head? = some d → c ≠ d)
    (hmax : ∀ s : List Char, s <:+: p ++ x → s <:+: p ++ y → s.length ≤ p.length) :
    longestName (p ++ x) (p ++ y) = p := by
  have hlen : commonLen (p ++ x) (p ++ y) = p.length := by
    clear hmax
    induction p with
    | nil =>
      cases x with
      | nil => simp [commonLen]
      | cons c cs =>
        cases y with
        | nil => simp [commonLen]
        | cons d ds => simp [commonLen, hxy c d rfl rfl]
    | cons q qs ih => simp [commonLen, ih]
  rw [longestName_start, hlen, List.take_left']
  · rfl
  · intro i j
    rw [hlen]
    have hl := commonLen_le ((p ++ x).drop i) ((p ++ y).drop j)
    have := hmax (((p ++ x).drop i).take (commonLen ((p ++ x).drop i) ((p ++ y).drop j)))
      ((List.take_prefix _ _).isInfix.trans (List.drop_suffix _ _).isInfix)
      (by rw [commonLen_take]; exact (List.take_prefix _ _).isInfix.trans (List.drop_suffix _ _).isInfix)
    rw [List.length_take] at this
    omega

/-- **C77**: two equal names have that name in common, and so do a name and a longer one that starts with it. -/
theorem C77_prefix (p x : List Char) : longestName p (p ++ x) = p ∧ longestName (p ++ x) p = p := by
  constructor
  · have := C77_start p [] x (by simp) (fun s h _ => by simpa using h.length_le)
    simpa using this
  · have := C77_start p x [] (by simp) (fun s _ h => by simpa using h.length_le)
    simpa using this

/-- **C77**: the candidate for the name of a group is a contiguous part of the names of all its tiers. -/
theorem C77_all (t : List Char) (ts : List (List Char)) : ∀ n ∈ t :: ts, ts.foldl longestName t <:+: n := by
  induction ts generalizing t with
  | nil => intro n hn; rw [List.mem_singleton] at hn; subst hn; exact List.infix_refl _
  | cons u us ih =>
    intro n hn
    have h := ih (longestName t u)
    rw [List.foldl_cons]
    have h0 := h _ (List.mem_cons_self ..)
    rcases List.mem_cons.mp hn with rfl | hn
    · exact h0.trans (C77_common _ _).1
    · rcases List.mem_cons.mp hn with rfl | hn
      · exact h0.trans (C77_common _ _).2
      · exact h n (List.mem_cons_of_mem _ hn)

/-- **C77**: the name of a group has at least two characters, all of them letters, digits and `_`; it is made from the
    names of the tiers whenever that gives such a name, and otherwise from the position of the group. -/
theorem C77_name (tiers : List (List Char)) (index : Option Nat) (s : List Char)
    (h : makeName tiers index = .ok (some s)) : 2 ≤ s.length ∧ ∀ c ∈ s, isWord c = true := by
  unfold makeName at h
  cases tiers with
  | nil => cases h
  | cons t ts =>
    dsimp only at h
    by_cases hlen : (tidyName (ts.foldl longestName t)).length > 1
    · rw [if_pos hlen] at h
      injection h with h; injection h with h
      subst h
      refine ⟨hlen, ?_⟩
      intro c hc
      unfold tidyName at hc
      obtain ⟨d, -, rfl⟩ := List.mem_map.mp hc
      by_cases hd : isWord d = true
      · rw [if_pos hd]; exact hd
      · rw [if_neg hd]; decide
    · rw [if_neg hlen] at h
      cases index with
      | none => cases h
      | some i =>
        injection h with h; injection h with h
        subst h
        refine ⟨by simp, ?_⟩
        intro c hc
        rcases List.mem_append.mp hc with hc | hc
        · have key : ∀ c ∈ "group_".toList, isWord c = true := by decide
          exact key c hc
        · have : c.isDigit = true := by
            have e : (toString i).toList = Nat.toDigits 10 i := by simp
            rw [e] at hc
            exact Nat.isDigit_of_mem_toDigits (by decide) (by decide) hc
          simp [isWord, Char.isAlphanum, this]

theorem dropWhile_sep_append {seps w : List Char} (hs : ∀ c ∈ seps, isSep c = true)
    (hw : ∀ c, w.head? = some c → isSep c = false) : (seps ++ w).dropWhile isSep = w := by
  induction seps with
  | nil =>
    cases w with
    | nil => rfl
    | cons c cs => simp [hw c rfl]
  | cons d ds ih =>
    rw [List.cons_append, List.dropWhile_cons_of_pos (hs d (List.mem_cons_self ..))]
    exact ih fun c hc => hs c (List.mem_cons_of_mem _ hc)

/-- **C77**: tiers called by one speaker, separators and their own names (as in `KY25A - words`, `KY25A - phones`)
    make a group that is called like the speaker, if nothing else in the names is as long. -/
theorem C77_speaker (w seps x y : List Char) (index : Option Nat) (hlen : 2 ≤ w.length)
    (hword : ∀ c ∈ w, isWord c = true) (hfirst : ∀ c, w.head? = some c → c ≠ '_')
    (hlast : ∀ c, w.getLast? = some c → c ≠ '_') (hseps : ∀ c ∈ seps, isSep c = true)
    (hxy : ∀ c d : Char, x.head? = some c → y.head? = some d → c ≠ d)
    (hmax : ∀ s : List Char, s <:+: w ++ seps ++ x → s <:+: w ++ seps ++ y → s.length ≤ (w ++ seps).length) :
    makeName [w ++ seps ++ x, w ++ seps ++ y] index = .ok (some w) := by
  have hsep : ∀ c : Char, isWord c = true → c ≠ '_' → isSep c = false := by
    intro c h1 h2
    have hd : c ≠ '-' := by rintro rfl; revert h1; decide
    have hws : c.isWhitespace = false := by
      apply Classical.byContradiction
      intro hw
      have hw : c.isWhitespace = true := by simpa using hw
      have : c = ' ' ∨ c = '\t' ∨ c = '\r' ∨ c = '\n' := by
        simp only [Char.isWhitespace, Bool.or_eq_true, decide_eq_true_eq] at hw
        grind
      rcases this with rfl | rfl | rfl | rfl <;> revert h1 <;> decide
    simp [isSep, hws, h2, hd]
  have htidy : tidyName (w ++ seps) = w := by
    unfold tidyName
    have e1 : (w ++ seps).dropWhile isSep = w ++ seps := by
      cases w with
      | nil => simp at hlen
      | cons c cs =>
        rw [List.cons_append, List.dropWhile_cons_of_neg]
        rw [hsep c (hword c (List.mem_cons_self ..)) (hfirst c rfl)]; simp
    rw [e1, List.reverse_append, dropWhile_sep_append, List.reverse_reverse]
    · have : w.map (fun c => if isWord c = true then c else '_') = w.map id :=
        List.map_congr_left fun c hc => by rw [if_pos (hword c hc)]; rfl
      rw [this, List.map_id]
    · intro c hc; exact hseps c (List.mem_reverse.mp hc)
    · intro c hc
      rw [List.head?_reverse] at hc
      exact hsep c (hword c (List.mem_of_getLast? hc)) (hlast c hc)
  have hf : [w ++ seps ++ y].foldl longestName (w ++ seps ++ x) = w ++ seps := C77_start (w ++ seps) x y hxy hmax
  unfold makeName
  dsimp only
  rw [hf, htidy, if_pos (by omega)]

/-- **C77**: a group of intervals that has a name keeps it when it is related anew. -/
theorem C77_kept (n : List Char) (tiers : List (List Char)) (index : Option Nat) (h : n ≠ []) :
    initName false (some n) tiers index = .ok (some n) := by
  cases n with
  | nil => exact absurd rfl h
  | cons c cs => rfl

/-- **C77, where the code violates it**: a group of points does not keep its name. -/
theorem C77_kept_violated : ∃ (n : List Char) (tiers : List (List Char)), n ≠ [] ∧
    initName true (some n) tiers none ≠ .ok (some n) :=
  ⟨"mine".toList, ["bells".toList], by decide, by decide +kernel⟩

/-- **C77, where the code violates it**: the name in common is not the longest there is: `get_longest_name_string`
    takes the first of the matching blocks. The two names below have ` words` in common, but the block that comes
    first is `A`; so the group has no name, or one made of its position. -/
theorem C77_longest_violated : ∃ a b s : List Char, s <:+: a ∧ s <:+: b ∧ (longestName a b).length < s.length ∧
    makeName [a, b] none = .ok none ∧ makeName [s, s] none = .ok (some (s.drop 1)) :=
  ⟨"A words".toList, "AB words".toList, " words".toList, ⟨"A".toList, [], by decide⟩, ⟨"AB".toList, [], by decide⟩,
    by decide +kernel, by decide +kernel, by decide +kernel⟩

/-- **C77, where the code violates it**: the name depends on the order of the tiers. -/
theorem C77_order_violated : ∃ a b : List Char, makeName [a, b] none ≠ makeName [b, a] none :=
  ⟨"aba".toList, "bab".toList, by decide +kernel⟩

/-- **C77, where the code violates it**: the name need not be one that can be used after a dot, as it may start with a
    digit. -/
theorem C77_identifier_violated : ∃ (tiers : List (List Char)) (c : Char) (s : List Char),
    makeName tiers none = .ok (some (c :: s)) ∧ c.isDigit = true :=
  ⟨["25A - words".toList, "25A - phones".toList], '2', "5A".toList, by decide +kernel, by decide⟩

/-- **C77**: without tiers there is no name: `reduce` raises. -/
theorem C77_no_tiers (index : Option Nat) : makeName [] index = .error .typeError := rfl

/-- no common part is longer than the longest match -/
theorem infix_le_longest {a b s : List Char} (ha : s <:+: a) (hb : s <:+: b) : s.length ≤ (longestMatch a b).2.2 := by
  obtain ⟨p, q, rfl⟩ := ha
  obtain ⟨u, v, hv⟩ := hb
  refine Nat.le_trans (commonLen_ge ((p ++ s ++ q).drop p.length) (b.drop u.length) s.length ?_ ?_ ?_)
    (longestMatch_max _ _ p.length u.length)
  · simp
  · rw [← hv]; simp
  · rw [← hv]; simp

/-- The hypotheses of `C77_start` and `C77_speaker` are met. -/
example : makeName ["KY25A".toList ++ " - ".toList ++ "words".toList, "KY25A".toList ++ " - ".toList ++ "phones".toList]
    none = .ok (some "KY25A".toList) :=
  C77_speaker _ _ _ _ none (by decide) (by decide) (by decide +kernel) (by decide +kernel) (by decide)
    (by rintro c d h1 h2 rfl; simp at h1 h2; rw [← h1] at h2; revert h2; decide) (fun _ h1 h2 => Nat.le_trans (infix_le_longest h1 h2) (by decide +kernel))
example : longestName "KY25A - words".toList "KY25A - phones".toList = "KY25A - ".toList := by decide +kernel
example : makeName ["KY25A - words".toList, "KY25A - phones".toList] (some 0) = .ok (some "KY25A".toList) := by
  decide +kernel
example : makeName ["words".toList, "phones".toList] (some 12) = .ok (some "group_12".toList) := by decide +kernel
example : longestName "qabxcd".toList "abycd".toList = "ab".toList := by decide +kernel
example : longestName "abcabc".toList "bcabca".toList = "bcabc".toList := by decide +kernel
example : longestName "abc".toList "xyz".toList = [] := by decide +kernel

/-! ## Accessors -/

theorem setAttrs_other {α} : ∀ (gs : List (List Char × α)) (attr : List Char → Option α) (n : List Char),
    (∀ g, (n, g) ∉ gs) → setAttrs gs attr n = attr n
  | [], _, _, _ => rfl
  | (m, g) :: rest, attr, n, h => by
    unfold setAttrs
    rw [setAttrs_other rest _ n fun g' hg => h g' (List.mem_cons_of_mem _ hg)]
    rw [if_neg]
    rintro rfl
    exact h g (List.mem_cons_self ..)

theorem setAttrs_mem {α} : ∀ (gs : List (List Char × α)) (attr : List Char → Option α) (n : List Char) (g : α),
    (gs.map (·.1)).Nodup → (n, g) ∈ gs → setAttrs gs attr n = some g
  | [], _, _, _, _, h => by simp at h
  | (m, g') :: rest, attr, n, g, hnd, h => by
    unfold setAttrs
    rw [List.map_cons, List.nodup_cons] at hnd
    rcases List.mem_cons.mp h with h | h
    · injection h with h1 h2
      subst h1 h2
      rw [setAttrs_other]
      · rw [if_pos rfl]
      · intro g' hg
        exact hnd.1 (List.mem_map.mpr ⟨_, hg, rfl⟩)
    · exact setAttrs_mem rest _ n g hnd.2 h

theorem any_dup_iff {α} (gs : List (List Char × α)) :
    (gs.any fun p => decide (1 < (gs.map (·.1)).count p.1)) = true ↔ ¬(gs.map (·.1)).Nodup := by
  rw [List.nodup_iff_count, List.any_eq_true]
  constructor
  · rintro ⟨p, hp, h⟩ hnd
    have := hnd p.1
    simp only [decide_eq_true_eq] at h
    omega
  · intro h
    apply Classical.byContradiction
    intro hn
    apply h
    intro n
    by_cases hm : n ∈ gs.map (·.1)
    · obtain ⟨p, hp, rfl⟩ := List.mem_map.mp hm
      apply Classical.byContradiction
      intro hc
      exact hn ⟨p, hp, by simp only [decide_eq_true_eq]; omega⟩
    · rw [List.count_eq_zero_of_not_mem hm]; omega

/-- **C78**: if the groups of a textgrid have different names then each of them is found under its name, and under
    every other name the textgrid has what it had before. -/
theorem C78_accessors {α} (gs : List (List Char × α)) (attr : List Char → Option α) (hnd : (gs.map (·.1)).Nodup) :
    (∀ n g, (n, g) ∈ gs → setGroupNames gs attr n = some g) ∧
      ∀ n, n ∉ gs.map (·.1) → setGroupNames gs attr n = attr n := by
  have h : ¬(gs.any fun p => decide (1 < (gs.map (·.1)).count p.1)) = true := fun h => (any_dup_iff gs).mp h hnd
  unfold setGroupNames
  rw [if_neg h]
  exact ⟨fun n g hg => setAttrs_mem gs attr n g hnd hg, fun n hn => setAttrs_other gs attr n fun g hg =>
    hn (List.mem_map.mpr ⟨_, hg, rfl⟩)⟩

/-- **C78**: if two groups have the same name then no accessor is set, not even for the groups with names of their
    own. -/
theorem C78_duplicates {α} (gs : List (List Char × α)) (attr : List Char → Option α) (hnd : ¬(gs.map (·.1)).Nodup) :
    setGroupNames gs attr = attr := by
  unfold setGroupNames
  rw [if_pos ((any_dup_iff gs).mpr hnd)]

/-- **C78, where the code violates it**: "named accessors unavailable" is not so when they were set before: a group
    that is no longer called so is still found under its old name, and so is one of two groups with the same name. -/
theorem C78_stale_violated : ∃ (before after : List (List Char × Nat)) (n : List Char) (g : Nat),
    setGroupNames after (setGroupNames before fun _ => none) n = some g ∧ (n, g) ∉ after ∧
      ¬(after.map (·.1)).Nodup :=
  ⟨[("a".toList, 0), ("b".toList, 1)], [("c".toList, 0), ("c".toList, 1)], "a".toList, 0, by decide +kernel, by decide,
    by decide⟩

/-- **C78, where the code violates it**: the same after renaming, with all names different. -/
theorem C78_renamed_violated : ∃ (before after : List (List Char × Nat)) (n : List Char) (g : Nat),
    setGroupNames after (setGroupNames before fun _ => none) n = some g ∧ (n, g) ∉ after ∧
      (after.map (·.1)).Nodup :=
  ⟨[("a".toList, 0)], [("b".toList, 0)], "a".toList, 0, by decide +kernel, by decide, by decide⟩

/-- **C78**: in a grid for PoLaR the group with the ranges is called `RangesTier`, another group with a class of PoLaR
    `Points`, another group with words or phones `Word_Phone`, and the others keep their names. -/
theorem C78_polar_names (ct : ClassTab) (wp ps : List CRef) (rs : CRef) (cs : List CRef) (name : List Char) :
    ((∃ c ∈ cs, ct.isSub c rs = true) → polarName ct wp ps rs cs name = "RangesTier".toList) ∧
    ((∀ c ∈ cs, ct.isSub c rs = false) → (∃ c ∈ cs, ∃ d ∈ ps, ct.isSub c d = true) →
      polarName ct wp ps rs cs name = "Points".toList) ∧
    ((∀ c ∈ cs, ct.isSub c rs = false) → (∀ c ∈ cs, ∀ d ∈ ps, ct.isSub c d = false) →
      (∃ c ∈ cs, ∃ d ∈ wp, ct.isSub c d = true) → polarName ct wp ps rs cs name = "Word_Phone".toList) ∧
    ((∀ c ∈ cs, ct.isSub c rs = false) → (∀ c ∈ cs, ∀ d ∈ ps, ct.isSub c d = false) →
      (∀ c ∈ cs, ∀ d ∈ wp, ct.isSub c d = false) → polarName ct wp ps rs cs name = name) := by
  have y : ∀ ds : List CRef, (∃ c ∈ cs, ∃ d ∈ ds, ct.isSub c d = true) →
      (cs.any fun c => ds.any fun d => ct.isSub c d) = true := by
    rintro ds ⟨c, hc, d, hd, h⟩
    exact List.any_eq_true.mpr ⟨c, hc, List.any_eq_true.mpr ⟨d, hd, h⟩⟩
  have n : ∀ ds : List CRef, (∀ c ∈ cs, ∀ d ∈ ds, ct.isSub c d = false) →
      ¬(cs.any fun c => ds.any fun d => ct.isSub c d) = true := by
    intro ds h h'
    obtain ⟨c, hc, h'⟩ := List.any_eq_true.mp h'
    obtain ⟨d, hd, h'⟩ := List.any_eq_true.mp h'
    rw [h c hc d hd] at h'; cases h'
  have n' : (∀ c ∈ cs, ct.isSub c rs = false) → ¬(cs.any fun c => ct.isSub c rs) = true := by
    intro h h'
    obtain ⟨c, hc, h'⟩ := List.any_eq_true.mp h'
    rw [h c hc] at h'; cases h'
  unfold polarName
  dsimp only
  refine ⟨?_, ?_, ?_, ?_⟩
  · rintro ⟨c, hc, h⟩
    rw [if_pos (List.any_eq_true.mpr ⟨c, hc, h⟩)]
  · intro h1 h2
    rw [if_neg (n' h1), if_pos (y ps h2)]
  · intro h1 h2 h3
    rw [if_neg (n' h1), if_neg (n ps h2), if_pos (y wp h3)]
  · intro h1 h2 h3
    rw [if_neg (n' h1), if_neg (n ps h2), if_neg (n wp h3)]

/-- **C78, where the code violates it**: the groups of two speakers in a grid for PoLaR, with names of their own, get
    the same name; then no group has an accessor. -/
theorem C78_speakers_violated : ∃ (ct : ClassTab) (gs : List (List Char × List CRef)),
    (gs.map (·.1)).Nodup ∧
      ∀ (ps : List CRef) (rs : CRef), (∀ g ∈ gs, ∀ c ∈ g.2, ct.isSub c rs = false ∧ ∀ d ∈ ps, ct.isSub c d = false) →
        ∀ (attr : List Char → Option (List CRef)),
          setGroupNames (gs.map fun g => (polarName ct [cWord, cPhone] ps rs g.2 g.1, g.2)) attr = attr := by
  refine ⟨baseClasses, [("A".toList, [cWord, cPhone]), ("B".toList, [cWord, cPhone])], by decide, ?_⟩
  intro ps rs h attr
  apply C78_duplicates
  have e : ∀ n : List Char, polarName baseClasses [cWord, cPhone] ps rs [cWord, cPhone] n = "Word_Phone".toList := by
    intro n
    exact (C78_polar_names baseClasses [cWord, cPhone] ps rs [cWord, cPhone] n).2.2.1
      (fun c hc => (h _ (List.mem_cons_self ..) c hc).1) (fun c hc => (h _ (List.mem_cons_self ..) c hc).2)
      ⟨cWord, by simp, cWord, by simp, by decide⟩
  simp [e]

example : setGroupNames [("KY25A".toList, 0), ("IVR".toList, 1)] (fun _ => none) "IVR".toList = some 1 := by
  decide +kernel

end ATG
