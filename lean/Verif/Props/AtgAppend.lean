import Verif.Lemmas.AtgOf
import Verif.Props.TgGroups
import Verif.Props.TgImport
/-!
# C81: what appending groups to a textgrid, and making a textgrid of groups, does

`AlignedTextGrid.append` (`aligned_textgrid.py:406-457`) gives the tiers of the new group the textgrid's own classes:
copies of the group's classes, or the copies it already has of classes of the same names.
-/
namespace ATG

/-- C81 (partial: interval groups whose classes are a complete hierarchy and whose tiers are aligned and not empty, and
    class names which the textgrid either has all, in the same hierarchy, or does not have at all; outside see
    `C81_names_violated`). `AlignedTextGrid.append(g)` puts the group last and leaves the other groups, all entries, times
    and labels as they are; the tiers of the group are relabelled with classes of the same names, and are related as before
    (`GapGrid`). These classes are those that the textgrid used for an earlier group, if the names are the same, and
    otherwise new ones. -/
theorem C81_append_partial (h : Heap) (a : ARef) (g : GRef) (gs : List GRef) (Ls : List (List CRef)) (w : WFC h.ct)
    (gr : GapGrid h gs) (hg : g ∈ gs) (pl : ∀ k ∈ gs, Seated h (h.gtiers k))
    (hne : ∀ t ∈ h.gtiers g, (h.tseq t).vals ≠ []) (hcl : h.acloned a = Ls.flatten) (gc : GoodClasses h.ct Ls)
    (plain : ∀ n ∈ classNames h g, PlainName n) (nm : (classNames h g).Nodup)
    (compat : ∀ L ∈ Ls, ∀ d ∈ L, h.ct.name d ∈ classNames h g → L.map h.ct.name = classNames h g) :
    ∃ h' K, atgAppend a g h = .ok () h' ∧ Joined h h' a g K ∧ GapGrid h' gs ∧ (∀ k ∈ gs, Seated h' (h'.gtiers k)) ∧
      WFC h'.ct ∧ Ext h.ct h'.ct ∧ GoodClasses h'.ct (Ls ++ [K]) ∧
      (K ∈ Ls ∧ h'.ct = h.ct ∨ (∀ c ∈ K, h.ct.next ≤ c) ∧ ∀ d ∈ Ls.flatten, h.ct.name d ∉ classNames h g) :=
  atgAppend_run w gr hg pl hne hcl gc plain nm compat

/-- C81 (partial as `C81_append_partial`: two groups that share a class name have the same class names). A textgrid made of
    groups has these groups in this order. No entry, time or label differs; each group keeps its tiers, its class names
    and its relations. All classes are new, each tier is named after its class, and classes of the same name, in
    whatever groups, are the same class. -/
theorem C81_construct_partial (h : Heap) (gs : List GRef) (w : WFC h.ct) (gr : GapGrid h gs)
    (pl : ∀ k ∈ gs, Seated h (h.gtiers k)) (hne : ∀ g ∈ gs, ∀ t ∈ h.gtiers g, (h.tseq t).vals ≠ [])
    (plain : ∀ g ∈ gs, ∀ n ∈ classNames h g, PlainName n) (nm : ∀ g ∈ gs, (classNames h g).Nodup)
    (compat : ∀ g ∈ gs, ∀ k ∈ gs, ∀ n ∈ classNames h k, n ∈ classNames h g → classNames h k = classNames h g) :
    ∃ h', newAtgOf gs h = .ok h.nA h' ∧ h'.agroups h.nA = gs ∧ (∀ g ∈ gs, h'.gwithin g = some h.nA) ∧ h'.acont h.nA = gs ∧
      GapGrid h' gs ∧ (∀ g ∈ gs, Seated h' (h'.gtiers g)) ∧ h'.gtiers = h.gtiers ∧
      (∀ t, (h'.tseq t).vals = (h.tseq t).vals) ∧ h'.start = h.start ∧ h'.stop = h.stop ∧ h'.label = h.label ∧
      (∀ g ∈ gs, classNames h' g = classNames h g) ∧
      (∀ g ∈ gs, ∀ t ∈ h.gtiers g, h.ct.next ≤ h'.tcls t ∧ h'.tcls t ∈ h'.acloned h.nA ∧ h'.tname t = h'.ct.name (h'.tcls t)) ∧
      (∀ g ∈ gs, ∀ t ∈ h.gtiers g, ∀ k ∈ gs, ∀ u ∈ h.gtiers k, h'.ct.name (h'.tcls t) = h'.ct.name (h'.tcls u) →
        h'.tcls t = h'.tcls u) := by
  obtain ⟨h', Ls, e, J, q1, q2⟩ := newAtgOf_run w gr pl hne plain nm compat
  have hm : ∀ g ∈ gs, ∀ t ∈ h.gtiers g, h'.tcls t ∈ Ls.flatten := fun g hg t ht =>
    List.mem_flatten.mpr ⟨_, (J.cast g hg).1, List.mem_map_of_mem ht⟩
  refine ⟨h', e, J.groups, q1, q2, J.grid, J.placed, J.gtiers, J.vals, J.start, J.stop, J.label, J.names, ?_, ?_⟩
  · intro g hg t ht
    exact ⟨J.fresh _ (hm g hg t ht), by rw [J.cloned]; exact hm g hg t ht, (J.cast g hg).2 t ht⟩
  · intro g hg t ht k hk u hu en
    exact J.good.names _ (hm g hg t ht) _ (hm k hk u hu) en

/-! ## A case that meets the hypotheses: two groups of words and phones, with gaps, made into a textgrid -/

theorem exGridTiers_placed {h : Heap} (s : SameContents exGridTiers h) (g0 : h.gtiers 0 = [0, 1]) (g1 : h.gtiers 1 = [2, 3])
    (u1 : h.tsup = exGridTiers.tsup) (u2 : h.tsub = exGridTiers.tsub) : WFC h.ct ∧
    ∀ k ∈ [0, 1], Seated h (h.gtiers k) ∧ classNames h k = ["Word", "Phone"] ∧ ∀ t ∈ h.gtiers k, (h.tseq t).vals ≠ [] := by
  have hl : IsHierarchy exGridTiers.ct [cWord, cPhone] := isHierarchy_of_check (by decide) (by decide) (by decide +kernel)
    (by decide +kernel) (by decide +kernel) (by decide +kernel)
  refine ⟨by rw [s.ct]; exact wfc_of_check (by decide +kernel), fun k hk => ?_⟩
  have hk : k = 0 ∨ k = 1 := by simpa using hk
  have : h.gtiers k = [0, 1] ∨ h.gtiers k = [2, 3] := by rcases hk with rfl | rfl <;> simp [g0, g1]
  refine ⟨?_, ?_, ?_⟩
  · constructor
    · rw [s.ct, s.tcls]
      rcases this with e | e <;> (rw [e]; exact hl)
    · rw [s.ct, s.tcls, u1]
      rcases this with e | e <;> (rw [e]; decide +kernel)
    · rw [s.ct, s.tcls, u2]
      rcases this with e | e <;> (rw [e]; decide +kernel)
  · unfold classNames
    rw [s.ct, s.tcls]
    rcases this with e | e <;> (rw [e]; decide +kernel)
  · rw [s.tseq]
    rcases this with e | e <;> (rw [e]; decide)

example : ∃ h h', (do let _ ← newGroup [0, 1]; newGroup [2, 3] : M GRef) exGridTiers = .ok 1 h ∧
    newAtgOf [0, 1] h = .ok 1 h' ∧ h'.agroups 1 = [0, 1] ∧ h'.tcls 0 = h'.tcls 2 ∧ h'.tname 0 = "Word" ∧
      h'.tcls 0 ≠ cWord ∧ (h'.tseq 1).vals = [3, 4, 5, 6] := by
  obtain ⟨h, e, gr, ha, s, g0, g1, u1, u2, u3⟩ := exGridTiers_grid
  obtain ⟨w, q⟩ := exGridTiers_placed s g0 g1 u1 u2
  obtain ⟨h', e', q1, -, -, -, -, hgt, q2, -, -, -, q3, q4, q5⟩ := C81_construct_partial h [0, 1] w gr
    (fun k hk => (q k hk).1) (fun k hk => (q k hk).2.2)
    (fun k hk => by rw [(q k hk).2.1]; decide +kernel) (fun k hk => by rw [(q k hk).2.1]; decide)
    (fun k hk l hl _ _ _ => by rw [(q k hk).2.1, (q l hl).2.1])
  rw [u3] at e' q1
  have n0 : classNames h' 0 = ["Word", "Phone"] := (q3 0 (by simp)).trans (q 0 (by simp)).2.1
  have n1 : classNames h' 1 = ["Word", "Phone"] := (q3 1 (by simp)).trans (q 1 (by simp)).2.1
  have c0 : h'.ct.name (h'.tcls 0) = "Word" := by
    unfold classNames at n0
    rw [hgt, g0] at n0
    exact List.head_eq_of_cons_eq n0
  have c2 : h'.ct.name (h'.tcls 2) = "Word" := by
    unfold classNames at n1
    rw [hgt, g1] at n1
    exact List.head_eq_of_cons_eq n1
  obtain ⟨r1, -, r2⟩ := q4 0 (by simp) 0 (by rw [g0]; simp)
  refine ⟨h, h', e, e', q1, ?_, r2.trans c0, ?_, ?_⟩
  · exact q5 0 (by simp) 0 (by rw [g0]; simp) 1 (by simp) 2 (by rw [g1]; simp) (c0.trans c2.symm)
  · intro ec
    rw [ec, s.ct] at r1
    revert r1
    decide
  · rw [q2, s.tseq]
    rfl

/-! ## Where it fails -/

/-- words and phones with names of their own, and a second group with two further classes -/
def exTwo (upper lower : String) : M Unit := do
  let t ← newTierFrom [(0, 2, "w"), (2, 3, "v")] cWord "KY - words"
  let u ← newTierFrom [(0, 1, "a"), (1, 2, "b"), (2, 3, "c")] cPhone "KY - phones"
  let g ← newGroup [t, u]
  let cs ← liftC fun ct => customClasses ct [upper, lower] []
  let t ← newTierFrom [(0, 3, "x")] (cs.getD 0 0) "U"
  let u ← newTierFrom [(0, 2, "y"), (2, 3, "z")] (cs.getD 1 0) "W"
  let k ← newGroup [t, u]
  let _ ← newAtgOf [g, k]
  pure ()

/-- C81 fails for names shared by different hierarchies: with `Utterance > Word` beside `Word > Phone` the second group's
    word tier (two intervals) gets the class of the first group's words, does not fit below `Utterance` and
    is lost without an error; with `Word > Syllable` there is an error. -/
theorem C81_names_violated :
    (let h := run0 (exTwo "Utterance" "Word")
     h.agroups 0 = [0, 1] ∧ h.gtiers 0 = [0, 1] ∧ h.gtiers 1 = [2] ∧ (h.tseq 3).vals.map h.label = ["y", "z"] ∧
       h.tcls 3 = h.tcls 0 ∧ h.sup 6 = none ∧ (h.subs 5).vals = []) ∧
    (exTwo "Word" "Syllable" heap0).out = .error .valueError := by decide +kernel

/-- C81 does not keep the names of tiers: a tier called `KY - words` is called `Word` in the textgrid. -/
theorem C81_tier_names_violated :
    (let h := run0 (newTierFrom [(0, 2, "w")] cWord "KY - words"); h.tname 0 = "KY - words") ∧
    (let h := run0 (exTwo "Utterance" "Syllable"); h.gtiers 0 = [0, 1] ∧ h.tname 0 = "Word" ∧ h.tname 1 = "Phone") := by decide +kernel

end ATG
