import Verif.Lemmas.Kinds
import Verif.Lemmas.Reclone
import Verif.Props.TgPoints
/-!
# C88: the groups of an imported textgrid, whatever its tiers hold
-/
namespace ATG

/-- **C88.** Whatever tiers and classes `AlignedTextGrid(textgrid, classes)` is given (gaps, overlaps, unaligned or
    empty tiers, incomplete hierarchies, lists with classes of both kinds): if it succeeds, then each list of tiers
    has become a group of interval tiers, if there are any, followed by a group of all its point tiers, in
    order, if there are any. Every tier has its name and a class named like the class given for it, which is one of the textgrid's
    own; tiers of points have classes of points and the others do not. There is at least one interval group, and the
    groups of all other textgrids are the same as before. -/
theorem C88_import (h h' : Heap) (tiers : List PTier) (arg : ClassArg) (a : ARef) (e : newAtg tiers arg h = .ok a h') :
    ∃ (tss : List (List PTier)) (css css' : List (List CRef)) (gss : List (List GRef)), nestify h.ct tiers arg = .ok (tss, css) ∧
      css'.map (List.map h'.ct.name) = css.map (List.map h'.ct.name) ∧ (∀ cs ∈ css', ∀ c ∈ cs, c ∈ h'.acloned a) ∧
      h'.agroups a = gss.flatten ∧ gss.length = (tss.zip css').length ∧
      (∀ (i : Nat) ts cs gs, tss[i]? = some ts → css'[i]? = some cs → gss[i]? = some gs → MadeOf h' h'.ct (ts.zip cs) gs) ∧
      (∃ g ∈ h'.agroups a, h'.gpoint g = false) ∧ a = h.nA ∧ ∀ b, b ≠ a → h'.agroups b = h.agroups b := by
  unfold newAtg at e
  rw [M.bind_ok (show newAtgObj h = .ok h.nA _ from rfl), M.bind_ok (M.get_apply _)] at e
  cases hn : nestify h.ct tiers arg with
  | error x =>
    rw [hn] at e
    cases e
  | ok q =>
    obtain ⟨tss, css⟩ := q
    rw [hn] at e
    rw [M.bind_ok (show liftE (.ok (tss, css)) _ = .ok (tss, css) _ from rfl)] at e
    simp only [] at e
    rw [M.bind_apply] at e
    unfold relateTiers recloneA at e
    -- the classes
    rw [M.bind_apply, M.bind_ok (M.get_apply _), M.bind_apply] at e
    unfold liftC at e
    simp only [upd_same] at e
    rcases hrc : reclone [] h.ct css.flatten with ⟨ct1, r⟩
    rw [hrc] at e
    cases r with
    | error x => simp only [] at e; cases e
    | ok new =>
      simp only [M.modify_apply] at e
      rw [M.bind_ok (M.get_apply _), M.bind_apply] at e
      simp only [upd_same, List.nil_append] at e
      cases hsw : css.mapM (fun l => swapClasses ct1 l new) with
      | error x => rw [hsw] at e; cases e
      | ok css' =>
        rw [hsw] at e
        rw [show ∀ k, liftE (.ok css') k = .ok css' k from fun _ => rfl] at e
        simp only [] at e
        revert e
        generalize ek : ({ h with
            ct := ct1
            nA := h.nA + 1
            agroups := upd h.agroups h.nA []
            acont := upd h.acont h.nA []
            acloned := upd (upd h.acloned h.nA []) h.nA new } : Heap) = k
        intro e
        cases eb : buildGroups (tss.zip css') k with
        | err x z => rw [eb] at e; cases e
        | ok gs k1 =>
          rw [eb] at e
          simp only [] at e
          obtain ⟨o, gss, hgs, hlen, made⟩ := buildGroups_kinds _ k k1 gs eb
          have o0 := o 0 0 (Nat.zero_le _) (Nat.zero_le _)
          -- the groups of the textgrid
          have hset : ∃ k2, setGroups h.nA gs k1 = .ok () k2 ∧ k2.agroups = upd k1.agroups h.nA gs ∧
              k2 = { k1 with agroups := k2.agroups, acont := k2.acont, gwithin := k2.gwithin } := by
            cases gs with
            | nil =>
              refine ⟨k1, rfl, ?_, rfl⟩
              rw [upd_eq_self]
              rw [o0.agroups, ← ek]
              exact upd_same _ _ _
            | cons g gs' =>
              obtain ⟨k2, e2, f⟩ := setContainsA_only h.nA { k1 with agroups := upd k1.agroups h.nA (g :: gs') }
              refine ⟨k2, ?_, by rw [f], by rw [f]⟩
              unfold setGroups
              mstep M.modify_apply _ k1
              exact e2
          obtain ⟨k2, e2, hg2, f2⟩ := hset
          rw [M.bind_ok e2, M.bind_apply] at e
          have t3 := Trims.atgCleanup h.nA k2
          cases e3 : atgCleanup h.nA k2 with
          | err x z => rw [e3] at e; cases e
          | ok u k3 =>
            rw [e3] at e t3
            replace t3 : Trims k2 k3 := t3
            simp only [] at e
            obtain ⟨k4, e4, r4⟩ := setContainsA_only h.nA k3
            rw [M.bind_ok e4] at e
            cases e
            have c4 : h'.ct = k.ct := by rw [r4, t3.ct, f2, o0.ct]
            have cl4 : h'.acloned h.nA = new := by
              rw [r4]
              show k3.acloned h.nA = new
              rw [t3.acloned, f2]
              show k1.acloned h.nA = new
              rw [o0.acloned, ← ek]
              exact upd_same _ _ _
            have ag4 : h'.agroups = upd k1.agroups h.nA gs := by
              rw [r4]
              show k3.agroups = _
              rw [t3.agroups, hg2]
            have kct : k.ct = ct1 := by rw [← ek]
            refine ⟨tss, css, css', gss, rfl, ?_, ?_, ?_, ?_, ?_, ?_, rfl, ?_⟩
            · rw [c4, kct]
              rw [mapM_ok_iff] at hsw
              apply List.ext_getElem?
              intro i
              have q := congrArg (·[i]?) hsw
              simp only [List.getElem?_map] at q ⊢
              cases h1 : css[i]? with
              | none => rw [h1] at q; cases h2 : css'[i]? with
                | none => rfl
                | some x => rw [h2] at q; simp at q
              | some l =>
                rw [h1] at q
                cases h2 : css'[i]? with
                | none => rw [h2] at q; simp at q
                | some l' =>
                  rw [h2] at q
                  simp only [Option.map_some, Option.some.injEq] at q ⊢
                  exact swapClasses_names q
            · rw [cl4]
              intro cs hcs c hc
              rw [mapM_ok_iff] at hsw
              have : Except.ok cs ∈ css'.map (Except.ok (ε := Err)) := List.mem_map_of_mem hcs
              rw [← hsw] at this
              obtain ⟨l, -, hl⟩ := List.mem_map.mp this
              exact List.mem_of_find?_eq_some (swapClasses_first hl c hc)
            · rw [ag4, upd_same, hgs]
            · exact hlen
            · intro i ts cs gs' h1 h2 h3
              have md := made i (ts, cs) gs' (by rw [List.getElem?_zip_eq_some]; exact ⟨h1, h2⟩) h3
              rw [c4]
              have md2 : MadeOf k2 k.ct (ts.zip cs) gs' := by
                rw [f2]
                exact ⟨md.kinds, md.points, md.intervals, md.tiers, md.groups, md.fit⟩
              have md3 := md2.trims t3
              rw [r4]
              exact ⟨md3.kinds, md3.points, md3.intervals, md3.tiers, md3.groups, md3.fit⟩
            · by_cases hall : ∀ g ∈ k2.agroups h.nA, k2.gpoint g = true
              · rw [C83_only_points_violated k2 h.nA hall] at e3
                cases e3
              · obtain ⟨g, hg⟩ := Classical.not_forall.mp hall
                obtain ⟨hg1, hg2'⟩ := Classical.not_imp.mp hg
                refine ⟨g, ?_, ?_⟩
                · rw [ag4, ← hg2]; exact hg1
                · rw [show h'.gpoint = k3.gpoint by rw [r4], t3.gpoint]
                  simpa using hg2'
            · intro b hb
              rw [ag4, upd_ne _ _ _ _ hb, o0.agroups, ← ek]
              exact upd_ne _ _ _ _ hb

/-- C88: cleaning up a textgrid never changes which groups there are, of which kind they are, what classes and names the tiers
    have or which tiers the groups of points have, and gives no group a new tier; also when it raises. -/
theorem C88_cleanup (h : Heap) (a : ARef) :
    let h' := (atgCleanup a h).heap
    h'.agroups = h.agroups ∧ h'.gpoint = h.gpoint ∧ h'.tcls = h.tcls ∧ h'.tname = h.tname ∧ h'.ct = h.ct ∧
      (∀ g, h.gpoint g = true → h'.gtiers g = h.gtiers g) ∧ ∀ g, ∀ t ∈ h'.gtiers g, t ∈ h.gtiers g := by
  have t := Trims.atgCleanup a h
  exact ⟨t.agroups, t.gpoint, t.tcls, t.tname, t.ct, t.points, t.sub⟩

/-- C88: a flat list with a class of points raises `AttributeError`, whatever the tiers are: such a class has no
    `superset_class`. Classes of points have to be given in nested lists. -/
theorem C88_flat_points (h : Heap) (tiers : List PTier) (l : List CRef) (c : CRef) (hc : c ∈ l)
    (hp : h.ct.isSub c cPoint = true) : (newAtg tiers (.flat l) h).out = .error .attributeError := by
  have ht : topIdxes h.ct l = .error .attributeError := if_pos (List.any_eq_true.mpr ⟨c, hc, hp⟩)
  have hn : nestify h.ct tiers (.flat l) = .error .attributeError := by
    unfold nestify extendClasses
    cases l with
    | nil => cases hc
    | cons d l => simp only []; rw [ht]
  unfold newAtg
  rw [M.bind_ok (show newAtgObj h = .ok h.nA _ from rfl), M.bind_ok (M.get_apply _)]
  rw [show nestify _ tiers (.flat l) = nestify h.ct tiers (.flat l) from rfl, hn]
  rfl

/-- words, tones and notes, phones: one list of classes of both kinds -/
def exBoth : List PTier :=
  [("words", [(0, 1, "x"), (1, 2, "z")]), ("tones", [(1, 1, "H")]), ("phones", [(0, 1, "y")]), ("notes", [])]

/-- an import with classes of both kinds in one list, to which `C88_import` applies -/
example : (match newAtg exBoth (.nested [[cWord, cPoint, cPhone, cPoint]]) heap0 with
    | .ok a h => some ((h.agroups a).map fun g => (h.gpoint g, (h.gtiers g).map fun t => (h.tname t, h.ct.name (h.tcls t))))
    | .err _ _ => none) =
    some [(false, [("words", "Word"), ("phones", "Phone")]), (true, [("tones", "SequencePoint"), ("notes", "SequencePoint")])] := by
  decide +kernel

/-- C88 says no more about interval groups because tiers may get lost: of two tiers with the same class the second is
    silently dropped. -/
theorem C88_lost_violated : ∃ tiers arg, (match newAtg tiers arg heap0 with
    | .ok a h => some ((h.agroups a).map fun g => (h.gtiers g).map h.tname)
    | .err _ _ => none) = some [["ann"]] ∧ tiers.map (·.1) = ["ann", "bob"] ∧ arg = .nested [[cWord, cWord]] :=
  ⟨[("ann", [(0, 1, "hi")]), ("bob", [(0, 1, "ho")])], .nested [[cWord, cWord]], by decide +kernel, rfl, rfl⟩

/-- C88 speaks of the names of the classes only, because a class of points takes the tiers of an interval class of the same
    name: with a class of points called `Phone`, a textgrid with words, phones and points cannot be imported, and
    an empty tier of phones becomes a group of points. -/
theorem C88_same_name_violated :
    (match (do
        let cs ← liftC fun ct => customClasses ct ["Phone"] [0]
        newAtg [("words", [(0, 1, "hi")]), ("phones", [(0, 1, "HH")]), ("points", [(1, 1, "H")])]
          (.nested [[cWord, cPhone], cs]) : M ARef) heap0 with
      | .ok _ _ => none
      | .err e _ => some e) = some .attributeError ∧
    (match (do
        let cs ← liftC fun ct => customClasses ct ["Phone"] [0]
        newAtg [("words", [(0, 1, "hi")]), ("phones", []), ("points", [(1, 1, "H")])]
          (.nested [[cWord, cPhone], cs]) : M ARef) heap0 with
      | .ok a h => some ((h.agroups a).map fun g => (h.gpoint g, (h.gtiers g).map h.tname))
      | .err _ _ => none) = some [(false, ["words"]), (true, ["phones"]), (true, ["points"])] := by
  decide +kernel

end ATG
