import Verif.Lemmas.BookInv
import Verif.Lemmas.Reclone
import Verif.Spec.Draft
/-!
# Popping a class keeps a textgrid editable
-/
namespace ATG

/-- the groups have only a tier of the class: none stays -/
theorem popGroups_dropped (name : String) : ∀ (gs : List GRef) (h : Heap),
    (∀ g ∈ gs, (h.gtiers g).map (fun t => h.ct.name (h.tcls t)) = [name]) → popGroups name gs h = .ok [] h
  | [], _, _ => rfl
  | g :: gs, h, hg => by
    rw [popGroups]
    mstep M.get_apply h
    rw [hg g (by simp)]
    simpa using popGroups_dropped name gs h (fun g' hg' => hg g' (by simp [hg']))

/-- no group has a tier of the class: all stay -/
theorem popGroups_without (name : String) : ∀ (gs : List GRef) (h : Heap),
    (∀ g ∈ gs, name ∉ (h.gtiers g).map (fun t => h.ct.name (h.tcls t))) → popGroups name gs h = .ok gs h
  | [], _, _ => rfl
  | g :: gs, h, hg => by
    rw [popGroups]
    mstep M.get_apply h
    have : ((h.gtiers g).map (fun t => h.ct.name (h.tcls t))).contains name = false := by
      rw [Bool.eq_false_iff, Ne, List.contains_iff_mem]
      exact hg g (by simp)
    rw [if_pos (by simpa using this)]
    mstep popGroups_without name gs h (fun g' hg' => hg g' (by simp [hg']))
    rfl

theorem staying_nodup {h : Heap} {name : String} {gs : List GRef} (nd : gs.Nodup) : (staying h name gs).Nodup :=
  nd.sublist List.filter_sublist

theorem filter_only {α} (p : α → Bool) (l1 l2 : List α) (y : α) (hl : ∀ t ∈ l1 ++ l2, p t = true) (hy : p y = false) :
    (l1 ++ y :: l2).filter p = l1 ++ l2 := by
  rw [List.filter_append, List.filter_cons_of_neg (by simp [hy]),
    List.filter_eq_self.mpr (fun t q => hl t (List.mem_append_left _ q)),
    List.filter_eq_self.mpr (fun t q => hl t (List.mem_append_right _ q))]

theorem split_unique {α β} [DecidableEq β] {f : α → β} {n : β} {l1 l2 m1 m2 : List α} {y z : α}
    (e : l1 ++ y :: l2 = m1 ++ z :: m2) (hl : ∀ t ∈ l1 ++ l2, f t ≠ n) (hy : f y = n) (hm : ∀ t ∈ m1 ++ m2, f t ≠ n)
    (hz : f z = n) : l1 ++ l2 = m1 ++ m2 := by
  rw [← filter_only (fun t => decide (f t ≠ n)) l1 l2 y (fun t q => by simp [hl t q]) (by simp [hy]),
    ← filter_only (fun t => decide (f t ≠ n)) m1 m2 z (fun t q => by simp [hm t q]) (by simp [hz]), e]

/-- a group with the class -/
theorem Editable.popSpot {h : Heap} {gs : List GRef} (e : Editable h gs) {g : GRef} (hg : g ∈ gs) {t : TRef}
    (ht : t ∈ h.gtiers g) : ∃ pre post, PopSpot h g (h.ct.name (h.tcls t)) (h.tcls t) pre t post := by
  obtain ⟨pre, post, eq⟩ := List.append_of_mem ht
  refine ⟨pre, post, eq, rfl, rfl, ?_, eq ▸ e.fit g hg⟩
  intro t' ht' q
  have nd := e.rows.names _ (List.mem_map.mpr ⟨g, hg, rfl⟩)
  rw [eq, List.map_map, List.map_append, List.map_cons, (List.perm_middle).nodup_iff, List.nodup_cons] at nd
  refine nd.1 ?_
  rw [← List.map_append]
  exact List.mem_map.mpr ⟨t', ht', q⟩

theorem wfc_closeLink {ct : ClassTab} (w : WFC ct) {u d : CRef} (hu : u < ct.next) (hd : d < ct.next) :
    WFC (closeLink ct u d) := wfc_putSup (wfc_putSub w _ _ hd) _ _ hu

/-- the rows without the class have neither of its neighbours -/
theorem ClassRows.aside {ct : ClassTab} {css : List (List CRef)} (r : ClassRows ct css)
    {P Q : List CRef} {u p d : CRef} (hm : P ++ p :: Q ∈ css) (b : Between ct u p d) (g1 : ClassGap ct P (p :: Q) u p)
    (g2 : ClassGap ct (P ++ [p]) Q p d) : ∀ cs ∈ css, (∀ c ∈ cs, ct.name c ≠ ct.name p) → u ∉ cs ∧ d ∉ cs := by
  intro cs hcs hno
  have row := r.row cs hcs
  have hother : ∀ c ∈ cs, c ∉ P ++ p :: Q := by
    intro c hc hc'
    have := r.same cs hcs _ hm c hc c hc' rfl
    exact hno p (by rw [this]; simp) rfl
  constructor
  · intro hu
    rcases g1.whereU with q | q
    · exact hother u hu (by simp [q])
    · have := (row.own u hu).2.1
      rw [(g1.isTop q).1] at this
      cases this
  · intro hd
    rcases g2.whereD with q | q
    · exact hother d hd (by simp [q])
    · exact r.low _ hm p (by rw [q]; simp) d b.sub cs hcs hd

/-- the rows of classes after the class has been taken out of those that have it -/
theorem ClassRows.pop {ct : ClassTab} {css css' : List (List CRef)} (r : ClassRows ct css) (w : WFC ct)
    {P Q : List CRef} {u p d : CRef} (hm : P ++ p :: Q ∈ css) (b : Between ct u p d) (g1 : ClassGap ct P (p :: Q) u p)
    (g2 : ClassGap ct (P ++ [p]) Q p d)
    (h : ∀ cs' ∈ css', ∃ cs ∈ css, cs' = cs.filter fun c => decide (ct.name c ≠ ct.name p)) :
    ClassRows (closeLink ct u d) css' := by
  have hn : ∀ c, (closeLink ct u d).name c = ct.name c := fun _ => rfl
  have hPQ : (P ++ p :: Q).filter (fun c => decide (ct.name c ≠ ct.name p)) = P ++ Q := by
    refine filter_only _ _ _ _ ?_ (by simp)
    intro c hc
    have nd := r.names _ hm
    rw [List.map_append, List.map_cons, (List.perm_middle).nodup_iff, List.nodup_cons, ← List.map_append] at nd
    have : ct.name c ≠ ct.name p := fun q => nd.1 (List.mem_map.mpr ⟨c, hc, q⟩)
    simp [this]
  have huN := r.aside hm b g1 g2
  refine ⟨?_, ?_, ?_, ?_⟩
  · intro cs' hcs'
    obtain ⟨cs, hcs, rfl⟩ := h cs' hcs'
    by_cases hex : ∃ c ∈ cs, ct.name c = ct.name p
    · obtain ⟨c, hc, q⟩ := hex
      have := r.same cs hcs _ hm c hc p (by simp) q
      rw [this, hPQ]
      exact (r.row _ hm).remove b g1 g2
    · have hno : ∀ c ∈ cs, ct.name c ≠ ct.name p := fun c hc q => hex ⟨c, hc, q⟩
      rw [List.filter_eq_self.mpr (fun c hc => by simp [hno c hc])]
      have row := r.row cs hcs
      obtain ⟨hu, hd⟩ := huN cs hcs hno
      refine row.congr w (Nat.le_refl _) ?_ ?_ (fun x y _ => closeLink_isSub ct u d x y) (fun _ _ => rfl)
      · intro c hc
        have h0 : c ≠ d := fun q => hd (q ▸ hc)
        rw [closeLink_sup, if_neg h0]
      · intro c hc
        have h0 : c ≠ u := fun q => hu (q ▸ hc)
        rw [closeLink_sub, if_neg h0]
  · intro cs' hcs'
    obtain ⟨cs, hcs, rfl⟩ := h cs' hcs'
    exact (r.names cs hcs).sublist (List.Sublist.map _ List.filter_sublist)
  · intro cs' hcs' ds' hds' c hc c' hc' q
    obtain ⟨cs, hcs, rfl⟩ := h cs' hcs'
    obtain ⟨ds, hds, rfl⟩ := h ds' hds'
    rw [r.same cs hcs ds hds c (List.mem_filter.mp hc).1 c' (List.mem_filter.mp hc').1 q]
  · intro cs' hcs' c hl p' hp' ds' hds' hmem
    obtain ⟨cs, hcs, rfl⟩ := h cs' hcs'
    obtain ⟨ds, hds, rfl⟩ := h ds' hds'
    have hmem := (List.mem_filter.mp hmem).1
    rw [closeLink_sub] at hp'
    by_cases hex : ∃ c ∈ cs, ct.name c = ct.name p
    · obtain ⟨z, hz, q⟩ := hex
      have := r.same cs hcs _ hm z hz p (by simp) q
      rw [this, hPQ] at hl
      rcases List.eq_nil_or_concat Q with rfl | ⟨Q, x, rfl⟩
      · rw [List.append_nil] at hl
        obtain ⟨rfl, -⟩ := g1.last c hl
        rw [if_pos rfl] at hp'
        cases hp'
        exact r.low _ hm p (by simp) d b.sub ds hds hmem
      · rw [List.concat_eq_append] at *
        rw [← List.append_assoc, List.getLast?_append] at hl
        cases hl
        rw [if_neg (fun e => g1.outU (by simp [← e]))] at hp'
        exact r.low _ hm x (by rw [← List.cons_append, ← List.append_assoc, List.getLast?_append]; rfl) p' hp' ds hds hmem
    · have hno : ∀ c ∈ cs, ct.name c ≠ ct.name p := fun c hc q => hex ⟨c, hc, q⟩
      rw [List.filter_eq_self.mpr (fun c hc => by simp [hno c hc])] at hl
      rw [if_neg (fun e : c = u => (huN cs hcs hno).1 (e ▸ List.mem_of_getLast? hl))] at hp'
      exact r.low cs hcs c hl p' hp' ds hds hmem

/-- what popping the class `name` keeps for the intervals of the textgrid `a` -/
structure PopCarries (h h' : Heap) (a : ARef) (name : String) : Prop where
  homed : (∀ g ∈ h.agroups a, Homed h (h.gtiers g)) → ∀ g ∈ h'.agroups a, Homed h' (h'.gtiers g)
  interval : (∀ g ∈ h.agroups a, ∀ t ∈ h.gtiers g, h.ct.isSub (h.tcls t) cPoint = false) →
    ∀ g ∈ h'.agroups a, ∀ t ∈ h'.gtiers g, h'.ct.isSub (h'.tcls t) cPoint = false
  drafted : ∀ P, (P = Strung ∨ P = Backed) → ∀ d, DraftedBy P h (h.agroups a) d → DraftedBy P h' (h'.agroups a) (d.pop name)
  gpoint : (∀ g ∈ h.agroups a, h.gpoint g = false) → ∀ g ∈ h'.agroups a, h'.gpoint g = false

theorem Homed.store {h : Heap} {ts : List TRef} (m : Homed h ts) (fg fc fw) :
    Homed { h with agroups := fg, acont := fc, gwithin := fw } ts := ⟨m.home, m.below, m.typed, m.fresh⟩

theorem DraftedBy.of_index {P : Heap → List TRef → Prop} {h : Heap} {gs : List GRef} {d : Draft} (nd : gs.Nodup) (hl : d.length = gs.length)
    (hi : ∀ (i : Nat) g, gs[i]? = some g → ∃ c, d[i]? = some (pageOf h g, c) ∧ (c = true → P h (h.gtiers g))) :
    DraftedBy P h gs d := by
  have key : ∀ (i : Nat) g, gs[i]? = some g → gs.idxOf g = i := by
    intro i g q
    have hm := List.mem_of_getElem? q
    have h1 : gs[gs.idxOf g]? = some g := by
      rw [List.getElem?_eq_getElem (List.idxOf_lt_length_of_mem hm), List.getElem_idxOf]
    exact nodup_index nd h1 q
  refine ⟨fun g => ((d[gs.idxOf g]?).map (·.2)).getD false, ?_, ?_⟩
  · apply List.ext_getElem?
    intro i
    rw [List.getElem?_map]
    cases q : gs[i]? with
    | none => rw [List.getElem?_eq_none_iff] at q; rw [List.getElem?_eq_none (by omega)]; rfl
    | some g =>
      obtain ⟨c, h1, -⟩ := hi i g q
      simp only [Option.map_some, key i g q, h1, Option.getD_some]
  · intro g hg
    obtain ⟨i, q⟩ := List.mem_iff_getElem?.mp hg
    obtain ⟨c, h1, h2⟩ := hi i g q
    simp only [key i g q, h1, Option.map_some, Option.getD_some]
    exact h2

theorem filter_below {α} {p : α → Bool} : ∀ {l : List α} {i : Nat} {x : α}, (l.filter p)[i + 1]? = some x → ∃ j : Nat, l[j + 1]? = some x
  | [], i, x, h => by simp at h
  | y :: l, i, x, h => by
    have : x ∈ l := by
      by_cases q : p y = true
      · rw [List.filter_cons_of_pos q, List.getElem?_cons_succ] at h
        exact (List.mem_filter.mp (List.mem_of_getElem? h)).1
      · rw [List.filter_cons_of_neg q] at h
        exact (List.mem_filter.mp (List.mem_of_getElem? h)).1
    obtain ⟨j, hj⟩ := List.mem_iff_getElem?.mp this
    exact ⟨j, by rw [List.getElem?_cons_succ]; exact hj⟩

/-- popping a class keeps a textgrid editable, and does to the plain data what it should -/
theorem Editable.pop {h : Heap} {a : ARef} (e : Editable h (h.agroups a)) (name : String) :
    ∃ h', popClass a name h = .ok () h' ∧ Editable h' (h'.agroups a) ∧ bookOf h' a = (bookOf h a).pop name ∧
      PopCarries h h' a name := by
  have hall : (∀ p ∈ bookOf h a, p.map (·.1) = [name]) ↔
      ∀ g ∈ h.agroups a, (h.gtiers g).map (fun t => h.ct.name (h.tcls t)) = [name] := by
    constructor
    · intro q g hg
      have := q (pageOf h g) (List.mem_map.mpr ⟨g, hg, rfl⟩)
      rwa [pageOf_names] at this
    · intro q p hp
      obtain ⟨g, hg, rfl⟩ := List.mem_map.mp hp
      rw [pageOf_names]; exact q g hg
  by_cases ha : ∀ g ∈ h.agroups a, (h.gtiers g).map (fun t => h.ct.name (h.tcls t)) = [name]
  · obtain ⟨fc, fw, e2⟩ := setContainsA_ok a h
    refine ⟨{ h with acont := fc, gwithin := fw }, ?_, e.store _ _ _, ?_, fun q g hg => (q g hg).store _ _ _, fun q => q, ?_, fun q => q⟩
    · unfold popClass
      mstep M.get_apply h
      mstep popGroups_dropped name _ h ha
      exact e2
    · unfold Book.pop
      rw [if_pos (hall.mpr ha)]
      rfl
    · intro P hPd d hd
      obtain ⟨fl, rfl, -⟩ := id hd
      rw [Draft.pop, if_pos]
      · rcases hPd with rfl | rfl <;> exact hd
      · intro q hq
        obtain ⟨g, hg, rfl⟩ := List.mem_map.mp hq
        exact (pageOf_names h g).trans (ha g hg)
  have hbook : (bookOf h a).pop name =
      (staying h name (h.agroups a)).map fun g => (pageOf h g).filter fun t => decide (t.1 ≠ name) := by
    unfold Book.pop
    rw [if_neg (fun q => ha (hall.mp q))]
    unfold bookOf staying
    rw [List.filter_map, List.map_map]
    congr 1
    apply List.filter_congr
    intro g _
    show decide ((pageOf h g).map (·.1) ≠ [name]) = _
    rw [pageOf_names]
  have hdraft : ∀ fl : GRef → Bool, Draft.pop name ((h.agroups a).map fun g => (pageOf h g, fl g)) =
      (staying h name (h.agroups a)).map fun g => ((pageOf h g).filter fun t => decide (t.1 ≠ name),
        fl g && decide (((h.gtiers g).map fun t => h.ct.name (h.tcls t)).head? ≠ some name)) := by
    intro fl
    unfold Draft.pop
    rw [if_neg]
    · unfold staying
      rw [List.filter_map, List.map_map]
      refine (List.map_congr_left fun g _ => ?_).trans (congrArg _ (List.filter_congr fun g _ => ?_))
      · show (_, fl g && decide (((pageOf h g).map (·.1)).head? ≠ some name)) = _
        rw [pageOf_names]
      · show decide ((pageOf h g).map (·.1) ≠ [name]) = _
        rw [pageOf_names]
    · intro q
      refine ha fun g hg => ?_
      rw [← pageOf_names]
      exact q _ (List.mem_map.mpr ⟨g, hg, rfl⟩)
  rw [hbook]
  by_cases ho : ∀ g ∈ h.agroups a, name ∉ (h.gtiers g).map (fun t => h.ct.name (h.tcls t))
  · obtain ⟨fg, fc, fw, e2, hfg⟩ := storeGroups a (h.agroups a) h id
    have hstay : staying h name (h.agroups a) = h.agroups a := by
      unfold staying
      rw [List.filter_eq_self]
      intro g hg
      have := ho g hg
      simp only [ne_eq, decide_eq_true_eq]
      intro q
      rw [q] at this
      simp at this
    have hpage : ∀ g ∈ h.agroups a, (pageOf h g).filter (fun t => decide (t.1 ≠ name)) = pageOf h g := by
      intro g hg
      rw [List.filter_eq_self.mpr]
      intro t ht
      have hm : t.1 ∈ (pageOf h g).map (·.1) := List.mem_map.mpr ⟨t, ht, rfl⟩
      rw [pageOf_names] at hm
      simp only [ne_eq, decide_eq_true_eq]
      intro q
      exact ho g hg (q ▸ hm)
    refine ⟨{ h with agroups := fg, acont := fc, gwithin := fw }, ?_, ?_, ?_, ?_, ?_, ?_, ?_⟩
    rotate_left 6
    · intro q g hg
      exact q g (by rw [← hfg]; exact hg)
    · unfold popClass
      mstep M.get_apply h
      mstep popGroups_without name _ h ho
      exact e2
    · show Editable _ (fg a)
      rw [hfg]; exact e.store _ _ _
    · rw [bookOf_store, hfg, hstay]
      exact (List.map_congr_left hpage).symm
    · intro q g hg
      exact (q g (by rw [← hfg]; exact hg)).store _ _ _
    · intro q g hg
      exact q g (by rw [← hfg]; exact hg)
    · rintro P hP d ⟨fl, rfl, hfl⟩
      rw [hdraft fl, hstay]
      show DraftedBy P _ (fg a) _
      rw [hfg]
      refine ⟨fl, List.map_congr_left fun g hg => ?_, by rcases hP with rfl | rfl <;> exact hfl⟩
      rw [hpage g hg, decide_eq_true (show ((h.gtiers g).map fun t => h.ct.name (h.tcls t)).head? ≠ some name from fun q => ho g hg (List.mem_of_mem_head? q)), Bool.and_true]
      rfl
  obtain ⟨g0, hg0, t0, ht0, hn0⟩ : ∃ g ∈ h.agroups a, ∃ t ∈ h.gtiers g, h.ct.name (h.tcls t) = name := by
    apply Classical.byContradiction
    intro hc
    apply ho
    intro g hg hm
    obtain ⟨t, ht, q⟩ := List.mem_map.mp hm
    exact hc ⟨g, hg, t, ht, q⟩
  obtain ⟨P, Q, hPQ⟩ := List.append_of_mem (List.mem_map.mpr ⟨t0, ht0, rfl⟩ : h.tcls t0 ∈ (h.gtiers g0).map h.tcls)
  generalize hp : h.tcls t0 = p at *
  have hmem : ∀ g ∈ h.agroups a, (h.gtiers g).map h.tcls ∈ (h.agroups a).map fun g => (h.gtiers g).map h.tcls :=
    fun g hg => List.mem_map.mpr ⟨g, hg, rfl⟩
  have hrow := e.row hg0
  rw [hPQ] at hrow
  obtain ⟨u, d, b, g1, g2⟩ := hrow.between e.wfc
  have hpc : ∀ g ∈ h.agroups a, ∀ t ∈ h.gtiers g, h.ct.name (h.tcls t) = name → h.tcls t = p := by
    intro g hg t ht q
    refine e.rows.eq (hmem g hg) (hmem g0 hg0) (List.mem_map.mpr ⟨t, ht, rfl⟩) (by rw [hPQ]; simp) ?_
    rw [q, hn0]
  have hspot : ∀ g ∈ h.agroups a, Popped h name g → ∃ pre pt post, PopSpot h g name p pre pt post ∧
      ClassLinks (closeLink h.ct u d) ((pre ++ post).map h.tcls) := by
    rintro g hg ⟨⟨t, ht, q⟩, -⟩
    have hc := hpc g hg t ht q
    obtain ⟨pre, post, s⟩ := e.popSpot hg ht
    rw [hc, hn0] at s
    refine ⟨pre, t, post, s, ?_⟩
    have rw0 := e.row hg
    rw [s.eq, List.map_append, List.map_cons, hc] at rw0
    rw [List.map_append]
    exact rw0.links.remove (fun c hcm => rw0.own c (by
      rcases List.mem_append.mp hcm with q | q <;> simp [q])) b
  have hst : staying h name (h.agroups a) ≠ [] := by
    intro q
    unfold staying at q
    rw [List.filter_eq_nil_iff] at q
    refine ha fun g hg => ?_
    have := q g hg
    simpa using this
  obtain ⟨gs', h1, r1, c1, c2, c3, c4, c5, c6, c7, c8, c9, c10, c11, c12, c13, c14, c15, c16, c17, c18⟩ :=
    popGroups_ok (u := u) (p := p) (d := d) name (h.agroups a) h (fun _ => False) b e.nodup (fun g hg => (e.old g hg).1)
      e.sep (e.tidy.mono (fun x q => q.elim False.elim id)) (fun _ q => q.elim) hspot (fun g hg _ => e.far g hg)
  obtain ⟨fg, fc, fw, e2, hfg⟩ := storeGroups a gs' h1 (by
    rintro rfl
    exact absurd (List.length_eq_zero_iff.mp c1.symm) hst)
  have hseq : h1.tseq = h.tseq := c2.tseq
  have htcls : h1.tcls = h.tcls := c2.tcls
  have hnE : h1.nE = h.nE := c2.nE
  have hname : ∀ c, h1.ct.name c = h.ct.name c := by
    intro c
    by_cases q : ∃ g ∈ h.agroups a, Popped h name g
    · rw [c10 q]; rfl
    · rw [c11 (fun g hg z => q ⟨g, hg, z⟩)]
  -- the groups by position
  have hidx : ∀ g' ∈ gs', ∃ (i : Nat) (g : GRef), (staying h name (h.agroups a))[i]? = some g ∧ gs'[i]? = some g' := by
    intro g' hg'
    obtain ⟨i, q⟩ := List.mem_iff_getElem?.mp hg'
    have hl := (List.getElem?_eq_some_iff.mp q).1
    rw [c1] at hl
    exact ⟨i, _, List.getElem?_eq_getElem hl, q⟩
  have hstm : ∀ {i : Nat} {g : GRef}, (staying h name (h.agroups a))[i]? = some g → g ∈ h.agroups a := fun q =>
    (List.mem_filter.mp (List.mem_of_getElem? q)).1
  have htiers : ∀ (i : Nat) g g', (staying h name (h.agroups a))[i]? = some g → gs'[i]? = some g' →
      h1.gtiers g' = (h.gtiers g).filter fun t => decide (h.ct.name (h.tcls t) ≠ name) := by
    intro i g g' q1 q2
    have := c7 i g g' q1 q2
    by_cases hP : Popped h name g
    · rw [if_pos hP] at this
      obtain ⟨pre, pt, post, p1, p2, p3, p4, -⟩ := this
      rw [p4, p1]
      exact (filter_only _ _ _ _ (fun t q => by simp [p3 t q]) (by simp [p2])).symm
    · rw [if_neg hP] at this
      obtain ⟨rfl, p1, -⟩ := this
      rw [p1, List.filter_eq_self.mpr]
      intro t ht
      simp only [ne_eq, decide_eq_true_eq]
      intro q
      have hs := (List.mem_filter.mp (List.mem_of_getElem? q1)).2
      simp only [ne_eq, decide_eq_true_eq] at hs
      refine hP ⟨⟨t, ht, q⟩, fun hl => hs ?_⟩
      obtain ⟨y, hy⟩ := List.length_eq_one_iff.mp hl
      rw [hy] at ht ⊢
      rw [List.mem_singleton] at ht
      subst ht
      simp [q]
  have hsubt : ∀ (i : Nat) g g', (staying h name (h.agroups a))[i]? = some g → gs'[i]? = some g' →
      ∀ t ∈ h1.gtiers g', t ∈ h.gtiers g := by
    intro i g g' q1 q2 t ht
    rw [htiers i g g' q1 q2] at ht
    exact (List.mem_filter.mp ht).1
  have hgroup : ∀ (i : Nat) g g', (staying h name (h.agroups a))[i]? = some g → gs'[i]? = some g' →
      FitGroup h1 (h1.gtiers g') ∧ UpClosed h1 (h1.gtiers g') ∧ RelatedByContainment h1 (h1.gtiers g') := by
    intro i g g' q1 q2
    have hg := hstm q1
    have := c7 i g g' q1 q2
    by_cases hP : Popped h name g
    · rw [if_pos hP] at this
      obtain ⟨pre, pt, post, p1, p2, p3, p4, p5, -⟩ := this
      obtain ⟨f1, f2, -⟩ := c14 i g g' q1 q2 hP
      exact ⟨f1, f2, p4 ▸ p5⟩
    · rw [if_neg hP] at this
      obtain ⟨rfl, p1, m⟩ := this
      rw [p1]
      refine e.kept hg m (by rw [c4]; exact Nat.le_refl _) (by rw [hnE]; exact Nat.le_refl _) ?_ ?_
      · intro v x hx
        refine (c13 v x hx).imp id ?_
        rintro ⟨g2, hg2, hP2, o1, o2⟩
        have hne : g2 ≠ g' := fun q => hP (q ▸ hP2)
        exact ⟨e.apart hg2 hg hne o1, e.apart hg2 hg hne o2⟩
      · intro v x hx
        refine (c12 v x hx).imp id ?_
        rintro ⟨g2, hg2, hP2, o1, o2⟩
        exact e.apart hg2 hg (fun q => hP (q ▸ hP2)) o2
  have hct : WFC h1.ct ∧ ClassRows h1.ct (gs'.map fun g => (h1.gtiers g).map h1.tcls) := by
    have hflt : ∀ cs' ∈ gs'.map fun g => (h1.gtiers g).map h1.tcls,
        ∃ cs ∈ (h.agroups a).map fun g => (h.gtiers g).map h.tcls,
          cs' = cs.filter fun c => decide (h.ct.name c ≠ h.ct.name p) := by
      intro cs' hcs'
      obtain ⟨g', hg', rfl⟩ := List.mem_map.mp hcs'
      obtain ⟨i, g, q1, q2⟩ := hidx g' hg'
      refine ⟨_, hmem g (hstm q1), ?_⟩
      rw [htiers i g g' q1 q2, htcls, List.filter_map, hn0]
      rfl
    by_cases q : ∃ g ∈ h.agroups a, Popped h name g
    · rw [c10 q]
      exact ⟨wfc_closeLink e.wfc g1.ltU g2.ltD, e.rows.pop e.wfc (hPQ ▸ hmem g0 hg0) b g1 g2 hflt⟩
    · have q' : ∀ g ∈ h.agroups a, ¬ Popped h name g := fun g hg z => q ⟨g, hg, z⟩
      rw [c11 q']
      refine ⟨e.wfc, ?_⟩
      have hin : ∀ cs' ∈ gs'.map fun g => (h1.gtiers g).map h1.tcls,
          cs' ∈ (h.agroups a).map fun g => (h.gtiers g).map h.tcls := by
        intro cs' hcs'
        obtain ⟨g', hg', rfl⟩ := List.mem_map.mp hcs'
        obtain ⟨i, g, q1, q2⟩ := hidx g' hg'
        have := c7 i g g' q1 q2
        rw [if_neg (q' g (hstm q1))] at this
        obtain ⟨rfl, p1, -⟩ := this
        rw [p1, htcls]
        exact hmem g' (hstm q1)
      exact ⟨fun cs hcs => e.rows.row cs (hin cs hcs), fun cs hcs => e.rows.names cs (hin cs hcs),
        fun cs hcs cs' hcs' => e.rows.same cs (hin cs hcs) cs' (hin cs' hcs'),
        fun cs hcs c hl p hp cs' hcs' => e.rows.low cs (hin cs hcs) c hl p hp cs' (hin cs' hcs')⟩
  have hE1 : Editable h1 gs' := by
    refine ⟨hct.1, c17, ?_, ?_, c8.mono (fun x q => Or.inr q), ?_, ?_, ?_, ?_, ?_, hct.2⟩
    · intro g' hg'
      obtain ⟨i, g, q1, q2⟩ := hidx g' hg'
      refine ⟨c16 g' hg', fun t ht => ?_⟩
      rw [c4, hseq, hnE]
      exact (e.old g (hstm q1)).2 t (hsubt i g g' q1 q2 t ht)
    · intro g' hg' k' hk' hne t ht x hx t' ht'
      obtain ⟨i, g, q1, q2⟩ := hidx g' hg'
      obtain ⟨j, k, q3, q4⟩ := hidx k' hk'
      rw [hseq] at hx ⊢
      refine e.sep g (hstm q1) k (hstm q3) ?_ t (hsubt i g g' q1 q2 t ht) x hx t' (hsubt j k k' q3 q4 t' ht')
      rintro rfl
      have := nodup_index (staying_nodup e.nodup) q1 q3
      subst this
      rw [q2] at q4
      exact hne (Option.some.inj q4)
    · intro v x hx
      rw [hnE]
      rcases c13 v x hx with q | ⟨g, hg, -, o1, o2⟩
      · exact e.alloc v x q
      · exact ⟨e.lt hg o1, e.lt hg o2⟩
    · intro v x hx
      rw [hnE]
      rcases c12 v x hx with q | ⟨g, hg, -, o1, o2⟩
      · exact e.allocUp v x q
      · exact ⟨e.lt hg o1, e.lt hg o2⟩
    · intro g' hg'
      obtain ⟨i, g, q1, q2⟩ := hidx g' hg'
      exact (hgroup i g g' q1 q2).1
    · intro g' hg'
      obtain ⟨i, g, q1, q2⟩ := hidx g' hg'
      exact (hgroup i g g' q1 q2).2.1
    · intro g' hg'
      obtain ⟨i, g, q1, q2⟩ := hidx g' hg'
      exact (hgroup i g g' q1 q2).2.2
  have hpg : ∀ (i : Nat) g' g, gs'[i]? = some g' → (staying h name (h.agroups a))[i]? = some g →
      pageOf h1 g' = (pageOf h g).filter fun t => decide (t.1 ≠ name) := by
    intro i g' g q2 q1
    unfold pageOf
    rw [htiers i g g' q1 q2, List.filter_map]
    show List.map _ (List.filter _ _) = List.map _ (List.filter _ _)
    apply List.map_congr_left
    intro t ht
    exact Prod.ext (by show h1.ct.name (h1.tcls t) = _; rw [hname, htcls])
      (rowsOf_congr (by rw [hseq]) (fun x _ => by rw [c2.start, c2.stop, c2.label]; exact ⟨rfl, rfl, rfl⟩))
  have hmd : (∀ g ∈ h.agroups a, Homed h (h.gtiers g)) → ∀ g' ∈ gs', Homed h1 (h1.gtiers g') := by
    intro hm g' hg'
    obtain ⟨i, g, q1, q2⟩ := hidx g' hg'
    have hg := hstm q1
    have m := hm g hg
    refine ⟨?_, ?_, ?_, ?_⟩
    rotate_left 3
    · have := c7 i g g' q1 q2
      by_cases hP : Popped h name g
      · exact (c14 i g g' q1 q2 hP).2.2.2.2
      · rw [if_neg hP] at this
        obtain ⟨rfl, p1, -⟩ := this
        intro t ht
        rw [p1] at ht
        rw [htcls]
        rcases c18.tsup t with ⟨z1, z2⟩ | z
        · rw [z1, z2, (m.fresh t ht).1, (m.fresh t ht).2]
          by_cases q : ∃ g ∈ h.agroups a, Popped h name g
          · have hno : ∀ c ∈ (h.gtiers g').map h.tcls, h.ct.name c ≠ h.ct.name p := by
              intro c hc
              obtain ⟨s, hs, rfl⟩ := List.mem_map.mp hc
              have := htiers i g' g' q1 q2
              rw [p1] at this
              rw [this] at hs
              rw [hn0]
              simpa using (List.mem_filter.mp hs).2
            obtain ⟨n1, n2⟩ := e.rows.aside (hPQ ▸ hmem g0 hg0) b g1 g2 _ (hmem g' hg) hno
            have hc : h.tcls t ∈ (h.gtiers g').map h.tcls := List.mem_map_of_mem ht
            rw [c10 q]
            obtain ⟨w1, w2⟩ := (e.row hg).fixed (ct' := closeLink h.ct u d) hc
              (by rw [closeLink_sup, if_neg (fun z : h.tcls t = d => n2 (z ▸ hc))]) (by rw [closeLink_sub, if_neg (fun z : h.tcls t = u => n1 (z ▸ hc))])
            exact ⟨w1.symm, w2.symm⟩
          · rw [c11 (fun g hg z => q ⟨g, hg, z⟩)]
            exact ⟨rfl, rfl⟩
        · exact z
    · intro t ht x hx
      rw [c18.intier]
      rw [hseq] at hx
      exact m.home t (hsubt i g g' q1 q2 t ht) x hx
    · intro k t hk hne
      rw [hseq] at hne
      rcases c18.tsup t with ⟨q, -⟩ | ⟨q, -⟩
      · rw [q]
        rw [htiers i g g' q1 q2] at hk
        obtain ⟨j, hj⟩ := filter_below hk
        exact m.below j t hj hne
      · have hlt := getElem?_lt hk
        have hk0 : (h1.gtiers g')[k]? = some (h1.gtiers g')[k] := List.getElem?_eq_getElem (by omega)
        have row := hE1.row hg'
        have := row.links.down k (h1.tcls (h1.gtiers g')[k]) (h1.tcls t) (by rw [List.getElem?_map, hk0]; rfl) (by rw [List.getElem?_map, hk]; rfl)
        rw [q, ← htcls, this.2]
        intro z
        have := (row.own (h1.tcls (h1.gtiers g')[k]) (List.mem_map.mpr ⟨_, List.getElem_mem _, rfl⟩)).2.1
        rw [Option.some.inj z, isSub_refl] at this
        cases this
    · have := c7 i g g' q1 q2
      by_cases hP : Popped h name g
      · exact (c14 i g g' q1 q2 hP).2.2.1
      · rw [if_neg hP] at this
        obtain ⟨rfl, p1, -⟩ := this
        intro j t t' j1 j2 v hv
        rw [p1] at j1 j2
        rw [hseq] at hv
        rw [htcls, c18.ecls v]
        · exact m.typed j t t' j1 j2 v hv
        · intro g2 hg2 hP2 o
          exact e.apart hg2 hg (fun q => hP (q ▸ hP2)) o ⟨t, List.mem_of_getElem? j1, hv⟩
  have hch : ∀ P, (P = Strung ∨ P = Backed) → ∀ (i : Nat) g g', (staying h name (h.agroups a))[i]? = some g → gs'[i]? = some g' →
      ((h.gtiers g).map fun t => h.ct.name (h.tcls t)).head? ≠ some name → P h (h.gtiers g) → P h1 (h1.gtiers g') := by
    intro P hPd i g g' q1 q2 hn hc
    have hg := hstm q1
    have := c7 i g g' q1 q2
    by_cases hP : Popped h name g
    · have fk := (c14 i g g' q1 q2 hP).2.2.2.1
      have h0 : ∀ t, (h1.gtiers g')[0]? = some t → (h.gtiers g)[0]? = some t := by
        intro t ht
        rw [htiers i g g' q1 q2] at ht
        cases hgt : h.gtiers g with
        | nil => rw [hgt] at ht; simp at ht
        | cons s rest =>
          rw [hgt] at ht hn
          rw [List.filter_cons_of_pos (by
            simp only [decide_eq_true_eq]
            intro q
            exact hn (by rw [List.map_cons, List.head?_cons, q]))] at ht
          exact ht
      have fk' : ∀ t, (h1.gtiers g')[0]? = some t → ∀ (n : Nat) x, (h.tseq t).vals[n]? = some x →
          h1.fol x = h.fol x ∧ h1.within x = h.within x ∧ h1.prev x = h.prev x := by
        intro t ht n x hx
        have hxm := List.mem_of_getElem? hx
        exact fk t ht x hxm ((e.rel g hg).top t (h0 t ht) x hxm)
      rcases hPd with rfl | rfl <;> intro t ht k x hx <;> rw [hseq] at hx ⊢ <;> have z := fk' t ht k x hx
      · rw [z.1, z.2.1]
        exact hc t (h0 t ht) _ x hx
      · rw [z.2.2]
        exact hc t (h0 t ht) _ x hx
    · rw [if_neg hP] at this
      obtain ⟨rfl, p1, m⟩ := this
      rw [p1]
      rcases hPd with rfl | rfl
      · exact Strung.unmoved hc m
      · exact Backed.unmoved hc m
  refine ⟨{ h1 with agroups := fg, acont := fc, gwithin := fw }, ?_, ?_, ?_, ?_, ?_, ?_, ?_⟩
  rotate_left 6
  · intro q g' hg'
    have hg' : g' ∈ gs' := by rw [← hfg]; exact hg'
    show h1.gpoint g' = false
    cases hb : h1.gpoint g' with
    | false => rfl
    | true =>
      obtain ⟨q1, q2⟩ := c18.gpoint g' hb
      rcases c15 g' hg' with l2 | l2
      · rw [q g' l2] at q1; cases q1
      · exact absurd q2 (fun q2 => q2.elim (Nat.not_lt_of_le l2) (Nat.not_le_of_lt (c16 g' hg')))
  · unfold popClass
    mstep M.get_apply h
    mstep r1
    exact e2
  · show Editable _ (fg a)
    rw [hfg]; exact hE1.store _ _ _
  · rw [bookOf_store, hfg]
    exact map_eq_of_index c1 hpg
  · intro q g hg
    exact (hmd q g (by rw [← hfg]; exact hg)).store _ _ _
  · intro q g' hg'
    have hg' : g' ∈ gs' := by rw [← hfg]; exact hg'
    obtain ⟨i, g, q1, q2⟩ := hidx g' hg'
    intro t ht
    show h1.ct.isSub (h1.tcls t) cPoint = false
    have := q g (hstm q1) t (hsubt i g g' q1 q2 t ht)
    rw [htcls]
    by_cases q : ∃ g ∈ h.agroups a, Popped h name g
    · rw [c10 q, closeLink_isSub]; exact this
    · rw [c11 (fun g hg z => q ⟨g, hg, z⟩)]; exact this
  · rintro P hPd dr ⟨fl, rfl, hfl⟩
    rw [hdraft fl]
    show DraftedBy P _ (fg a) _
    rw [hfg]
    refine DraftedBy.of_index (h := { h1 with agroups := fg, acont := fc, gwithin := fw }) c17 (by rw [List.length_map, c1]) ?_
    intro i g' q2
    have hl := getElem?_lt q2
    rw [c1] at hl
    have q1 := List.getElem?_eq_getElem hl
    refine ⟨_, by rw [List.getElem?_map, q1]; exact congrArg some (Prod.ext (hpg i g' _ q2 q1).symm rfl), ?_⟩
    intro q
    simp only [Bool.and_eq_true, decide_eq_true_eq] at q
    have z := hch P hPd i _ g' q1 q2 q.2 (hfl _ (hstm q1) q.1)
    rcases hPd with rfl | rfl <;> exact z

end ATG
