import Verif.Lemmas.BookPop
/-!
# Interleaving a class keeps a textgrid editable
-/
namespace ATG

theorem insertIdx_take {α} (l : List α) (x : α) : ∀ n, n ≤ l.length → l.insertIdx n x = l.take n ++ x :: l.drop n := by
  induction l with
  | nil => intro n hn; simp at hn; subst hn; rfl
  | cons y l ih =>
    intro n hn
    cases n with
    | zero => rfl
    | succ n =>
      rw [List.insertIdx_succ_cons, ih n (by simpa using hn)]
      rfl

theorem mapM_some {α β} {f : α → Option β} : ∀ {l : List α} {l' : List β}, l.mapM f = some l' →
    l'.length = l.length ∧ ∀ (i : Nat) x y, l[i]? = some x → l'[i]? = some y → f x = some y
  | [], l', e => by
    simp at e
    subst e
    exact ⟨rfl, by simp⟩
  | x :: l, l', e => by
    rw [List.mapM_cons] at e
    cases hx : f x with
    | none => rw [hx] at e; cases e
    | some y =>
      rw [hx] at e
      cases hl : l.mapM f with
      | none => rw [hl] at e; cases e
      | some ys =>
        rw [hl] at e
        have e' : y :: ys = l' := Option.some.inj e
        subst e'
        obtain ⟨q1, q2⟩ := mapM_some hl
        refine ⟨by simp [q1], ?_⟩
        intro i a b p1 p2
        cases i with
        | zero => cases p1; cases p2; exact hx
        | succ i => exact q2 i a b p1 p2

theorem filter_singleton {α} {p : α → Bool} {l : List α} {c : α} (nd : l.Nodup) (hc : c ∈ l) (hp : p c = true)
    (hu : ∀ x ∈ l, p x = true → x = c) : l.filter p = [c] := by
  obtain ⟨l1, l2, rfl⟩ := List.append_of_mem hc
  rw [(List.perm_middle).nodup_iff, List.nodup_cons] at nd
  have hno : ∀ x ∈ l1 ++ l2, p x = false := by
    intro x hx
    rw [Bool.eq_false_iff]
    intro q
    have := hu x (by rcases List.mem_append.mp hx with z | z <;> simp [z]) q
    exact nd.1 (this ▸ hx)
  rw [List.filter_append, List.filter_cons_of_pos hp,
    List.filter_eq_nil_iff.mpr (fun x hx => by simp [hno x (List.mem_append_left _ hx)]),
    List.filter_eq_nil_iff.mpr (fun x hx => by simp [hno x (List.mem_append_right _ hx)])]
  rfl

/-- the class found by its name -/
theorem Editable.byName {h : Heap} {a : ARef} (e : Editable h (h.agroups a)) {g : GRef} (hg : g ∈ h.agroups a) {t : TRef}
    (ht : t ∈ h.gtiers g) : classByName h a (h.ct.name (h.tcls t)) = .ok (h.tcls t) := by
  unfold classByName
  rw [filter_singleton (c := h.tcls t) (nodup_eraseDups _ _ (Nat.le_refl _))]
  · rw [List.mem_eraseDups, List.mem_flatMap]
    exact ⟨g, hg, List.mem_map.mpr ⟨t, ht, rfl⟩⟩
  · simp
  · intro c hc q
    rw [List.mem_eraseDups, List.mem_flatMap] at hc
    obtain ⟨g', hg', hc⟩ := hc
    exact e.rows.eq (List.mem_map.mpr ⟨g', hg', rfl⟩) (List.mem_map.mpr ⟨g, hg, rfl⟩) hc
      (List.mem_map.mpr ⟨t, ht, rfl⟩) (by simpa using q)

theorem Place.unique {h : Heap} {g : GRef} {pre post pre' post' : List TRef} {k k' : TRef} {u d : CRef} {fb : Bool}
    (p : Place h g pre post k u d fb) (p' : Place h g pre' post' k' u d fb) : pre = pre' ∧ post = post' ∧ k = k' := by
  have key : ∀ {pre post pre' post' : List TRef} {k k' : TRef}, Place h g pre post k u d fb → Place h g pre' post' k' u d fb →
      ¬ pre.length < pre'.length := by
    intro pre post pre' post' k k' p p' hl
    have hne : pre' ≠ [] := by rintro rfl; simp at hl
    obtain ⟨q, t, rfl⟩ : ∃ q t, pre' = q ++ [t] := by
      rcases List.eq_nil_or_concat pre' with z | ⟨q, t, z⟩
      · exact absurd z hne
      · exact ⟨q, t, by rw [z, List.concat_eq_append]⟩
    refine p.onlyAbove t ?_ (p'.above t (by simp))
    have e := p.eq.symm.trans p'.eq
    have e2 := congrArg (List.drop pre.length) e
    rw [List.drop_left] at e2
    rw [e2, List.append_assoc, List.drop_append_of_le_length (by simp at hl; omega)]
    simp
  have hl : pre.length = pre'.length := by
    have := key p p'
    have := key p' p
    omega
  have e := p.eq.symm.trans p'.eq
  obtain ⟨rfl, rfl⟩ := List.append_inj e hl
  refine ⟨rfl, rfl, ?_⟩
  have s := p.source
  have s' := p'.source
  cases fb
  · simp only [Bool.false_eq_true, if_false] at s s'
    rw [s] at s'; exact Option.some.inj s'
  · simp only [if_true] at s s'
    rw [s] at s'; exact Option.some.inj s'

/-- the rows without the class have neither of the two -/
theorem ClassRows.besides {ct : ClassTab} {css : List (List CRef)} (r : ClassRows ct css) {P Q : List CRef} {u d c : CRef}
    (hm : P ++ Q ∈ css) (hc : c ∈ P ++ Q) (g : ClassGap ct P Q u d) : ∀ cs' ∈ css, c ∉ cs' → u ∉ cs' ∧ d ∉ cs' := by
  intro cs' hcs hc1
  have row := r.row cs' hcs
  have hother : ∀ x ∈ cs', x ∉ P ++ Q := by
    intro x hx hx'
    have := r.same cs' hcs _ hm x hx x hx' rfl
    exact hc1 (this ▸ hc)
  constructor
  · intro hu
    rcases g.whereU with q | q
    · exact hother u hu (by simp [q])
    · have := (row.own u hu).2.1
      rw [(g.isTop q).1] at this
      cases this
  · intro hd
    rcases g.whereD with q | q
    · exact hother d hd (by simp [q])
    · subst q
      have hP : P ≠ [] := by rintro rfl; cases hc
      obtain ⟨o1, o2⟩ := g.last _ (List.getLast?_eq_some_getLast hP)
      exact r.low _ hm _ (by rw [List.append_nil]; exact List.getLast?_eq_some_getLast hP) d o2 cs' hcs hd

/-- the rows of classes with the new class in those that have the other one -/
theorem ClassRows.insert {ct ct' : ClassTab} {css css' : List (List CRef)} (r : ClassRows ct css) (w : WFC ct)
    {P Q : List CRef} {u d c new : CRef} (hm : P ++ Q ∈ css) (hc : c ∈ P ++ Q) (g : ClassGap ct P Q u d)
    (hnew : ct.next ≤ new) (hlt : new < ct'.next) (b : Between ct' u new d) (hplain : PlainName (ct'.name new))
    (n2 : ct'.ownSub u = some (some new)) (n4 : ct'.ownSup d = some (some new))
    (hsup : ∀ x, x < ct.next → x ≠ d → ct'.ownSup x = ct.ownSup x)
    (hsub : ∀ x, x < ct.next → x ≠ u → ct'.ownSub x = ct.ownSub x)
    (k : ct'.isSub new cHierarchyPart = true ∧ ct'.isSub new cTop = false ∧ ct'.isSub new cBottom = false)
    (his : ∀ x y, x < ct.next → ct'.isSub x y = ct.isSub x y) (hn : ∀ x, x < ct.next → ct'.name x = ct.name x)
    (links : ClassLinks ct' (P ++ new :: Q)) (fresh : ∀ cs ∈ css, ∀ x ∈ cs, ct.name x ≠ ct'.name new)
    (h : ∀ cs' ∈ css', ∃ cs ∈ css, c ∈ cs ∧ cs' = P ++ new :: Q ∨ c ∉ cs ∧ cs' = cs) : ClassRows ct' css' := by
  have hle : ct.next ≤ ct'.next := by unfold CRef at *; omega
  have hname : ∀ cs ∈ css, cs.map ct'.name = cs.map ct.name := fun cs hcs =>
    List.map_congr_left fun x hx => hn x ((r.row cs hcs).lt x hx)
  have hPn : (P ++ new :: Q).Perm (new :: (P ++ Q)) := List.perm_middle
  have hin : ∀ x ∈ P ++ new :: Q, x = new ∨ x ∈ P ++ Q := fun x hx => List.mem_cons.mp (hPn.mem_iff.mp hx)
  have huN := r.besides hm hc g
  have hold : ∀ p, p < ct.next → (∀ cs ∈ css, p ∉ cs) → ∀ cs' ∈ css', p ∉ cs' := by
    intro p hp ho cs' hcs' hm'
    obtain ⟨cs, hcs, ⟨-, rfl⟩ | ⟨-, rfl⟩⟩ := h cs' hcs'
    · rcases hin p hm' with q | q
      · unfold CRef at *; omega
      · exact ho _ hm q
    · exact ho _ hcs hm'
  refine ⟨?_, ?_, ?_, ?_⟩
  · intro cs' hcs'
    obtain ⟨cs, hcs, ⟨hc1, rfl⟩ | ⟨hc1, rfl⟩⟩ := h cs' hcs'
    · exact (r.row _ hm).insert w g hnew hlt b hplain n2 n4 hsup hsub k his hn links
    · have row := r.row cs' hcs
      obtain ⟨hu, hd⟩ := huN cs' hcs hc1
      refine row.congr w hle ?_ ?_ his hn
      · intro x hx
        have h0 : x ≠ d := fun q => hd (q ▸ hx)
        exact hsup x (row.lt x hx) h0
      · intro x hx
        have h0 : x ≠ u := fun q => hu (q ▸ hx)
        exact hsub x (row.lt x hx) h0
  · intro cs' hcs'
    obtain ⟨cs, hcs, ⟨hc1, rfl⟩ | ⟨hc1, rfl⟩⟩ := h cs' hcs'
    · rw [(hPn.map _).nodup_iff, List.map_cons, List.nodup_cons, hname _ hm]
      refine ⟨?_, r.names _ hm⟩
      intro q
      obtain ⟨x, hx, q⟩ := List.mem_map.mp q
      exact fresh _ hm x hx q
    · rw [hname _ hcs]; exact r.names _ hcs
  · intro cs1 h1 cs2 h2 x hx y hy q
    obtain ⟨ds1, hd1, z1⟩ := h cs1 h1
    obtain ⟨ds2, hd2, z2⟩ := h cs2 h2
    rcases z1 with ⟨m1, rfl⟩ | ⟨m1, rfl⟩ <;> rcases z2 with ⟨m2, rfl⟩ | ⟨m2, rfl⟩
    · rfl
    · exfalso
      rw [hn y ((r.row _ hd2).lt y hy)] at q
      rcases hin x hx with rfl | hx
      · exact fresh _ hd2 y hy q.symm
      · rw [hn x ((r.row _ hm).lt x hx)] at q
        exact m2 (r.same _ hm _ hd2 x hx y hy q ▸ hc)
    · exfalso
      rw [hn x ((r.row _ hd1).lt x hx)] at q
      rcases hin y hy with rfl | hy
      · exact fresh _ hd1 x hx q
      · rw [hn y ((r.row _ hm).lt y hy)] at q
        exact m1 (r.same _ hm _ hd1 y hy x hx q.symm ▸ hc)
    · rw [hn x ((r.row _ hd1).lt x hx), hn y ((r.row _ hd2).lt y hy)] at q
      exact r.same _ hd1 _ hd2 x hx y hy q
  · intro cs' hcs' x hl p hp
    have keep : ∀ cs ∈ css, cs.getLast? = some x → x ≠ u → ∀ cs' ∈ css', p ∉ cs' := by
      intro cs hcs hl hx
      have hlx := (r.row cs hcs).lt x (List.mem_of_getLast? hl)
      rw [hsub x hlx hx] at hp
      exact hold p (w.subLt x p hlx hp) (r.low cs hcs x hl p hp)
    obtain ⟨cs, hcs, ⟨hc1, rfl⟩ | ⟨hc1, rfl⟩⟩ := h cs' hcs'
    · rcases List.eq_nil_or_concat Q with rfl | ⟨Q, y, rfl⟩
      · rw [List.getLast?_append] at hl
        have hl : new = x := by simpa using hl
        subst hl
        rw [b.sub] at hp
        cases hp
        have hP : P ≠ [] := by rintro rfl; cases hc
        obtain ⟨o1, o2⟩ := g.last _ (List.getLast?_eq_some_getLast hP)
        exact hold _ g.ltD (r.low _ hm _ (by rw [List.append_nil]; exact List.getLast?_eq_some_getLast hP) _ o2)
      · rw [List.concat_eq_append] at *
        rw [← List.cons_append, ← List.append_assoc, List.getLast?_append] at hl
        cases hl
        exact keep _ hm (by rw [← List.append_assoc, List.getLast?_append]; rfl) (fun e => g.outU (by simp [← e]))
    · exact keep _ hcs hl (fun e => (huN _ hcs hc1).1 (e ▸ List.mem_of_getLast? hl))

/-- what interleaving a class carries over -/
structure InterleaveCarries (h h' : Heap) (a : ARef) (name : String) (above : Bool) (cname : String) (fromBelow labels : Bool) :
    Prop where
  homed : (∀ g ∈ h.agroups a, Homed h (h.gtiers g)) → ∀ g ∈ h'.agroups a, Homed h' (h'.gtiers g)
  interval : (∀ g ∈ h.agroups a, ∀ t ∈ h.gtiers g, h.ct.isSub (h.tcls t) cPoint = false) →
    ∀ g ∈ h'.agroups a, ∀ t ∈ h'.gtiers g, h'.ct.isSub (h'.tcls t) cPoint = false
  drafted : ∀ P, (P = Strung ∨ P = Backed) → ∀ d d', DraftedBy P h (h.agroups a) d →
    d.interleave name above cname fromBelow labels = some d' → DraftedBy P h' (h'.agroups a) d'
  gpoint : (∀ g ∈ h.agroups a, h.gpoint g = false) → ∀ g ∈ h'.agroups a, h'.gpoint g = false

/-- interleaving a class keeps a textgrid editable, and does to the plain data what it should -/
theorem Editable.interleave {h : Heap} {a : ARef} (e : Editable h (h.agroups a)) (name : String) (above : Bool)
    (cname : String) (fromBelow labels : Bool) {b' : Book}
    (hb : (bookOf h a).interleave name above cname fromBelow labels = some b') :
    ∃ h', ATG.interleave a name above cname fromBelow labels h = .ok () h' ∧ Editable h' (h'.agroups a) ∧
      bookOf h' a = b' ∧ InterleaveCarries h h' a name above cname fromBelow labels := by
  unfold Book.interleave at hb
  split at hb
  case isFalse => cases hb
  rename_i hcond
  obtain ⟨hne, hcne, hplain, ⟨p0, hp0, hc0⟩, hfresh⟩ := hcond
  obtain ⟨hlen, hpages⟩ := mapM_some hb
  obtain ⟨g0, hg0, rfl⟩ := List.mem_map.mp hp0
  rw [pageOf_names] at hc0
  obtain ⟨t0, ht0, hn0⟩ := List.mem_map.mp hc0
  have hfresh' : ∀ g ∈ h.agroups a, ∀ t ∈ h.gtiers g, h.ct.name (h.tcls t) ≠ name := by
    intro g hg t ht q
    refine hfresh (pageOf h g) (List.mem_map.mpr ⟨g, hg, rfl⟩) ?_
    rw [pageOf_names]
    exact List.mem_map.mpr ⟨t, ht, q⟩
  have hc := e.byName hg0 ht0
  rw [hn0] at hc
  have hmem : ∀ g ∈ h.agroups a, (h.gtiers g).map h.tcls ∈ (h.agroups a).map fun g => (h.gtiers g).map h.tcls :=
    fun g hg => List.mem_map.mpr ⟨g, hg, rfl⟩
  -- the row of classes and the place in it
  generalize hcs : (h.gtiers g0).map h.tcls = cs
  generalize hcc : h.tcls t0 = c at *
  have hcm : c ∈ cs := by rw [← hcs, ← hcc]; exact List.mem_map.mpr ⟨t0, ht0, rfl⟩
  have hrow : ClassRow h.ct cs := hcs ▸ e.row hg0
  have hcsm : cs ∈ (h.agroups a).map fun g => (h.gtiers g).map h.tcls := hcs ▸ hmem g0 hg0
  obtain ⟨i, hi⟩ : ∃ i, cs.findIdx? (fun x => h.ct.name x == cname) = some i := by
    cases hq : cs.findIdx? (fun x => h.ct.name x == cname) with
    | some i => exact ⟨i, rfl⟩
    | none =>
      rw [List.findIdx?_eq_none_iff] at hq
      have := hq c hcm
      simp [hn0] at this
  obtain ⟨hil, hic, -⟩ := List.findIdx?_eq_some_iff_getElem.mp hi
  have hci : cs[i]? = some c := by
    rw [List.getElem?_eq_getElem hil, Option.some.injEq]
    refine e.rows.eq hcsm hcsm (List.getElem_mem hil) hcm ?_
    rw [hn0]; simpa using hic
  generalize hpl : (if above then i else i + 1) = place at *
  have hple : place ≤ cs.length := by rw [← hpl]; split <;> omega
  have hsplit : cs.take place ++ cs.drop place = cs := List.take_append_drop _ _
  obtain ⟨u, d, gap⟩ := ClassRow.gap (P := cs.take place) (Q := cs.drop place) (by rw [hsplit]; exact hrow) e.wfc (by
    rw [hsplit]; intro q; rw [q] at hcm; cases hcm)
  have hcud : (if above then d else u) = c := by
    cases above
    · simp only [Bool.false_eq_true, if_false] at hpl ⊢
      have q : (cs.take place).getLast? = some c := by
        rw [List.getLast?_take, if_neg (by omega), ← hpl, Nat.add_sub_cancel, hci]; rfl
      exact (gap.last c q).1.symm
    · simp only [if_true] at hpl ⊢
      have q : (cs.drop place).head? = some c := by
        rw [List.head?_drop, ← hpl]; exact hci
      exact (gap.head c q).1.symm
  have hlink : if above then h.ct.sup d = some u else h.ct.sub u = some d := by
    cases above
    · simp only [Bool.false_eq_true, if_false] at hpl hcud ⊢
      have q : (cs.take place).getLast? = some c := by
        rw [List.getLast?_take, if_neg (by omega), ← hpl, Nat.add_sub_cancel, hci]; rfl
      rw [hcud]; exact sub_own (gap.last c q).2
    · simp only [if_true] at hpl hcud ⊢
      have q : (cs.drop place).head? = some c := by
        rw [List.head?_drop, ← hpl]; exact hci
      rw [hcud]; exact sup_own (gap.head c q).2
  have adj : AdjacentAt above h.ct u d :=
    ⟨hlink, gap.ne, gap.ltU, gap.ltD, gap.partU, gap.partD, gap.nameU, gap.nameD⟩
  -- groups with the class
  have hsame : ∀ g ∈ h.agroups a, (∃ t ∈ h.gtiers g, h.tcls t = if above then d else u) →
      (h.gtiers g).map h.tcls = cs := by
    rintro g hg ⟨t, ht, q⟩
    refine e.rows.same _ (hmem g hg) _ hcsm (h.tcls t) (List.mem_map.mpr ⟨t, ht, rfl⟩) c hcm ?_
    rw [q, hcud]
  have hnone : ∀ g ∈ h.agroups a, (¬ ∃ t ∈ h.gtiers g, h.tcls t = if above then d else u) →
      (pageOf h g).findIdx? (·.1 == cname) = none := by
    intro g hg hno
    rw [List.findIdx?_eq_none_iff]
    intro x hx
    obtain ⟨t, ht, rfl⟩ := List.mem_map.mp hx
    rw [Bool.eq_false_iff]
    intro q
    refine hno ⟨t, ht, ?_⟩
    rw [hcud]
    refine e.rows.eq (hmem g hg) hcsm (List.mem_map.mpr ⟨t, ht, rfl⟩) hcm ?_
    rw [hn0]; simpa using q
  have hfind : ∀ g ∈ h.agroups a, (∃ t ∈ h.gtiers g, h.tcls t = if above then d else u) →
      (pageOf h g).findIdx? (·.1 == cname) = some i := by
    intro g hg hex
    rw [← hi, ← hsame g hg hex]
    unfold pageOf
    rw [List.findIdx?_map, List.findIdx?_map]
    rfl
  have hplace : ∀ g ∈ h.agroups a, (∃ t ∈ h.gtiers g, h.tcls t = if above then d else u) → ∀ p',
      Page.interleave name above cname fromBelow labels (pageOf h g) = some p' →
      ∃ k, Spot h g ((h.gtiers g).take place) ((h.gtiers g).drop place) k u d fromBelow ∧
        p' = (pageOf h g).insertIdx place
          (name, (rowsOf h k).map fun r => (r.1, r.2.1, if labels then r.2.2 else "")) := by
    intro g hg hex p' hp'
    have hm := hsame g hg hex
    have m1 : ((h.gtiers g).take place).map h.tcls = cs.take place := by rw [List.map_take, hm]
    have m2 : ((h.gtiers g).drop place).map h.tcls = cs.drop place := by rw [List.map_drop, hm]
    have hsrc : ∃ k, (if fromBelow then (h.gtiers g)[place]? = some k else ((h.gtiers g).take place).getLast? = some k) ∧
        rowsOf h k ≠ [] ∧ p' = (pageOf h g).insertIdx place
          (name, (rowsOf h k).map fun r => (r.1, r.2.1, if labels then r.2.2 else "")) := by
      unfold Page.interleave at hp'
      rw [hfind g hg hex] at hp'
      simp only [hpl] at hp'
      cases fromBelow
      · simp only [Bool.false_eq_true, if_false] at hp' ⊢
        rw [show (pageOf h g).take place = ((h.gtiers g).take place).map _ from (List.map_take ..).symm, List.getLast?_map] at hp'
        cases hk : ((h.gtiers g).take place).getLast? with
        | none => rw [hk] at hp'; cases hp'
        | some k =>
          rw [hk] at hp'
          simp only [Option.map_some] at hp'
          refine ⟨k, rfl, ?_⟩
          cases hr : rowsOf h k with
          | nil => rw [hr] at hp'; cases hp'
          | cons r rs => rw [hr] at hp'; exact ⟨by simp, (Option.some.inj hp').symm⟩
      · simp only [if_true] at hp' ⊢
        rw [show (pageOf h g)[place]? = _ from List.getElem?_map ..] at hp'
        cases hk : (h.gtiers g)[place]? with
        | none => rw [hk] at hp'; cases hp'
        | some k =>
          rw [hk] at hp'
          simp only [Option.map_some] at hp'
          refine ⟨k, rfl, ?_⟩
          cases hr : rowsOf h k with
          | nil => rw [hr] at hp'; cases hp'
          | cons r rs => rw [hr] at hp'; exact ⟨by simp, (Option.some.inj hp').symm⟩
    obtain ⟨k, s1, s2, s3⟩ := hsrc
    refine ⟨k, ⟨⟨(List.take_append_drop _ _).symm, ?_, ?_, ?_, ?_, ?_⟩, ?_, ?_⟩, s3⟩
    · intro t ht
      exact (gap.last (h.tcls t) (by rw [← m1, List.getLast?_map, ht]; rfl)).1
    · intro t ht
      exact (gap.head (h.tcls t) (by rw [← m2, List.head?_map, ht]; rfl)).1
    · intro t ht q
      exact gap.outU (by rw [← m2]; exact List.mem_map.mpr ⟨t, ht, q⟩)
    · intro t ht q
      exact gap.outD (by rw [← m1]; exact List.mem_map.mpr ⟨t, ht, q⟩)
    · cases fromBelow
      · simpa using s1
      · simpa [List.head?_drop] using s1
    · intro q
      exact s2 (by unfold rowsOf; rw [q]; rfl)
    · rw [List.take_append_drop]; exact e.fit g hg
  have hpage : ∀ g ∈ h.agroups a, ∃ p', Page.interleave name above cname fromBelow labels (pageOf h g) = some p' := by
    intro g hg
    obtain ⟨j, hj⟩ := List.mem_iff_getElem?.mp hg
    have hl := getElem?_lt hj
    have q : (bookOf h a)[j]? = some (pageOf h g) := by unfold bookOf; rw [List.getElem?_map, hj]; rfl
    have hl' : j < b'.length := by rw [hlen]; exact getElem?_lt q
    exact ⟨_, hpages j _ _ q (List.getElem?_eq_getElem hl')⟩
  have spot : ∀ g ∈ h.agroups a, (∃ t ∈ h.gtiers g, h.tcls t = if above then d else u) →
      ∃ pre post k, Spot h g pre post k u d fromBelow ∧ ClassLinks h.ct ((pre ++ post).map h.tcls) ∧
        OwnLinks h.ct ((pre ++ post).map h.tcls) := by
    intro g hg hex
    obtain ⟨p', hp'⟩ := hpage g hg
    obtain ⟨k, s, -⟩ := hplace g hg hex p' hp'
    refine ⟨_, _, k, s, ?_⟩
    rw [← s.eq]
    exact ⟨(e.row hg).links, (e.row hg).own⟩
  have hL : ∀ g ∈ h.agroups a, ∀ x, OnTiers h (h.gtiers g) x → OnGroups h (h.agroups a) x := fun g hg x q => ⟨g, hg, q⟩
  have hlt : ∀ g ∈ h.agroups a, ∀ t ∈ h.gtiers g, h.tcls t < h.ct.next := fun g hg t ht =>
    (e.row hg).lt _ (List.mem_map.mpr ⟨t, ht, rfl⟩)
  obtain ⟨new, h', er, k1, -, -, -, -, k6, k7, k8, k9, rest⟩ :=
    interleave_all h a name cname above fromBelow labels u d e.wfc hplain hne hcne (by rw [hcud]; exact hc) adj hlt
      e.old e.nodup e.sep e.tidy hL e.alloc e.allocUp spot (fun g hg _ => e.far g hg)
  have hidx : ∀ g' ∈ h'.agroups a, ∃ (i : Nat) (g : GRef), (h.agroups a)[i]? = some g ∧ (h'.agroups a)[i]? = some g' := by
    intro g1 hg1
    obtain ⟨i, e⟩ := List.mem_iff_getElem?.mp hg1
    have hl := (List.getElem?_eq_some_iff.mp e).1
    rw [k6] at hl
    exact ⟨i, _, List.getElem?_eq_getElem hl, e⟩
  have hmT : ∀ g ∈ h.agroups a, ∀ t ∈ h.gtiers g, h'.tseq t = h.tseq t ∧ h'.tcls t = h.tcls t ∧ h'.tname t = h.tname t :=
    fun g hg t ht => k9 t ((e.old g hg).2 t ht).1
  -- the changed groups
  have hdone : ∀ (j : Nat) g g', (h.agroups a)[j]? = some g → (h'.agroups a)[j]? = some g' →
      (∃ t ∈ h.gtiers g, h.tcls t = if above then d else u) → ∃ t' k,
        h'.gtiers g' = (h.gtiers g).take place ++ t' :: (h.gtiers g).drop place ∧
        Spot h g ((h.gtiers g).take place) ((h.gtiers g).drop place) k u d fromBelow ∧
        CopyOf h k h' t' new labels ∧ RelatedByContainment h' (h'.gtiers g') ∧ FitGroup h' (h'.gtiers g') := by
    intro j g g' q1 q2 hex
    have hg := List.mem_of_getElem? q1
    have := k7 j g g' q1 q2
    rw [if_pos hex] at this
    obtain ⟨pre, post, k, t', s1, s2, s3, s4, s5⟩ := this
    obtain ⟨p', hp'⟩ := hpage g hg
    obtain ⟨k', s, -⟩ := hplace g hg hex p' hp'
    obtain ⟨rfl, rfl, rfl⟩ := s.toPlace.unique s1
    exact ⟨t', k', s2, s, s3, by rw [s2]; exact s4, by rw [s2]; exact s5⟩
  have hgroup : ∀ (j : Nat) g g', (h.agroups a)[j]? = some g → (h'.agroups a)[j]? = some g' →
      FitGroup h' (h'.gtiers g') ∧ UpClosed h' (h'.gtiers g') ∧ RelatedByContainment h' (h'.gtiers g') := by
    intro j g g' q1 q2
    have hg := List.mem_of_getElem? q1
    by_cases hex : ∃ t ∈ h.gtiers g, h.tcls t = if above then d else u
    · obtain ⟨t', k, -, -, -, s4, s5⟩ := hdone j g g' q1 q2 hex
      exact ⟨s5, rest.up j g g' q1 q2 hex, s4⟩
    · have := k7 j g g' q1 q2
      rw [if_neg hex] at this
      obtain ⟨rfl, p1, m⟩ := this
      rw [p1]
      refine e.kept hg m rest.nT rest.nE ?_ ?_
      · intro v x hx
        by_cases hv : OnTiers h (h.gtiers g') v
        · obtain ⟨t, ht, hv⟩ := hv
          exact Or.inl (by rw [← (m.relation t ht v hv).1]; exact hx)
        · by_cases hxx : OnTiers h (h.gtiers g') x
          · have hs := rest.tidy.down v x hx
            obtain ⟨t, ht, hxt⟩ := hxx
            rw [(m.relation t ht x hxt).2.1] at hs
            exact Or.inl (e.tidy.up v x ⟨g', hg, t, ht, hxt⟩ hs)
          · exact Or.inr ⟨hv, hxx⟩
      · intro v x hx
        by_cases hxx : OnTiers h (h.gtiers g') x
        · obtain ⟨t, ht, hxt⟩ := hxx
          rw [(m.relation t ht x hxt).2.1] at hx
          exact Or.inl hx
        · exact Or.inr hxx
  have hsplitT : ∀ g, ((h.gtiers g).map h.tcls).take place ++ ((h.gtiers g).map h.tcls).drop place = (h.gtiers g).map h.tcls :=
    fun g => List.take_append_drop _ _
  have hrows : ClassRows h'.ct ((h'.agroups a).map fun g => (h'.gtiers g).map h'.tcls) := by
    have hex0 : ∃ t ∈ h.gtiers g0, h.tcls t = if above then d else u := ⟨t0, ht0, by rw [hcud, hcc]⟩
    obtain ⟨p', hp'⟩ := hpage g0 hg0
    obtain ⟨k, s, -⟩ := hplace g0 hg0 hex0 p' hp'
    have hlinks := rest.links g0 hg0 _ _ k s.toPlace (by rw [← s.eq]; exact (e.row hg0).links)
      (by rw [← s.eq]; exact (e.row hg0).own)
    rw [List.map_take, List.map_drop, hcs] at hlinks
    refine e.rows.insert e.wfc (c := c) (P := cs.take place) (Q := cs.drop place) (by rw [hsplit]; exact hcsm)
      (by rw [hsplit]; exact hcm) gap rest.newOld rest.newLt rest.between (by rw [k1]; exact hplain) rest.ownSubU
      rest.ownSupD rest.ownSup rest.ownSub ⟨?_, rest.newKind.2⟩ rest.kinds rest.names hlinks ?_ ?_
    · exact isSub_trans rest.wfc (interval_hier rest.wfc) _ _ (Nat.le_refl _) rest.newLt rest.newKind.1
    · intro cs1 hcs1 x hx
      obtain ⟨g, hg, rfl⟩ := List.mem_map.mp hcs1
      obtain ⟨t, ht, rfl⟩ := List.mem_map.mp hx
      rw [k1]
      exact hfresh' g hg t ht
    · intro cs' hcs'
      obtain ⟨g', hg', rfl⟩ := List.mem_map.mp hcs'
      obtain ⟨j, g, q1, q2⟩ := hidx g' hg'
      have hg := List.mem_of_getElem? q1
      refine ⟨_, hmem g hg, ?_⟩
      by_cases hex : ∃ t ∈ h.gtiers g, h.tcls t = if above then d else u
      · left
        obtain ⟨t', k, s1, s2, s3, -⟩ := hdone j g g' q1 q2 hex
        refine ⟨by rw [hsame g hg hex]; exact hcm, ?_⟩
        have hm := hsame g hg hex
        rw [s1, List.map_append, List.map_cons, s3.tcls,
          List.map_congr_left (fun t ht => (hmT g hg t (List.mem_of_mem_take ht)).2.1),
          List.map_congr_left (l := (h.gtiers g).drop place) (fun t ht => (hmT g hg t (List.mem_of_mem_drop ht)).2.1),
          List.map_take, List.map_drop, hm]
      · right
        have := k7 j g g' q1 q2
        rw [if_neg hex] at this
        obtain ⟨rfl, p1, m⟩ := this
        refine ⟨?_, ?_⟩
        · intro q
          obtain ⟨t, ht, q⟩ := List.mem_map.mp q
          exact hex ⟨t, ht, by rw [hcud]; exact q⟩
        · rw [p1]
          exact List.map_congr_left fun t ht => m.tcls t ht
  have hpg : ∀ (j : Nat) g g' p', (h.agroups a)[j]? = some g → (h'.agroups a)[j]? = some g' →
      Page.interleave name above cname fromBelow labels (pageOf h g) = some p' → pageOf h' g' = p' := by
    intro j g g' p' q1 q2 hp'
    have hg := List.mem_of_getElem? q1
    have hF : ∀ t ∈ h.gtiers g, (h'.ct.name (h'.tcls t), rowsOf h' t) = (h.ct.name (h.tcls t), rowsOf h t) := by
      intro t ht
      obtain ⟨m1, m2, -⟩ := hmT g hg t ht
      refine Prod.ext ?_ (rowsOf_congr m1 ?_)
      · show h'.ct.name (h'.tcls t) = _
        rw [m2, rest.names _ (hlt g hg t ht)]
      · intro x hx
        obtain ⟨v1, v2, v3, -⟩ := k8 x (((e.old g hg).2 t ht).2 x hx)
        exact ⟨v1, v2, v3⟩
    show pageOf h' g' = p'
    by_cases hex : ∃ t ∈ h.gtiers g, h.tcls t = if above then d else u
    · obtain ⟨t', k, s1, s2, s3, -⟩ := hdone j g g' q1 q2 hex
      obtain ⟨k2, s4, s5⟩ := hplace g hg hex p' hp'
      obtain ⟨-, -, rfl⟩ := s2.toPlace.unique s4.toPlace
      have hpg : place ≤ (pageOf h g).length := by
        have := congrArg List.length (hsame g hg hex)
        rw [List.length_map] at this
        unfold pageOf
        rw [List.length_map, this]; exact hple
      rw [s5, insertIdx_take _ _ _ hpg]
      unfold pageOf
      rw [s1, List.map_append, List.map_cons,
        List.map_congr_left (fun t ht => hF t (List.mem_of_mem_take ht)),
        List.map_congr_left (l := (h.gtiers g).drop place) (fun t ht => hF t (List.mem_of_mem_drop ht)),
        List.map_take, List.map_drop]
      congr 2
      refine Prod.ext ?_ ?_
      · show h'.ct.name (h'.tcls t') = name
        rw [s3.tcls, k1]
      · show rowsOf h' t' = _
        unfold rowsOf
        rw [s3.values, List.map_map]
        rfl
    · have := k7 j g g' q1 q2
      rw [if_neg hex] at this
      obtain ⟨rfl, p1, m⟩ := this
      unfold Page.interleave at hp'
      rw [hnone g' hg hex] at hp'
      rw [← Option.some.inj hp']
      unfold pageOf
      rw [p1]
      exact List.map_congr_left hF
  have hE1 : Editable h' (h'.agroups a) := by
    refine ⟨rest.wfc, rest.nodup, ?_, rest.sep, rest.tidy.mono ?_, rest.allocated, rest.allocatedUp, ?_, ?_, ?_,
      hrows⟩
    · intro g' hg'
      obtain ⟨j, g, q1, q2⟩ := hidx g' hg'
      exact ⟨rest.lt g' hg', (hgroup j g g' q1 q2).1.old⟩
    · rintro x ⟨g', hg', t, ht, hx⟩
      obtain ⟨j, g, q1, q2⟩ := hidx g' hg'
      rcases rest.entries.entries g' hg' t ht x hx with q | ⟨g1, hg1, t1, ht1, hx1⟩
      · exact Or.inr ⟨q, ((hgroup j g g' q1 q2).1.old t ht).2 x hx⟩
      · exact Or.inl ⟨g1, hg1, t1, ht1, hx1⟩
    · intro g' hg'
      obtain ⟨j, g, q1, q2⟩ := hidx g' hg'
      exact (hgroup j g g' q1 q2).1
    · intro g' hg'
      obtain ⟨j, g, q1, q2⟩ := hidx g' hg'
      exact (hgroup j g g' q1 q2).2.1
    · intro g' hg'
      obtain ⟨j, g, q1, q2⟩ := hidx g' hg'
      exact (hgroup j g g' q1 q2).2.2
  have hmd : (∀ g ∈ h.agroups a, Homed h (h.gtiers g)) → ∀ g' ∈ h'.agroups a, Homed h' (h'.gtiers g') := by
    intro hm g' hg'
    obtain ⟨j, g, q1, q2⟩ := hidx g' hg'
    have hg := List.mem_of_getElem? q1
    have m := hm g hg
    have hbelow : ∀ (k : Nat) t, (h'.gtiers g')[k + 1]? = some t → h'.ct.sup (h'.tcls t) ≠ some cTop := by
      intro k t hk
      have hl := getElem?_lt hk
      have hk0 : (h'.gtiers g')[k]? = some (h'.gtiers g')[k] := List.getElem?_eq_getElem (by omega)
      have row := hE1.row hg'
      have := row.links.down k (h'.tcls (h'.gtiers g')[k]) (h'.tcls t) (by rw [List.getElem?_map, hk0]; rfl)
        (by rw [List.getElem?_map, hk]; rfl)
      rw [this.2]
      intro z
      have := (row.own (h'.tcls (h'.gtiers g')[k]) (List.mem_map.mpr ⟨_, List.getElem_mem _, rfl⟩)).2.1
      rw [Option.some.inj z, isSub_refl] at this
      cases this
    have hkeep : ∀ t ∈ h.gtiers g, ∀ x ∈ (h'.tseq t).vals, h'.intier x = some t := by
      intro t ht x hx
      rw [(hmT g hg t ht).1] at hx
      rw [rest.intier x (((e.old g hg).2 t ht).2 x hx)]
      exact m.home t ht x hx
    by_cases hex : ∃ t ∈ h.gtiers g, h.tcls t = if above then d else u
    · have ho := rest.home j g g' q1 q2 hex
      refine ⟨?_, ?_, ho.typed, ho.fresh⟩
      · intro t ht x hx
        by_cases hn : h.nT ≤ t
        · exact ho.home t ht hn x hx
        · obtain ⟨t', k, s1, s2, s3, -⟩ := hdone j g g' q1 q2 hex
          rw [s1] at ht
          rcases List.mem_append.mp ht with z | z
          · exact hkeep t (List.mem_of_mem_take z) x hx
          · rcases List.mem_cons.mp z with z | z
            · exact absurd (z ▸ s3.new.1) hn
            · exact hkeep t (List.mem_of_mem_drop z) x hx
      · intro k t hk _
        rw [(ho.fresh t (List.mem_of_getElem? hk)).1]
        exact hbelow k t hk
    · have := k7 j g g' q1 q2
      rw [if_neg hex] at this
      obtain ⟨rfl, p1, -⟩ := this
      refine ⟨?_, ?_, ?_, ?_⟩
      rotate_left 3
      · intro t ht
        rw [p1] at ht
        rw [(hmT g' hg t ht).2.1]
        rcases rest.tsup t ((e.old g' hg).2 t ht).1 with ⟨z1, z2⟩ | z
        · have hcn : c ∉ (h.gtiers g').map h.tcls := by
            intro z
            obtain ⟨s, hs, z⟩ := List.mem_map.mp z
            exact hex ⟨s, hs, by rw [z, hcud]⟩
          obtain ⟨n1, n2⟩ := e.rows.besides (c := c) (P := cs.take place) (Q := cs.drop place) (by rw [hsplit]; exact hcsm)
            (by rw [hsplit]; exact hcm) gap _ (hmem g' hg) hcn
          have hc : h.tcls t ∈ (h.gtiers g').map h.tcls := List.mem_map_of_mem ht
          have hl := (e.row hg).lt _ hc
          obtain ⟨w1, w2⟩ := (e.row hg).fixed (ct' := h'.ct) hc (rest.ownSup _ hl fun z => n2 (z ▸ hc))
            (rest.ownSub _ hl fun z => n1 (z ▸ hc))
          rw [z1, z2, w1, w2]
          exact m.fresh t ht
        · exact z
      · rw [p1]; exact hkeep
      · intro k t hk hne
        have hb := hbelow k t hk
        rw [p1] at hk
        have htm := List.mem_of_getElem? hk
        rcases rest.tsup t ((e.old g' hg).2 t htm).1 with ⟨q, -⟩ | ⟨q, -⟩
        · rw [q]
          rw [(hmT g' hg t htm).1] at hne
          exact m.below k t hk hne
        · rw [q, ← (hmT g' hg t htm).2.1]
          exact hb
      · intro k t t' j1 j2 v hv
        rw [p1] at j1 j2
        have htm := List.mem_of_getElem? j1
        rw [(hmT g' hg t htm).1] at hv
        rw [(hmT g' hg t' (List.mem_of_getElem? j2)).2.1, rest.ecls v (((e.old g' hg).2 t htm).2 v hv)]
        · exact m.typed k t t' j1 j2 v hv
        · intro g2 hg2 hex2 o
          exact e.apart hg2 hg (fun q => hex (q ▸ hex2)) o ⟨t, htm, hv⟩
  have hch : ∀ P, (P = Strung ∨ P = Backed) → ∀ (j : Nat) g g', (h.agroups a)[j]? = some g → (h'.agroups a)[j]? = some g' →
      P h (h.gtiers g) ∨ above = true ∧ ((pageOf h g).map (·.1)).head? = some cname → P h' (h'.gtiers g') := by
    intro P hPd j g g' q1 q2 hor
    have hg := List.mem_of_getElem? q1
    have hhead : ((pageOf h g).map (·.1)).head? = some cname → (pageOf h g).findIdx? (·.1 == cname) = some 0 := by
      intro q
      cases hp : pageOf h g with
      | nil => rw [hp] at q; cases q
      | cons x l =>
        rw [hp] at q
        simp only [List.map_cons, List.head?_cons, Option.some.injEq] at q
        rw [List.findIdx?_cons]
        simp [q]
    by_cases hex : ∃ t ∈ h.gtiers g, h.tcls t = if above then d else u
    · have ho := rest.home j g g' q1 q2 hex
      obtain ⟨t', k, s1, s2, s3, -⟩ := hdone j g g' q1 q2 hex
      by_cases hz : place = 0
      · have hz' : (h'.gtiers g')[0]? = some t' := by rw [s1, hz]; rfl
        rcases hPd with rfl | rfl
        rotate_left
        · exact ho.backed t' hz' s3.new.1
        refine ho.chained t' hz' s3.new.1 ?_
        obtain ⟨p, hp, hpt, -⟩ := (hrows.row _ (List.mem_map_of_mem (List.mem_of_getElem? q2))).top (h'.tcls t') (by
          rw [List.head?_map, List.head?_eq_getElem?, hz']; rfl)
        exact ⟨p, sup_own hp, hpt⟩
      · have hc : P h (h.gtiers g) := by
          rcases hor with q | ⟨q, q'⟩
          · exact q
          · have := (hfind g hg hex).symm.trans (hhead q')
            rw [q, if_pos rfl, Option.some.inj this] at hpl
            exact absurd hpl.symm hz
        have h0 : ∀ t, (h'.gtiers g')[0]? = some t → (h.gtiers g)[0]? = some t := by
          intro t ht
          have hl := congrArg List.length (hsame g hg hex)
          rw [List.length_map] at hl
          rw [s1] at ht
          cases hgt : h.gtiers g with
          | nil => rw [hgt] at hl; simp at hl; rw [← hl] at hple; exact absurd (Nat.le_zero.mp hple) hz
          | cons s l =>
            rw [hgt] at ht
            cases hpz : place with
            | zero => exact absurd hpz hz
            | succ n => rw [hpz] at ht; exact ht
        rcases hPd with rfl | rfl <;> intro t ht n x hx <;> have ht0 := h0 t ht <;> have htm := List.mem_of_getElem? ht0 <;>
          rw [(hmT g hg t htm).1] at hx ⊢ <;> have hxm := List.mem_of_getElem? hx <;>
          have k := ho.first t ht ((e.old g hg).2 t htm).1 x hxm ((e.rel g hg).top t ht0 x hxm)
        · rw [k.1, k.2.1]
          exact hc t ht0 n x hx
        · rw [k.2.2]
          exact hc t ht0 n x hx
    · have := k7 j g g' q1 q2
      rw [if_neg hex] at this
      obtain ⟨rfl, p1, m⟩ := this
      rw [p1]
      rcases hor with q | ⟨-, q⟩
      · rcases hPd with rfl | rfl
        · exact Strung.unmoved q m
        · exact Backed.unmoved q m
      · have := (hnone g' hg hex).symm.trans (hhead q)
        cases this
  refine ⟨h', er, hE1, ?_, hmd, ?_, ?_, ?_⟩
  rotate_left 3
  · intro q g' hg'
    cases hb : h'.gpoint g' with
    | false => rfl
    | true =>
      obtain ⟨q1, q2⟩ := rest.gpoint g' hb
      obtain ⟨l1, l2⟩ := rest.entries.lt g' hg'
      rcases l2 with l2 | l2
      · rw [q g' l2] at q1; cases q1
      · exact absurd q2 (fun q2 => q2.elim (Nat.not_lt_of_le l2) (Nat.not_le_of_lt l1))
  · have hlb : (bookOf h a).length = (h.agroups a).length := by unfold bookOf; exact List.length_map _
    have : bookOf h' a = b'.map id := by
      unfold bookOf
      refine map_eq_of_index (by rw [k6, hlen, hlb]) ?_
      intro j g' p' q2 q3
      have hl := getElem?_lt q2
      rw [k6] at hl
      have q1 := List.getElem?_eq_getElem hl
      refine hpg j _ g' p' q1 q2 (hpages j _ _ ?_ q3)
      unfold bookOf; rw [List.getElem?_map, q1]; rfl
    rw [this, List.map_id]
  · intro q g' hg' t ht
    obtain ⟨j, g, q1, q2⟩ := hidx g' hg'
    have hg := List.mem_of_getElem? q1
    have hold : ∀ t ∈ h.gtiers g, h'.ct.isSub (h'.tcls t) cPoint = false := by
      intro t ht
      rw [(hmT g hg t ht).2.1, rest.kinds _ _ (hlt g hg t ht)]
      exact q g hg t ht
    by_cases hex : ∃ t ∈ h.gtiers g, h.tcls t = if above then d else u
    · obtain ⟨t', k, s1, s2, s3, -⟩ := hdone j g g' q1 q2 hex
      rw [s1] at ht
      rcases List.mem_append.mp ht with z | z
      · exact hold t (List.mem_of_mem_take z)
      · rcases List.mem_cons.mp z with z | z
        · rw [z, s3.tcls]; exact rest.notPoint
        · exact hold t (List.mem_of_mem_drop z)
    · have := k7 j g g' q1 q2
      rw [if_neg hex] at this
      obtain ⟨rfl, p1, -⟩ := this
      rw [p1] at ht
      exact hold t ht
  · rintro P hPd dr dr' ⟨fl, rfl, hfl⟩ hd
    unfold Draft.interleave at hd
    split at hd
    case isFalse => cases hd
    obtain ⟨hl1, hi1⟩ := mapM_some hd
    rw [List.length_map] at hl1
    refine DraftedBy.of_index rest.nodup (by rw [hl1, k6]) ?_
    intro j g' q2
    have hl := getElem?_lt q2
    rw [k6] at hl
    have q1 := List.getElem?_eq_getElem hl
    have q3 := List.getElem?_eq_getElem (show j < dr'.length by rw [hl1]; exact hl)
    have hstep := hi1 j _ _ (by rw [List.getElem?_map, q1]; rfl) q3
    simp only [Option.map_eq_some_iff] at hstep
    obtain ⟨p', hp', heq⟩ := hstep
    refine ⟨_, by rw [q3, ← heq, hpg j _ g' p' q1 q2 hp'], ?_⟩
    intro q
    refine hch P hPd j _ g' q1 q2 ?_
    simp only [Bool.or_eq_true, Bool.and_eq_true, decide_eq_true_eq] at q
    exact q.imp (hfl _ (List.mem_of_getElem? q1)) id

end ATG
