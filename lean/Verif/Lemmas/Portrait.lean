import Verif.Spec.Portrait
import Verif.Spec.Stair
import Verif.Lemmas.WorkInv
/-!
# `repr` of an interval from plain data
-/
namespace ATG

theorem filter_eq_single {α} {l : List α} (nd : l.Nodup) {P : α → Bool} {u : α} (hu : u ∈ l) (hP : P u = true)
    (only : ∀ v ∈ l, P v = true → v = u) : l.filter P = [u] := by
  have hm : u ∈ l.filter P := List.mem_filter.mpr ⟨hu, hP⟩
  have hnd : (l.filter P).Nodup := nd.filter P
  have hall : ∀ v ∈ l.filter P, v = u := fun v hv => only v (List.mem_filter.mp hv).1 (List.mem_filter.mp hv).2
  match hl : l.filter P with
  | [] => rw [hl] at hm; cases hm
  | [v] => rw [hall v (by rw [hl]; simp)]
  | v :: w :: r =>
    exfalso
    rw [hl] at hnd
    have h1 := hall v (by rw [hl]; simp)
    have h2 := hall w (by rw [hl]; simp)
    exact (List.nodup_cons.mp hnd).1 (by rw [h1, h2]; simp)

/-- two entries of a tier that contain the same entry are the same -/
theorem FitGroup.around {h : Heap} {ts : List TRef} (fit : FitGroup h ts) {t t' : TRef} (ht : t ∈ ts) (ht' : t' ∈ ts) {u v x : Ref}
    (hu : u ∈ (h.tseq t).vals) (hv : v ∈ (h.tseq t).vals) (hx : x ∈ (h.tseq t').vals) (h1 : Inside h u x) (h2 : Inside h v x) : v = u := by
  have px := fit.positive t' ht' x hx
  obtain ⟨i, hi⟩ := List.mem_iff_getElem?.mp hu
  obtain ⟨j, hj⟩ := List.mem_iff_getElem?.mp hv
  obtain ⟨li, ei⟩ := List.getElem?_eq_some_iff.mp hi
  obtain ⟨lj, ej⟩ := List.getElem?_eq_some_iff.mp hj
  have pw := List.pairwise_iff_getElem.mp (fit.disjoint t ht)
  obtain ⟨a1, a2⟩ := h1
  obtain ⟨b1, b2⟩ := h2
  rcases Nat.lt_trichotomy i j with q | q | q
  · have := pw i j li lj q
    rw [ei, ej] at this
    grind
  · subst q
    rw [← ei, ← ej]
  · have := pw j i lj li q
    rw [ei, ej] at this
    grind

/-- the entries of one tier of a group occur once -/
theorem FitGroup.tierNodup {h : Heap} {ts : List TRef} (fit : FitGroup h ts) {t : TRef} (ht : t ∈ ts) : (h.tseq t).vals.Nodup :=
  (List.pairwise_flatten.mp fit.once).1 _ (List.mem_map_of_mem ht)

/-- the entries of the last tier have empty subset lists -/
theorem lastSubs_nil {h : Heap} {ts : List TRef} {L : Ref → Prop} (fit : FitGroup h ts) (rel : RelatedByContainment h ts) (td : TidyOn L h)
    (cd : (ts.map h.tcls).Nodup) {j : Nat} {t : TRef} (ht : ts[j]? = some t) (hl : j + 1 = ts.length) {v : Ref} (hv : v ∈ (h.tseq t).vals) :
    (h.subs v).vals = [] := by
  cases hs : (h.subs v).vals with
  | nil => rfl
  | cons x r =>
    exfalso
    have hx : x ∈ (h.subs v).vals := by rw [hs]; simp
    obtain ⟨t', ht', hxt⟩ := (fit.closed v x hx).mp ⟨t, List.mem_of_getElem? ht, hv⟩
    obtain ⟨i, hi⟩ := List.mem_iff_getElem?.mp ht'
    have hsup := td.down v x hx
    cases i with
    | zero =>
      rw [rel.top t' hi x hxt] at hsup
      cases hsup
    | succ i =>
      have li := getElem?_lt hi
      have h0 : ts[i]? = some ts[i] := List.getElem?_eq_getElem (by omega)
      obtain ⟨u, hu, hxu⟩ := rel.covered i _ t' h0 hi x hxt
      have e := (td.down u x hxu).symm.trans hsup
      cases e
      have c1 := fit.cls _ (List.mem_of_getElem? h0) v hu
      have c2 := fit.cls _ (List.mem_of_getElem? ht) v hv
      have e1 : (ts.map h.tcls)[i]? = some (h.cls v) := by rw [List.getElem?_map, h0, c1]; rfl
      have e2 : (ts.map h.tcls)[j]? = some (h.cls v) := by rw [List.getElem?_map, ht, c2]; rfl
      obtain ⟨l1, z1⟩ := List.getElem?_eq_some_iff.mp e1
      obtain ⟨l2, z2⟩ := List.getElem?_eq_some_iff.mp e2
      exact List.pairwise_iff_getElem.mp cd i j l1 l2 (by omega) (z1.trans z2.symm)

/-- linked classes form a chain -/
theorem ClassLinks.descent {ct : ClassTab} {cs : List CRef} (l : ClassLinks ct cs) (ne : cs ≠ []) : ∃ p q, Descent ct p cs q := by
  have len := List.length_pos_iff.mpr ne
  obtain ⟨p, hp, -⟩ := l.top _ (List.getElem?_eq_getElem len)
  obtain ⟨q, hq, -⟩ := l.bottom _ (List.getElem?_eq_getElem (by omega))
  refine ⟨p, q, ?_, ?_, l.down⟩
  · rw [List.head?_eq_getElem?, List.getElem?_eq_getElem len]
    exact hp
  · rw [List.getLast?_eq_getElem?, List.getElem?_eq_getElem (by omega)]
    exact hq

theorem intervalRepr_portrait (rq : String → String) {R : ClassTab → List (List CRef) → Prop} {h : Heap} {gs : List GRef}
    (wk : EditableFor R h gs) {g : GRef} (hg : g ∈ gs) {p q : CRef} (cd : ((h.gtiers g).map h.tcls).Nodup)
    (de : Descent h.ct p ((h.gtiers g).map h.tcls) q) {j : Nat} {t : TRef} {x : Ref} (ht : (h.gtiers g)[j]? = some t)
    (hx : x ∈ (h.tseq t).vals) :
    intervalRepr rq h x = (pageOf h g).portrait rq (h.ct.name p) (h.ct.name q) j (h.start x, h.stop x, h.label x) := by
  have fit := wk.fit g hg
  have rel := wk.rel g hg
  have htm := List.mem_of_getElem? ht
  have hj := getElem?_lt ht
  have hcls := fit.cls t htm x hx
  have names : (pageOf h g).map (·.1) = ((h.gtiers g).map h.tcls).map h.ct.name := by
    unfold pageOf
    rw [List.map_map, List.map_map]
    rfl
  have hc : ((h.gtiers g).map h.tcls)[j]? = some (h.tcls t) := by rw [List.getElem?_map, ht]; rfl
  have own : (h.ct.name p :: ((h.gtiers g).map h.tcls).map h.ct.name ++ [h.ct.name q])[j + 1]? = some (h.ct.name (h.tcls t)) := by
    rw [List.cons_append, List.getElem?_cons_succ, List.getElem?_append_left (by simp; exact hj), List.getElem?_map, hc]
    rfl
  obtain ⟨c, hsup, up⟩ : ∃ c, h.ct.sup (h.tcls t) = some c ∧
      (h.ct.name p :: ((h.gtiers g).map h.tcls).map h.ct.name ++ [h.ct.name q])[j]? = some (h.ct.name c) := by
    cases j with
    | zero =>
      refine ⟨p, ?_, rfl⟩
      have := de.first
      rw [List.head?_eq_getElem?, hc] at this
      exact this
    | succ j =>
      have h0 : (h.gtiers g)[j]? = some (h.gtiers g)[j] := List.getElem?_eq_getElem (by omega)
      have h1 : ((h.gtiers g).map h.tcls)[j]? = some (h.tcls (h.gtiers g)[j]) := by rw [List.getElem?_map, h0]; rfl
      refine ⟨_, (de.down j _ _ h1 hc).2, ?_⟩
      rw [List.cons_append, List.getElem?_cons_succ, List.getElem?_append_left (by simp; omega), List.getElem?_map, h1]
      rfl
  obtain ⟨d, hsub, down⟩ : ∃ d, h.ct.sub (h.tcls t) = some d ∧
      (h.ct.name p :: ((h.gtiers g).map h.tcls).map h.ct.name ++ [h.ct.name q])[j + 2]? = some (h.ct.name d) := by
    by_cases hl : j + 1 < (h.gtiers g).length
    · have h0 : (h.gtiers g)[j + 1]? = some (h.gtiers g)[j + 1] := List.getElem?_eq_getElem hl
      have h1 : ((h.gtiers g).map h.tcls)[j + 1]? = some (h.tcls (h.gtiers g)[j + 1]) := by rw [List.getElem?_map, h0]; rfl
      refine ⟨_, (de.down j _ _ hc h1).1, ?_⟩
      rw [List.cons_append, List.getElem?_cons_succ, List.getElem?_append_left (by simp; omega), List.getElem?_map, h1]
      rfl
    · refine ⟨q, ?_, ?_⟩
      · have := de.last
        rw [List.getLast?_eq_getElem?, List.length_map, show (h.gtiers g).length - 1 = j by omega, hc] at this
        exact this
      · rw [List.cons_append, List.getElem?_cons_succ, List.getElem?_append_right (by simp; omega)]
        simp only [List.length_map]
        rw [show j + 1 - (h.gtiers g).length = 0 by omega]
        rfl
  have rows : ∀ i u, (h.gtiers g)[i]? = some u → (pageOf h g).rows i = rowsOf h u := by
    intro i u hu
    unfold Page.rows pageOf
    rw [List.getElem?_map, hu]
    rfl
  have hup : superPart h x = (match (pageOf h g).above (h.start x, h.stop x, h.label x) j with
      | [] => ", .super_instance, None"
      | s :: _ => ", .super_instance: " ++ s.2.2) := by
    unfold superPart
    cases j with
    | zero => rw [rel.top t ht x hx]; rfl
    | succ j =>
      have h0 : (h.gtiers g)[j]? = some (h.gtiers g)[j] := List.getElem?_eq_getElem (by omega)
      obtain ⟨u, hu, hxu⟩ := rel.covered j _ t h0 ht x hx
      obtain ⟨s1, s2⟩ := rel.subs j _ t h0 ht u hu
      have hin : Inside h u x := by
        rw [s1] at hxu
        simpa using (List.mem_filter.mp hxu).2
      rw [(rel.sup j _ t h0 ht u hu x hxu).1]
      unfold Page.above
      simp only
      rw [if_neg s2, rows j _ h0]
      unfold rowsOf
      rw [List.filter_map, filter_eq_single (u := u) (fit.tierNodup (List.mem_of_getElem? h0)) hu]
      · rfl
      · exact decide_eq_true (show Inside h u x from hin)
      · intro v hv hP
        refine fit.around (List.mem_of_getElem? h0) htm hu hv hx hin ?_
        exact of_decide_eq_true (p := Inside h v x) hP
  have hdown : (if (h.subs x).vals = [] then "" else ", .subset_list: " ++ pyList ((subLabels h x).map rq)) =
      (if (((pageOf h g).rows (j + 1)).filter fun s => Span3.within s (h.start x, h.stop x, h.label x)) = [] then ""
        else ", .subset_list: " ++
          pyList ((((pageOf h g).rows (j + 1)).filter fun s => Span3.within s (h.start x, h.stop x, h.label x)).map fun s => rq s.2.2)) := by
    by_cases hl : j + 1 < (h.gtiers g).length
    · have h0 : (h.gtiers g)[j + 1]? = some (h.gtiers g)[j + 1] := List.getElem?_eq_getElem hl
      obtain ⟨s1, s2⟩ := rel.subs j t _ ht h0 x hx
      have key : (((pageOf h g).rows (j + 1)).filter fun s => Span3.within s (h.start x, h.stop x, h.label x)) =
          (h.subs x).vals.map fun y => (h.start y, h.stop y, h.label y) := by
        rw [rows _ _ h0, s1]
        unfold rowsOf
        rw [List.filter_map]
        rfl
      rw [key, if_neg s2, if_neg (by simpa using s2)]
      unfold subLabels
      rw [List.map_map, List.map_map]
      rfl
    · have n : (h.gtiers g)[j + 1]? = none := List.getElem?_eq_none (by omega)
      have e : (pageOf h g).rows (j + 1) = [] := by
        unfold Page.rows pageOf
        rw [List.getElem?_map, n]
        rfl
      rw [lastSubs_nil fit rel wk.tidy cd ht (by omega) hx, e]
      rfl
  unfold intervalRepr Page.portrait
  dsimp only
  rw [hcls, hsup, hsub, names, own, up, down]
  simp only [Option.getD_some]
  rw [hdown, hup]
  simp only [String.append_assoc]
  rfl

end ATG
