import Verif.Lemmas.GroupAligned
import Verif.Lemmas.RelatedAll
import Verif.Props.Relate
import Verif.Props.IvalCleanup
/-!
# Relating two tiers whose boundaries do not match
-/
namespace ATG

/-! ## parts of a tiling -/

theorem Tiles.split {h : Heap} : ∀ {l1 l2 : List Ref} {a b : Time}, Tiles h (l1 ++ l2) a b →
    (l2 ≠ [] → ∃ c, Tiles h l2 c b) ∧ (l1 ≠ [] → ∃ c, Tiles h l1 a c)
  | [], l2, a, b, t => ⟨fun _ => ⟨a, t⟩, fun q => absurd rfl q⟩
  | [x], [], a, b, t => ⟨fun q => absurd rfl q, fun _ => ⟨b, t⟩⟩
  | [x], y :: r, a, b, ⟨h1, h2, h3⟩ => ⟨fun _ => ⟨_, h3⟩, fun _ => ⟨h.stop x, h1, rfl, h2⟩⟩
  | x :: y :: r, l2, a, b, ⟨h1, h2, h3⟩ => by
    have h3 : Tiles h ((y :: r) ++ l2) (h.stop x) b := h3
    obtain ⟨g1, g2⟩ := h3.split
    refine ⟨g1, fun _ => ?_⟩
    obtain ⟨c, hc⟩ := g2 (by simp)
    exact ⟨c, h1, h2, hc⟩

theorem Tiles.part {h : Heap} {L : List (List Ref)} {a b : Time} (t : Tiles h L.flatten a b) (l : List Ref)
    (hl : l ∈ L) (hne : l ≠ []) : ∃ c d, Tiles h l c d := by
  obtain ⟨L1, L2, rfl⟩ := List.append_of_mem hl
  rw [List.flatten_append, List.flatten_cons] at t
  obtain ⟨c, hc⟩ := t.split.1 (by simp [hne])
  obtain ⟨d, hd⟩ := hc.split.2 hne
  exact ⟨c, d, hd⟩

theorem Tiles.head {h : Heap} {x : Ref} {xs : List Ref} {a b : Time} (t : Tiles h (x :: xs) a b) :
    h.start x = a := by
  cases xs with
  | nil => exact t.1
  | cons y r => exact t.1

theorem Tiles.last {h : Heap} : ∀ {l : List Ref} {a b : Time} (_ : Tiles h l a b) (hne : l ≠ []),
    h.stop (l.getLast hne) = b
  | [x], a, b, t, _ => t.2.1
  | x :: y :: r, a, b, ⟨_, _, h3⟩, _ => by
    rw [List.getLast_cons (by simp)]
    exact h3.last (by simp)

theorem Tiles.next {h : Heap} : ∀ {l : List Ref} {a b : Time} (_ : Tiles h l a b) (i : Nat) (x y : Ref),
    l[i]? = some x → l[i + 1]? = some y → h.stop x = h.start y
  | [z], a, b, t, i, x, y, _, h2 => by simp at h2
  | z :: w :: r, a, b, ⟨_, _, h3⟩, 0, x, y, h1, h2 => by
    simp at h1 h2
    subst h1; subst h2
    exact h3.head.symm
  | z :: w :: r, a, b, ⟨_, _, h3⟩, i + 1, x, y, h1, h2 => h3.next i x y (by simpa using h1) (by simpa using h2)

/-! ## one upper interval -/

/-- the heap after the boundaries of `u` and of the first and last entry of its list were set -/
def snapped (h : Heap) (u : Ref) (l : List Ref) (hne : l ≠ []) : Heap :=
  { h with
    start := upd (upd h.start u (max (h.start u) (h.start (l.head hne)))) (l.head hne)
      (max (h.start u) (h.start (l.head hne)))
    stop := upd (upd h.stop u (min (h.stop u) (h.stop (l.getLast hne)))) (l.getLast hne)
      (min (h.stop u) (h.stop (l.getLast hne))) }

theorem related_relates (h : Heap) (u : Ref) (l : List Ref) (ec : Option CRef) (hnd : l.Nodup)
    (hec : ∀ x ∈ l, ec = some (h.cls x)) : Relates h (related h u l ec) [(u, l)] := by
  constructor
  · rfl
  · intro p hp
    have : p = (u, l) := by simpa using hp
    subst this
    simp [related]
  · intro p hp
    have : p = (u, l) := by simpa using hp
    subst this
    exact linked_of _ _ hnd h.fol h.prev rfl rfl
  · intro p hp x hx
    have : p = (u, l) := by simpa using hp
    subst this
    have hx : x ∈ l := hx
    simp [related, hx]
  · intro v hv
    have : v ≠ u := Ne.symm (hv (u, l) (by simp))
    simp [related, upd, this]
  · intro x hx
    have h2 : x ∉ l := hx (u, l) (by simp)
    simp [related, h2, folOf, prevOf]
  · intro p hp
    have : p = (u, l) := by simpa using hp
    subst this
    simp [related]
  · intro p hp x hx
    have : p = (u, l) := by simpa using hp
    subst this
    simp only [related, upd_same]
    exact hec x hx

/-- nothing to add when the list tiles between the boundaries of `w` -/
theorem cleanupSpans_nil (h : Heap) (w : Ref) (l : List Ref) (hl : (h.subs w).vals = l) (hne : l ≠ [])
    (h1 : h.start w = h.start (l.head hne)) (h2 : h.stop w = h.stop (l.getLast hne))
    (h3 : ∀ (i : Nat) x y, l[i]? = some x → l[i + 1]? = some y → h.stop x = h.start y) :
    cleanupSpans h w = [] := by
  unfold cleanupSpans
  rw [hl]
  cases l with
  | nil => rfl
  | cons x xs =>
    simp only []
    have e1 : h.start w = h.start x := h1
    rw [e1, h2, if_pos (allclose_self _), if_pos (allclose_self _)]
    simp only [List.nil_append]
    rw [List.filterMap_eq_nil_iff]
    intro p hp
    obtain ⟨i, hi, rfl⟩ := List.mem_iff_getElem.mp hp
    have hi' : i < xs.length := by simp at hi; omega
    have hi2 : i < (x :: xs).length := by simp; omega
    have e := h3 i (x :: xs)[i] xs[i] (by
      rw [List.getElem?_eq_getElem]) (by
      rw [List.getElem?_cons_succ, List.getElem?_eq_getElem])
    rw [List.getElem_zip]
    simp only [e, allclose_self, if_true]

theorem snapped_next (h : Heap) (u : Ref) (l : List Ref) (hne : l ≠ []) (hnd : l.Nodup) (hu : u ∉ l)
    (h3 : ∀ (i : Nat) x y, l[i]? = some x → l[i + 1]? = some y → h.stop x = h.start y)
    (i : Nat) (x y : Ref) (hx : l[i]? = some x) (hy : l[i + 1]? = some y) :
    (snapped h u l hne).stop x = (snapped h u l hne).start y := by
  have hxl := List.mem_of_getElem? hx
  have hyl := List.mem_of_getElem? hy
  have hxu : x ≠ u := fun e => hu (e ▸ hxl)
  have hyu : y ≠ u := fun e => hu (e ▸ hyl)
  have hi : i < l.length := (List.getElem?_eq_some_iff.mp hx).1
  have hi1 : i + 1 < l.length := (List.getElem?_eq_some_iff.mp hy).1
  have hx2 : x ≠ l.getLast hne := by
    intro e
    have e1 : l[i] = x := (List.getElem?_eq_some_iff.mp hx).2
    rw [List.getLast_eq_getElem, ← e1] at e
    have := (List.getElem_inj hnd).mp e
    omega
  have hy2 : y ≠ l.head hne := by
    intro e
    have e1 : l[i + 1] = y := (List.getElem?_eq_some_iff.mp hy).2
    rw [List.head_eq_getElem, ← e1] at e
    have := (List.getElem_inj hnd).mp e
    omega
  unfold snapped
  simp only []
  rw [upd_ne _ _ _ _ hx2, upd_ne _ _ _ _ hxu, upd_ne _ _ _ _ hy2, upd_ne _ _ _ _ hyu]
  exact h3 i x y hx hy

theorem relateOne_snap (squish : Bool) (lower : TRef) (u : Ref) (l : SL) (h h1 : Heap) (d : CRef)
    (e : setSubsetList u l.vals h = .ok () h1) (hne : l.vals ≠ []) (hs : (h1.subs u).vals = l.vals)
    (hnd : l.vals.Nodup) (hu : u ∉ l.vals) (hd : h1.ct.sub (h1.cls u) = some d)
    (h3 : ∀ (i : Nat) x y, l.vals[i]? = some x → l.vals[i + 1]? = some y → h1.stop x = h1.start y) :
    relateOne lower true squish false u l h = .ok () (snapped h1 u l.vals hne) := by
  unfold relateOne
  mstep e
  mstep M.get_apply h1
  rw [if_neg (by rw [hs]; simpa using hne)]
  have hsn : (do
      let h ← M.get
      match (h.subs u).vals with
      | [] => M.throw .indexError
      | x :: xs => do
        let last := (x :: xs).getLast (by simp)
        let s := max (h.start u) (h.start x)
        let e := min (h.stop u) (h.stop last)
        setStart u s
        setStart x s
        setStop u e
        setStop last e : M Unit) h1 = .ok () (snapped h1 u l.vals hne) := by
    mstep M.get_apply h1
    rw [hs]
    generalize l.vals = m at hne
    cases m with
    | nil => exact absurd rfl hne
    | cons x xs => rfl
  mstep (show (pure () : M Unit) h1 = .ok () h1 from rfl)
  simp only [Bool.not_false, Bool.and_true, if_true]
  mstep hsn
  cases squish with
  | false => rfl
  | true =>
    simp only [if_true]
    rw [ivalCleanup_eq]
    apply ivalCleanup_covered 999 (snapped h1 u l.vals hne) u d hd
    · show (h1.subs u).vals ≠ []
      rw [hs]; exact hne
    · apply cleanupSpans_nil (snapped h1 u l.vals hne) u l.vals hs hne
      · have hh : l.vals.head hne ≠ u := fun e => hu (e ▸ List.head_mem hne)
        unfold snapped
        simp only []
        rw [upd_same, upd_ne _ _ _ _ (Ne.symm hh), upd_same]
      · have hh : l.vals.getLast hne ≠ u := fun e => hu (e ▸ List.getLast_mem hne)
        unfold snapped
        simp only []
        rw [upd_same, upd_ne _ _ _ _ (Ne.symm hh), upd_same]
      · intro i x y hx hy
        exact snapped_next h1 u l.vals hne hnd hu h3 i x y hx hy

/-! ## all upper intervals -/

/-- what relating mismatched intervals, one upper interval after another, achieves -/
structure Snaps (h h' : Heap) (P : List (Ref × List Ref)) : Prop where
  rel : Relates { h with start := h'.start, stop := h'.stop } h' P
  start : ∀ p ∈ P, ∀ x, p.2.head? = some x →
    h'.start p.1 = max (h.start p.1) (h.start x) ∧ h'.start x = max (h.start p.1) (h.start x)
  stop : ∀ p ∈ P, ∀ x, p.2.getLast? = some x →
    h'.stop p.1 = min (h.stop p.1) (h.stop x) ∧ h'.stop x = min (h.stop p.1) (h.stop x)
  otherStart : ∀ x, (∀ p ∈ P, x ≠ p.1 ∧ p.2.head? ≠ some x) → h'.start x = h.start x
  otherStop : ∀ x, (∀ p ∈ P, x ≠ p.1 ∧ p.2.getLast? ≠ some x) → h'.stop x = h.stop x
  exact : h' = (relatedAll h P).retime h'.start h'.stop

theorem forL_snap (squish : Bool) (lower : TRef) (d : CRef) (P : List (Ref × List Ref)) : ∀ h : Heap,
    (P.map (·.1)).Nodup → (P.map (·.2)).flatten.Nodup → (∀ p ∈ P, ∀ q ∈ P, p.1 ∉ q.2) →
    (∀ p ∈ P, ∃ a b, Tiles h p.2 a b) →
    (∀ p ∈ P, h.ct.sub (h.cls p.1) = some d) →
    (∀ p ∈ P, ∀ x ∈ p.2, h.sup x = none ∧ h.label x ≠ "#" ∧ h.cls x = d) →
    ∃ h', M.forL (P.map fun p => (p.1, (⟨p.2, headCls h p.2⟩ : SL)))
        (fun p => relateOne lower true squish false p.1 p.2) h = .ok () h' ∧ Snaps h h' P := by
  induction P with
  | nil =>
    intro h _ _ _ _ _ _
    exact ⟨h, rfl, relates_nil h, by simp, by simp, fun _ _ => rfl, fun _ _ => rfl, rfl⟩
  | cons p P ih =>
    intro h hnu hnl hul ht hd hx
    obtain ⟨u, l⟩ := p
    have hln : l.Nodup := (List.nodup_append.mp hnl).1
    have hdis : ∀ q ∈ P, ∀ x ∈ q.2, x ∉ l := by
      intro q hq x hxq hxl
      have h3 := (List.nodup_append.mp hnl).2.2 x hxl x
      exact h3 (List.mem_flatten.mpr ⟨q.2, List.mem_map.mpr ⟨q, hq, rfl⟩, hxq⟩) rfl
    obtain ⟨a, b, tl⟩ := ht (u, l) (by simp)
    have tl : Tiles h l a b := tl
    have hne : l ≠ [] := tl.ne
    have hl := hx (u, l) (by simp)
    have hdu : h.ct.sub (h.cls u) = some d := hd (u, l) (by simp)
    have hull : u ∉ l := hul (u, l) (by simp) (u, l) (by simp)
    have e1 := setSubsetList_fresh u l h d (fun x hx => (hl x hx).1) tl.byStart
      (fun x hx => ⟨d, hdu, by rw [(hl x hx).2.2]; exact isSub_refl _ _⟩) (fun x hx => (hl x hx).2.2) hln
      (fun x hx => (hl x hx).2.1)
    generalize hec : (if l = [] then none else some d) = ec at e1
    have e2 := relateOne_snap squish lower u ⟨l, headCls h l⟩ h (related h u l ec) d e1 hne
      (by simp [related]) hln hull hdu (fun i x y => tl.next i x y)
    generalize hh1 : snapped (related h u l ec) u l hne = h1 at e2
    rw [List.map_cons, List.nodup_cons] at hnu
    have hnu1 : ∀ q ∈ P, q.1 ≠ u := fun q hq e => hnu.1 (e ▸ List.mem_map.mpr ⟨q, hq, rfl⟩)
    have hst : ∀ x, x ≠ u → x ≠ l.head hne → h1.start x = h.start x := by
      intro x g1 g2
      rw [← hh1]
      unfold snapped
      simp only []
      rw [upd_ne _ _ _ _ g2, upd_ne _ _ _ _ g1]
      rfl
    have hsp : ∀ x, x ≠ u → x ≠ l.getLast hne → h1.stop x = h.stop x := by
      intro x g1 g2
      rw [← hh1]
      unfold snapped
      simp only []
      rw [upd_ne _ _ _ _ g2, upd_ne _ _ _ _ g1]
      rfl
    have hfar : ∀ x, x ≠ u → x ∉ l → h1.start x = h.start x ∧ h1.stop x = h.stop x := by
      intro x g1 g2
      exact ⟨hst x g1 (fun e => g2 (e ▸ List.head_mem hne)), hsp x g1 (fun e => g2 (e ▸ List.getLast_mem hne))⟩
    have hfq : ∀ q ∈ P, ∀ x ∈ q.2, h1.start x = h.start x ∧ h1.stop x = h.stop x := by
      intro q hq x hxq
      exact hfar x (fun e => hul (u, l) (by simp) q (by simp [hq]) (e ▸ hxq)) (hdis q hq x hxq)
    have hfu : ∀ q ∈ P, h1.start q.1 = h.start q.1 ∧ h1.stop q.1 = h.stop q.1 := by
      intro q hq
      exact hfar q.1 (hnu1 q hq) (hul q (by simp [hq]) (u, l) (by simp))
    have hT : ∀ (m : List Ref), (∀ x ∈ m, h1.start x = h.start x ∧ h1.stop x = h.stop x) →
        ∀ {a b}, Tiles h m a b → Tiles h1 m a b := by
      intro m
      induction m with
      | nil => intro _ a b t; exact t.elim
      | cons x m ihm =>
        intro hm a b t
        cases m with
        | nil => obtain ⟨g1, g2, g3⟩ := t; exact ⟨by rw [(hm x (by simp)).1]; exact g1,
            by rw [(hm x (by simp)).2]; exact g2, g3⟩
        | cons y r =>
          obtain ⟨g1, g2, g3⟩ := t
          refine ⟨by rw [(hm x (by simp)).1]; exact g1, by rw [(hm x (by simp)).2]; exact g2, ?_⟩
          rw [(hm x (by simp)).2]
          exact ihm (fun z hz => hm z (by simp only [List.mem_cons] at hz ⊢; exact Or.inr hz)) g3
    have hcls1 : h1.cls = h.cls := by rw [← hh1]; rfl
    have hct1 : h1.ct = h.ct := by rw [← hh1]; rfl
    have hlb1 : h1.label = h.label := by rw [← hh1]; rfl
    have hsup1 : ∀ x, x ∉ l → h1.sup x = h.sup x := by
      intro x hxl
      rw [← hh1]
      show (if x ∈ l then some u else h.sup x) = h.sup x
      rw [if_neg hxl]
    obtain ⟨h', e3, r⟩ := ih h1 hnu.2 (List.nodup_append.mp hnl).2.1
      (fun p hp q hq => hul p (by simp [hp]) q (by simp [hq]))
      (by
        intro q hq
        obtain ⟨a, b, t⟩ := ht q (by simp [hq])
        exact ⟨a, b, hT q.2 (hfq q hq) t⟩)
      (by intro q hq; rw [hct1, hcls1]; exact hd q (by simp [hq]))
      (by
        intro q hq x hxq
        rw [hcls1, hlb1, hsup1 x (hdis q hq x hxq)]
        exact hx q (by simp [hq]) x hxq)
    have hhc : headCls h1 = headCls h := by unfold headCls; rw [hcls1]
    rw [hhc] at e3
    have hhead : ∀ x, l.head? = some x → x = l.head hne := by
      intro x hx; rw [List.head?_eq_some_head hne] at hx; exact (Option.some.inj hx).symm
    have hlast : ∀ x, l.getLast? = some x → x = l.getLast hne := by
      intro x hx; rw [List.getLast?_eq_some_getLast hne] at hx; exact (Option.some.inj hx).symm
    have hol : ∀ x ∈ l, h'.start x = h1.start x ∧ h'.stop x = h1.stop x := by
      intro x hxl
      have hp : ∀ q ∈ P, x ≠ q.1 ∧ x ∉ q.2 := fun q hq =>
        ⟨fun e => hul q (by simp [hq]) (u, l) (by simp) (e ▸ hxl), fun hxq => hdis q hq x hxq hxl⟩
      exact ⟨r.otherStart x fun q hq => ⟨(hp q hq).1, fun e => (hp q hq).2 (List.mem_of_head? e)⟩,
        r.otherStop x fun q hq => ⟨(hp q hq).1, fun e => (hp q hq).2 (List.mem_of_getLast? e)⟩⟩
    have hou : h'.start u = h1.start u ∧ h'.stop u = h1.stop u := by
      have hp : ∀ q ∈ P, u ≠ q.1 ∧ u ∉ q.2 := fun q hq =>
        ⟨Ne.symm (hnu1 q hq), hul (u, l) (by simp) q (by simp [hq])⟩
      exact ⟨r.otherStart u fun q hq => ⟨(hp q hq).1, fun e => (hp q hq).2 (List.mem_of_head? e)⟩,
        r.otherStop u fun q hq => ⟨(hp q hq).1, fun e => (hp q hq).2 (List.mem_of_getLast? e)⟩⟩
    have hhu : l.head hne ≠ u := fun e => hull (e ▸ List.head_mem hne)
    have hlu : l.getLast hne ≠ u := fun e => hull (e ▸ List.getLast_mem hne)
    refine ⟨h', ?_, ?_⟩
    · rw [List.map_cons, M.forL_cons]
      rw [e2]
      exact e3
    · constructor
      · have r0 := related_relates { h with start := h'.start, stop := h'.stop } u l ec hln (by
          intro x hxl
          rw [← hec, if_neg hne]
          exact congrArg some (hl x hxl).2.2.symm)
        have r1 := r.rel
        rw [show ({ h1 with start := h'.start, stop := h'.stop } : Heap) =
          related { h with start := h'.start, stop := h'.stop } u l ec by rw [← hh1]; rfl] at r1
        refine r0.append r1 ?_ ?_
        · intro p hp q hq
          have : p = (u, l) := by simpa using hp
          subst this
          exact Ne.symm (hnu1 q hq)
        · intro p hp q hq x hxl hxq
          have : p = (u, l) := by simpa using hp
          subst this
          exact hdis q hq x hxq hxl
      · intro q hq x hxq
        rcases List.mem_cons.mp hq with rfl | hq
        · have e := hhead x hxq
          subst e
          have e1 : h1.start u = max (h.start u) (h.start (l.head hne)) := by
            rw [← hh1]; unfold snapped; simp only []; rw [upd_ne _ _ _ _ (Ne.symm hhu), upd_same]; rfl
          have e2 : h1.start (l.head hne) = max (h.start u) (h.start (l.head hne)) := by
            rw [← hh1]; unfold snapped; simp only []; rw [upd_same]; rfl
          show h'.start u = _ ∧ h'.start (l.head hne) = _
          rw [hou.1, (hol _ (List.head_mem hne)).1]
          exact ⟨e1, e2⟩
        · have := r.start q hq x hxq
          rw [(hfu q hq).1, (hfq q hq x (List.mem_of_head? hxq)).1] at this
          exact this
      · intro q hq x hxq
        rcases List.mem_cons.mp hq with rfl | hq
        · have e := hlast x hxq
          subst e
          have e1 : h1.stop u = min (h.stop u) (h.stop (l.getLast hne)) := by
            rw [← hh1]; unfold snapped; simp only []; rw [upd_ne _ _ _ _ (Ne.symm hlu), upd_same]; rfl
          have e2 : h1.stop (l.getLast hne) = min (h.stop u) (h.stop (l.getLast hne)) := by
            rw [← hh1]; unfold snapped; simp only []; rw [upd_same]; rfl
          show h'.stop u = _ ∧ h'.stop (l.getLast hne) = _
          rw [hou.2, (hol _ (List.getLast_mem hne)).2]
          exact ⟨e1, e2⟩
        · have := r.stop q hq x hxq
          rw [(hfu q hq).2, (hfq q hq x (List.mem_of_getLast? hxq)).2] at this
          exact this
      · intro x hxo
        rw [r.otherStart x fun q hq => hxo q (by simp [hq])]
        have := hxo (u, l) (by simp)
        exact hst x this.1 (fun e => this.2 (by rw [List.head?_eq_some_head hne, e]))
      · intro x hxo
        rw [r.otherStop x fun q hq => hxo q (by simp [hq])]
        have := hxo (u, l) (by simp)
        exact hsp x this.1 (fun e => this.2 (by rw [List.getLast?_eq_some_getLast hne, e]))
      · refine r.exact.trans ?_
        have h2 : h1 = (related h u l (headCls h l)).retime h1.start h1.stop := by
          rw [← headCls_of (fun x hx => (hl x hx).2.2), hec, ← hh1]; rfl
        have h3 : relatedAll h1 P = (relatedAll (related h u l (headCls h l)) P).retime h1.start h1.stop := by
          conv => lhs; rw [h2]
          exact relatedAll_retime P _ _ _
        rw [h3]
        rfl

end ATG
