import Verif.Model.Compose
import Verif.Spec.Lookup
import Verif.Lemmas.Extent
import Verif.Props.Queries
/-!
# Lemmas on looking up intervals by time
-/
namespace ATG

theorem tierGet_at (h : Heap) (t : TRef) (time : Time) (hno : NoOverlap h t) :
    ∃ o, tierAt h t time = .ok o ∧ (∀ x, tierGet h t o = .ok x ↔ x ∈ (h.tseq t).vals ∧ At h time x) ∧
      (o = none ↔ ∀ x ∈ (h.tseq t).vals, ¬ At h time x) := by
  obtain ⟨h1, h2⟩ := C19_interval_at h t time hno
  have herr := C19_interval_at_error h t time
  cases e : tierAt h t time with
  | error er =>
    obtain ⟨i, j, x, y, hij, hx, hy, ax, ay⟩ := herr.mp ⟨er, e⟩
    obtain ⟨hi, rfl⟩ := List.getElem?_eq_some_iff.mp hx
    obtain ⟨hj, rfl⟩ := List.getElem?_eq_some_iff.mp hy
    exact absurd ⟨by grind, by grind⟩ (List.pairwise_iff_getElem.mp hno i j hi hj hij)
  | ok o =>
    refine ⟨o, rfl, ?_, ?_⟩
    · intro x
      cases o with
      | none =>
        have := h2.mp e
        simp only [tierGet, reduceCtorEq, false_iff, not_and]
        exact fun hx => this x hx
      | some i =>
        obtain ⟨y, hy, ay⟩ := (h1 i).mp e
        simp only [tierGet, hy, Except.ok.injEq]
        constructor
        · rintro rfl; exact ⟨List.mem_of_getElem? hy, ay⟩
        · rintro ⟨hx, ax⟩
          obtain ⟨j, hj⟩ := List.mem_iff_getElem?.mp hx
          have : tierAt h t time = .ok (some j) := (h1 j).mpr ⟨x, hj, ax⟩
          rw [e] at this
          cases this
          rw [hy] at hj; exact Option.some.inj hj
    · cases o with
      | none => exact ⟨fun _ => h2.mp e, fun _ => rfl⟩
      | some i =>
        obtain ⟨y, hy, ay⟩ := (h1 i).mp e
        simp only [reduceCtorEq, false_iff]
        intro hh
        exact hh y (List.mem_of_getElem? hy) ay

theorem allAt_cons (h : Heap) (time : Time) (t : TRef) (ts : List TRef) (x : Ref) (l : List Ref) :
    AllAt h time (t :: ts) (x :: l) ↔ (x ∈ (h.tseq t).vals ∧ At h time x) ∧ AllAt h time ts l := by
  unfold AllAt
  constructor
  · rintro ⟨h1, h2⟩
    exact ⟨h2 0 t x rfl rfl, by simpa using h1, fun i t' y ht hy => h2 (i + 1) t' y ht hy⟩
  · rintro ⟨h1, h2, h3⟩
    refine ⟨by simp [h2], ?_⟩
    intro i t' y ht hy
    cases i with
    | zero => simp at ht hy; subst ht; subst hy; exact h1
    | succ i => exact h3 i t' y (by simpa using ht) (by simpa using hy)

theorem tiersGet_at (h : Heap) (time : Time) : ∀ (ts : List TRef), (∀ t ∈ ts, NoOverlap h t) →
    ∃ idx, (ts.mapM fun t => tierAt h t time) = .ok idx ∧ idx.length = ts.length ∧
      (∀ l, (idx.zip ts).mapM (fun p => tierGet h p.2 p.1) = .ok l ↔ AllAt h time ts l) ∧
      ∀ (i : Nat) t, ts[i]? = some t → (idx[i]? = some none ↔ ∀ x ∈ (h.tseq t).vals, ¬ At h time x)
  | [], _ => ⟨[], rfl, rfl, by
      intro l
      rw [mapM_ok_iff]
      cases l with
      | nil => simp [AllAt]
      | cons => simp [AllAt], by simp⟩
  | t :: ts, hno => by
    obtain ⟨o, e1, e2, e3⟩ := tierGet_at h t time (hno t (by simp))
    obtain ⟨idx, f1, f2, f3, f4⟩ := tiersGet_at h time ts (fun t ht => hno t (by simp [ht]))
    refine ⟨o :: idx, ?_, by simp [f2], ?_, ?_⟩
    · rw [mapM_ok_iff] at f1 ⊢
      simp [f1, e1]
    · intro l
      rw [mapM_ok_iff]
      cases l with
      | nil => simp [AllAt]
      | cons x l =>
        rw [allAt_cons, ← f3 l, mapM_ok_iff, ← e2 x]
        simp
    · intro i t' ht
      cases i with
      | zero => simp at ht; subst ht; simpa using e3
      | succ i => simpa using f4 i t' (by simpa using ht)

/-- among the intervals that tile a span, one contains a given time of the span -/
theorem Tiles.at {h : Heap} {time : Time} : ∀ {l : List Ref} {a b : Time}, Tiles h l a b → a ≤ time →
    time < b → ∃ x ∈ l, At h time x
  | [x], a, b, ⟨h1, h2, _⟩, ha, hb => ⟨x, by simp, by unfold At; grind⟩
  | x :: y :: r, a, b, ⟨h1, _, h3⟩, ha, hb => by
    by_cases hx : time < h.stop x
    · exact ⟨x, by simp, by unfold At; grind⟩
    · obtain ⟨z, hz, az⟩ := h3.at (Rat.not_lt.mp hx) hb
      exact ⟨z, by simp at hz ⊢; exact Or.inr hz, az⟩

/-- tiers, top to bottom, aligned and related, from the interval `u` of the first tier downwards: a chain of
    intervals at `time` -/
theorem chain_at (h : Heap) (time : Time) : ∀ (ts : List TRef) (t : TRef) (u : Ref),
    u ∈ (h.tseq t).vals → At h time u →
    (∀ (i : Nat) t1 t2, (t :: ts)[i]? = some t1 → ts[i]? = some t2 →
      Aligned h (h.tseq t1).vals (h.tseq t2).vals) →
    ∃ l, AllAt h time (t :: ts) (u :: l)
  | [], t, u, hu, au, _ => ⟨[], (allAt_cons ..).mpr ⟨⟨hu, au⟩, rfl, by simp⟩⟩
  | t' :: ts, t, u, hu, au, hal => by
    obtain ⟨x, hx, ax⟩ := ((hal 0 t t' rfl rfl).tiled u hu).at au.1 au.2
    obtain ⟨l, hl⟩ := chain_at h time ts t' x (List.mem_filter.mp hx).1 ax
      (fun i t1 t2 h1 h2 => hal (i + 1) t1 t2 h1 h2)
    exact ⟨x :: l, (allAt_cons ..).mpr ⟨⟨hu, au⟩, hl⟩⟩

theorem Aligned.noOverlap {h : Heap} {l : List Ref} (d : l.Pairwise fun u v => h.stop u ≤ h.start v) :
    l.Pairwise fun x y => ¬ Overlap (h.start x, h.stop x) (h.start y, h.stop y) := by
  refine d.imp ?_
  intro x y hxy ho
  have := ho.2
  simp only at this
  grind

theorem groupsGet_at (h : Heap) (time : Time) : ∀ (gs : List GRef),
    (∀ g ∈ gs, ∃ idx, groupAt h g time = .ok idx ∧
      ∀ l, groupGet h g idx = .ok l ↔ AllAt h time (h.gtiers g) l) →
    ∃ idx, (gs.mapM fun g => groupAt h g time) = .ok idx ∧ idx.length = gs.length ∧
      ∀ ls, (idx.zip gs).mapM (fun p => groupGet h p.2 p.1) = .ok ls ↔ ls.length = gs.length ∧
        ∀ (i : Nat) g l, gs[i]? = some g → ls[i]? = some l → AllAt h time (h.gtiers g) l
  | [], _ => ⟨[], rfl, rfl, by
      intro ls
      rw [mapM_ok_iff]
      cases ls with
      | nil => simp
      | cons => simp⟩
  | g :: gs, hall => by
    obtain ⟨o, e1, e2⟩ := hall g (by simp)
    obtain ⟨idx, f1, f2, f3⟩ := groupsGet_at h time gs (fun t ht => hall t (by simp [ht]))
    refine ⟨o :: idx, ?_, by simp [f2], ?_⟩
    · rw [mapM_ok_iff] at f1 ⊢
      simp [f1, e1]
    · intro ls
      rw [mapM_ok_iff]
      cases ls with
      | nil => simp
      | cons l ls =>
        have f := f3 ls
        rw [mapM_ok_iff] at f
        simp only [List.zip_cons_cons, List.map_cons, List.cons.injEq, e2 l, f, List.length_cons,
          Nat.add_right_cancel_iff]
        constructor
        · rintro ⟨h1, h2, h3⟩
          refine ⟨h2, fun i g' l' hg' hl' => ?_⟩
          cases i with
          | zero => simp at hg' hl'; subst hg'; subst hl'; exact h1
          | succ i => exact h3 i g' l' (by simpa using hg') (by simpa using hl')
        · rintro ⟨h1, h2⟩
          exact ⟨h2 0 g l rfl rfl, h1, fun i g' l' hg' hl' => h2 (i + 1) g' l' hg' hl'⟩

theorem mapM_error_of {α β} (f : α → Except Err β) (k : Err) : ∀ (l : List α),
    (∀ a ∈ l, (∃ x, f a = .ok x) ∨ f a = .error k) → ∀ er, l.mapM f = .error er → er = k
  | [], _, er, e => by simp [pure, Except.pure] at e
  | a :: l, hl, er, e => by
    rw [List.mapM_cons] at e
    rcases hl a (by simp) with ⟨x, hx⟩ | hx
    · rw [hx] at e
      cases e2 : l.mapM f with
      | ok r => rw [e2] at e; simp [bind, Except.bind, pure, Except.pure] at e
      | error er' =>
        rw [e2] at e
        simp only [bind, Except.bind, Except.error.injEq] at e
        subst e
        exact mapM_error_of f k l (fun a ha => hl a (by simp [ha])) _ e2
    · rw [hx] at e
      simp only [bind, Except.bind, Except.error.injEq] at e
      exact e.symm

end ATG
