import Verif.Lemmas.Num
import Verif.Model.Textgrid
/-!
# Extents of lists of tiers and groups
-/
namespace ATG


theorem mapM_id_some (l : List (Option Time)) (ts : List Time) :
    l.mapM id = some ts ↔ l = ts.map some := by
  induction l generalizing ts with
  | nil => cases ts <;> simp
  | cons o os ih =>
    simp only [List.mapM_cons, id]
    cases o with
    | none => cases ts <;> simp
    | some t =>
      cases ts with
      | nil =>
        simp only [List.map_nil, reduceCtorEq, iff_false]
        cases os.mapM id <;> simp
      | cons t' ts' =>
        simp only [List.map_cons, List.cons.injEq, Option.some.injEq]
        rw [← ih ts']
        cases os.mapM id <;> simp

theorem allSome {α} (l : List (Option α)) (h : ∀ o ∈ l, ∃ t, o = some t) : ∃ ts : List α, l = ts.map some := by
  induction l with
  | nil => exact ⟨[], rfl⟩
  | cons o os ih =>
    obtain ⟨ts, hts⟩ := ih (fun o ho => h o (by simp [ho]))
    obtain ⟨t, ht⟩ := h o (by simp)
    exact ⟨t :: ts, by simp [ht, hts]⟩

theorem minOfExtents_iff (l : List (Option Time)) (m : Time) :
    minOfExtents l = .ok m ↔ some m ∈ l ∧ ∀ o ∈ l, ∃ t, o = some t ∧ m ≤ t := by
  unfold minOfExtents
  cases e : l.mapM id with
  | none =>
    simp only [reduceCtorEq, false_iff]
    rintro ⟨_, h2⟩
    have : ∃ ts : List Time, l = ts.map some := by
      exact allSome l (fun o ho => by obtain ⟨t, ht, _⟩ := h2 o ho; exact ⟨t, ht⟩)
    obtain ⟨ts, hts⟩ := this
    rw [(mapM_id_some l ts).mpr hts] at e; cases e
  | some ts =>
    rw [mapM_id_some] at e
    subst e
    simp only []
    cases hm : minL ts with
    | none =>
      rw [minL_none] at hm; subst hm; simp
    | some k =>
      have hk := (minL_iff ts k).mp hm
      simp only [Except.ok.injEq]
      constructor
      · rintro rfl
        refine ⟨by simpa using hk.1, ?_⟩
        intro o ho; simp only [List.mem_map] at ho
        obtain ⟨t, ht, rfl⟩ := ho
        exact ⟨t, rfl, hk.2 t ht⟩
      · rintro ⟨h1, h2⟩
        have : minL ts = some m := (minL_iff ts m).mpr ⟨by simpa using h1, fun t ht => by
          obtain ⟨t', e, hle⟩ := h2 (some t) (by simp [ht])
          cases e; exact hle⟩
        rw [hm] at this; exact Option.some.inj this

theorem maxOfExtents_iff (l : List (Option Time)) (m : Time) :
    maxOfExtents l = .ok m ↔ some m ∈ l ∧ ∀ o ∈ l, ∃ t, o = some t ∧ t ≤ m := by
  unfold maxOfExtents
  cases e : l.mapM id with
  | none =>
    simp only [reduceCtorEq, false_iff]
    rintro ⟨_, h2⟩
    have : ∃ ts : List Time, l = ts.map some := by
      exact allSome l (fun o ho => by obtain ⟨t, ht, _⟩ := h2 o ho; exact ⟨t, ht⟩)
    obtain ⟨ts, hts⟩ := this
    rw [(mapM_id_some l ts).mpr hts] at e; cases e
  | some ts =>
    rw [mapM_id_some] at e
    subst e
    simp only []
    cases hm : maxL ts with
    | none =>
      rw [maxL_none] at hm; subst hm; simp
    | some k =>
      have hk := (maxL_iff ts k).mp hm
      simp only [Except.ok.injEq]
      constructor
      · rintro rfl
        refine ⟨by simpa using hk.1, ?_⟩
        intro o ho; simp only [List.mem_map] at ho
        obtain ⟨t, ht, rfl⟩ := ho
        exact ⟨t, rfl, hk.2 t ht⟩
      · rintro ⟨h1, h2⟩
        have : maxL ts = some m := (maxL_iff ts m).mpr ⟨by simpa using h1, fun t ht => by
          obtain ⟨t', e, hle⟩ := h2 (some t) (by simp [ht])
          cases e; exact hle⟩
        rw [hm] at this; exact Option.some.inj this

theorem mapM_ok_iff {α β} (f : α → Except Err β) (l : List α) (r : List β) :
    l.mapM f = .ok r ↔ l.map f = r.map .ok := by
  induction l generalizing r with
  | nil => cases r <;> simp [pure, Except.pure]
  | cons a as ih =>
    simp only [List.mapM_cons, List.map_cons]
    cases ha : f a with
    | error e => cases r <;> simp [bind, Except.bind]
    | ok b =>
      cases r with
      | nil =>
        simp only [bind, Except.bind, List.map_nil, reduceCtorEq, iff_false]
        cases List.mapM f as <;> simp [pure, Except.pure]
      | cons c cs =>
        simp only [List.map_cons, List.cons.injEq, Except.ok.injEq]
        rw [← ih cs]
        simp only [bind, Except.bind]
        cases List.mapM f as <;> simp [pure, Except.pure]

theorem mapM_exists_ok {α β} (f : α → Except Err β) (l : List α) (h : ∀ a ∈ l, ∃ b, f a = .ok b) :
    ∃ r, l.mapM f = .ok r := by
  induction l with
  | nil => exact ⟨[], rfl⟩
  | cons a as ih =>
    obtain ⟨r, hr⟩ := ih (fun x hx => h x (by simp [hx]))
    obtain ⟨b, hb⟩ := h a (by simp)
    refine ⟨b :: r, ?_⟩
    rw [mapM_ok_iff] at hr ⊢
    simp [hr, hb]

theorem tierXmin_iff (h : Heap) (t : TRef) (m : Time) : tierXmin h t = some m ↔
    (∃ x ∈ (h.tseq t).vals, h.start x = m) ∧ ∀ x ∈ (h.tseq t).vals, m ≤ h.start x := by
  unfold tierXmin Heap.tstarts
  rw [minL_iff]; simp

theorem tierXmax_iff (h : Heap) (t : TRef) (m : Time) : tierXmax h t = some m ↔
    (∃ x ∈ (h.tseq t).vals, h.stop x = m) ∧ ∀ x ∈ (h.tseq t).vals, h.stop x ≤ m := by
  unfold tierXmax Heap.tends
  rw [maxL_iff]; simp

theorem tierXmin_some (h : Heap) (t : TRef) (hne : (h.tseq t).vals ≠ []) : ∃ m, tierXmin h t = some m := by
  cases e : tierXmin h t with
  | some m => exact ⟨m, rfl⟩
  | none => unfold tierXmin Heap.tstarts at e; rw [minL_none] at e; simp at e; exact absurd e hne

theorem tierXmax_some (h : Heap) (t : TRef) (hne : (h.tseq t).vals ≠ []) : ∃ m, tierXmax h t = some m := by
  cases e : tierXmax h t with
  | some m => exact ⟨m, rfl⟩
  | none => unfold tierXmax Heap.tends at e; rw [maxL_none] at e; simp at e; exact absurd e hne

end ATG
