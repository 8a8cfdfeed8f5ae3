import Verif.Lemmas.Clone
import Verif.Lemmas.Extent
/-!
# Lemmas on `custom_classes` and `get_class_hierarchy`
-/
namespace ATG

/-- `base` of the class at position `i` of `custom_classes`. -/
def customBase (points : List Nat) (i : Nat) : CRef := if points.contains i then cPoint else cInterval

theorem customBase_lt {ct : ClassTab} (w : WFC ct) (points : List Nat) (i : Nat) :
    customBase points i < ct.next := by
  unfold customBase
  split
  · exact Nat.lt_of_lt_of_le (by decide) w.base
  · exact Nat.lt_of_lt_of_le (by decide) w.base

theorem mkCustom_spec (points : List Nat) : ∀ (names : List String) (ct : ClassTab) (i : Nat), WFC ct →
    ∃ ct', mkCustom points ct i names = (ct', List.range' ct.next names.length) ∧ WFC ct' ∧
      Ext ct ct' ∧ ct'.next = ct.next + names.length ∧
      ∀ j nm, names[j]? = some nm →
        ct'.name (ct.next + j) = nm ∧ ct'.parent (ct.next + j) = some (customBase points (i + j)) ∧
        ct'.ownSup (ct.next + j) = ct.ownSup (customBase points (i + j)) ∧
        ct'.ownSub (ct.next + j) = ct.ownSub (customBase points (i + j)) := by
  intro names
  induction names with
  | nil => intro ct i w; exact ⟨ct, rfl, w, Ext.refl _, rfl, by simp⟩
  | cons nm names ih =>
    intro ct i w
    have hb := customBase_lt w points i
    generalize hct1 : addClass ct nm (customBase points i) (ct.ownSup (customBase points i))
      (ct.ownSub (customBase points i)) = ct1
    have w1 : WFC ct1 := hct1 ▸ wfc_addClass w nm hb (fun s h => w.supLt _ s hb h)
      (fun s h => w.subLt _ s hb h)
    have x1 : Ext ct ct1 := hct1 ▸ ext_addClass ct nm _ _ _
    have hn1 : ct1.next = ct.next + 1 := by rw [← hct1]; rfl
    obtain ⟨ct', e, w', x', hn', hj⟩ := ih ct1 (i + 1) w1
    refine ⟨ct', ?_, w', x1.trans x', by rw [hn', hn1, List.length_cons]; omega, ?_⟩
    · simp only [mkCustom, copyClass_eq]
      rw [show addClass ct nm (if points.contains i then cPoint else cInterval)
        (ct.ownSup (if points.contains i then cPoint else cInterval))
        (ct.ownSub (if points.contains i then cPoint else cInterval)) = ct1 from hct1, e, hn1]
      simp [List.range'_succ]
    · intro j nm' hnm
      cases j with
      | zero =>
        have hlt : ct.next < ct1.next := by rw [hn1]; exact Nat.lt_succ_self _
        have hnm' : nm = nm' := by simpa using hnm
        subst hnm'
        simp only [Nat.add_zero]
        rw [x'.name _ hlt, x'.parent _ hlt, x'.ownSup _ hlt, x'.ownSub _ hlt, ← hct1]
        simp [addClass]
      | succ j =>
        have := hj j nm' (by simpa using hnm)
        have hbj := customBase_lt w points (i + 1 + j)
        rw [hn1, x1.ownSup _ hbj, x1.ownSub _ hbj] at this
        have e1 : ct.next + (j + 1) = ct.next + 1 + j := by omega
        have e2 : i + (j + 1) = i + 1 + j := by omega
        rw [e1, e2]
        exact this

/-- A class whose superset class, if any, is one of the old classes. -/
def OldSup (ct0 ct : ClassTab) (e : CRef) : Prop :=
  ct0.next ≤ e ∧ e < ct.next ∧ (∃ p, ct.parent e = some p ∧ p < ct0.next) ∧
    ∀ s, ct.ownSup e = some (some s) → s < ct0.next

theorem OldSup.ne {ct0 ct : ClassTab} (w0 : WFC ct0) (w : WFC ct) (x : Ext ct0 ct) {e c : CRef}
    (h : OldSup ct0 ct e) (hc : ct0.next ≤ c) : ct.sup e ≠ some c := by
  obtain ⟨h0, h1, ⟨p, hp, hpl⟩, h3⟩ := h
  intro he
  cases ho : ct.ownSup e with
  | some v =>
    rw [sup_own ho] at he; subst he
    exact Nat.not_lt.2 hc (h3 c ho)
  | none =>
    rw [sup_parent w h1 hp ho, sup_ext w0 x p hpl] at he
    exact Nat.not_lt.2 hc (sup_lt w0 p p c (Nat.le_refl _) hpl he)

/-- Linking a list of new interval classes downwards. -/
theorem linkCustom_spec {ct0 : ClassTab} (w0 : WFC ct0) (bottom : CRef) :
    ∀ (rest : List CRef) (c : CRef) (ct : ClassTab), WFC ct → Ext ct0 ct → (c :: rest).Nodup →
      bottom ∉ c :: rest → (∀ e ∈ c :: rest, Fit ct e ∧ ct0.next ≤ e) →
      (∀ e ∈ rest, OldSup ct0 ct e) → OldSup ct0 ct bottom → ct.isSub bottom cBottom = true →
      hasSubstr "Top" (ct.name bottom) = false →
      ∃ ct', linkCustom bottom ct (c :: rest) = (ct', .ok ()) ∧ WFC ct' ∧ Ext ct0 ct' ∧
        ct'.next = ct.next ∧ ct'.name = ct.name ∧ ct'.parent = ct.parent ∧
        (∀ x, x ∉ rest → x ≠ bottom → ct'.ownSup x = ct.ownSup x) ∧
        (∀ x, x ∉ c :: rest → ct'.ownSub x = ct.ownSub x) ∧
        DownO ct' (c :: rest) ∧
        ct'.ownSub ((c :: rest).getLast (by simp)) = some (some bottom) ∧
        ct'.ownSup bottom = some (some ((c :: rest).getLast (by simp))) := by
  intro rest
  induction rest with
  | nil =>
    intro c ct w x hnd hb hfit _ hob hbb hbn
    obtain ⟨hf, hc0⟩ := hfit c (by simp)
    have hbc : bottom ≠ c := fun h => hb (by simp [h])
    have e := setSubClass_new (ct := ct) (c := c) (s := bottom) hf.2.2.2.2.2 hbn
      (isSub_trans w (bottom_hier w) _ _ (Nat.le_refl _) hob.2.1 hbb)
      (isSub_trans w (interval_hier w) _ _ (Nat.le_refl _) hf.1 hf.2.1) hbc (hob.ne w0 w x hc0)
    refine ⟨_, by simpa [linkCustom] using e, wfc_putSup (wfc_putSub w _ _ hob.2.1) _ _ hf.1,
      ext_putSup (ext_putSub x _ hc0) _ hob.1, rfl, rfl, rfl, ?_, ?_, ⟨?_, bottom, ?_, ?_⟩, ?_, ?_⟩
    · intro y _ hy; simp [ClassTab.putSup, ClassTab.putSub, upd, hy]
    · intro y hy
      have : y ≠ c := by simpa using hy
      simp [ClassTab.putSup, ClassTab.putSub, upd, this]
    · exact fit_congr (ct := ct) (ct' := (ct.putSub c (some bottom)).putSup bottom (some c)) rfl rfl rfl hf
    · simp [ClassTab.putSup, ClassTab.putSub]
    · simpa using hbb
    · simp [ClassTab.putSup, ClassTab.putSub]
    · simp [ClassTab.putSup, ClassTab.putSub]
  | cons d rest ih =>
    intro c ct w x hnd hb hfit hold hob hbb hbn
    obtain ⟨hf, hc0⟩ := hfit c (by simp)
    obtain ⟨hfd, hd0⟩ := hfit d (by simp)
    have hcd : d ≠ c := by
      rintro rfl; exact (List.nodup_cons.1 hnd).1 (by simp)
    have hod := hold d (by simp)
    have e := setSubClass_new (ct := ct) (c := c) (s := d) hf.2.2.2.2.2 hfd.2.2.2.2.1
      (isSub_trans w (interval_hier w) _ _ (Nat.le_refl _) hfd.1 hfd.2.1)
      (isSub_trans w (interval_hier w) _ _ (Nat.le_refl _) hf.1 hf.2.1) hcd (hod.ne w0 w x hc0)
    generalize hct1 : (ct.putSub c (some d)).putSup d (some c) = ct1 at e
    have w1 : WFC ct1 := hct1 ▸ wfc_putSup (wfc_putSub w _ _ hfd.1) _ _ hf.1
    have x1 : Ext ct0 ct1 := hct1 ▸ ext_putSup (ext_putSub x _ hc0) _ hd0
    have hx1 : ct1.next = ct.next := by rw [← hct1]; rfl
    have hn1 : ct1.name = ct.name := by rw [← hct1]; rfl
    have hp1 : ct1.parent = ct.parent := by rw [← hct1]; rfl
    have hsub1 : ∀ y, y ≠ c → ct1.ownSub y = ct.ownSub y := by
      intro y hy; rw [← hct1]; simp [ClassTab.putSup, ClassTab.putSub, upd, hy]
    have hsup1 : ∀ y, y ≠ d → ct1.ownSup y = ct.ownSup y := by
      intro y hy; rw [← hct1]; simp [ClassTab.putSup, ClassTab.putSub, upd, hy]
    have hold1 : ∀ y, y ≠ d → OldSup ct0 ct y → OldSup ct0 ct1 y := by
      intro y hy h
      unfold OldSup
      rw [hx1, hp1, hsup1 y hy]
      exact h
    have hnd' := (List.nodup_cons.1 hnd).2
    have hbd : bottom ≠ d := fun h => hb (by simp [h])
    obtain ⟨ct', e', w', x', a1, a2, a3, a4, a5, a6, a7, a8⟩ := ih d ct1 w1 x1 hnd'
      (fun h => hb (List.mem_cons_of_mem _ h))
      (fun y hy => ⟨fit_congr hx1 hn1 hp1 (hfit y (List.mem_cons_of_mem _ hy)).1,
        (hfit y (List.mem_cons_of_mem _ hy)).2⟩)
      (fun y hy => hold1 y (by rintro rfl; exact (List.nodup_cons.1 hnd').1 hy)
        (hold y (List.mem_cons_of_mem _ hy)))
      (hold1 bottom hbd hob) (by rw [isSub_congr hp1]; exact hbb) (by rw [hn1]; exact hbn)
    have hcr : c ∉ d :: rest := (List.nodup_cons.1 hnd).1
    have hdr : d ∉ rest := (List.nodup_cons.1 hnd').1
    refine ⟨ct', ?_, w', x', a1.trans hx1, a2.trans hn1, a3.trans hp1, ?_, ?_, ⟨?_, ?_, ?_, a6⟩, ?_, ?_⟩
    · rw [linkCustom, e]; exact e'
    · intro y hy hyb
      rw [a4 y (fun h => hy (List.mem_cons_of_mem _ h)) hyb, hsup1 y (fun h => hy (by simp [h]))]
    · intro y hy
      rw [a5 y (fun h => hy (List.mem_cons_of_mem _ h)), hsub1 y (fun h => hy (by simp [h]))]
    · exact fit_congr (a1.trans hx1) (a2.trans hn1) (a3.trans hp1) hf
    · rw [a5 c hcr, ← hct1]; simp [ClassTab.putSup, ClassTab.putSub]
    · rw [a4 d hdr hbd.symm, ← hct1]; simp [ClassTab.putSup, ClassTab.putSub]
    · simpa using a7
    · simpa using a8

/-- Ordering by the list of names itself. -/
theorem orderByName_self {α} (names : List String) (out : List α) (hnd : names.Nodup)
    (hl : out.length = names.length) : orderByName names out names = .ok out := by
  unfold orderByName
  rw [mapM_ok_iff]
  apply List.ext_getElem?
  intro i
  rw [List.getElem?_map, List.getElem?_map]
  by_cases hi : i < names.length
  · have hi' : i < out.length := hl ▸ hi
    rw [List.getElem?_eq_getElem hi, List.getElem?_eq_getElem hi']
    simp only [Option.map_some]
    have : names.findIdx? (fun x => x == names[i]) = some i := by
      rw [List.findIdx?_eq_some_iff_getElem]
      refine ⟨hi, by simp, ?_⟩
      intro j hj
      have hji := Nat.lt_trans hj hi
      have : names[j] ≠ names[i] := by
        intro he
        have := (List.getElem_inj hnd (h₀ := hji) (h₁ := hi)).1 he
        omega
      simp [this]
    rw [this]
    simp [List.getElem?_eq_getElem hi']
  · rw [List.getElem?_eq_none (by omega), List.getElem?_eq_none (by omega)]
    rfl

end ATG
