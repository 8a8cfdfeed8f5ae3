import Verif.Lemmas.Remove
/-!
# Taking entries over from their former supersets
-/
namespace ATG

theorem listed_iff_mem (h : Heap) (l : List Ref) (x : Ref)
    (hd : ∀ y ∈ l, SameValue h y x → y = x) : Listed h l x ↔ x ∈ l := by
  constructor
  · rintro (hx | ⟨y, hy, hs⟩)
    · exact hx
    · exact (hd y hy hs) ▸ hy
  · exact Or.inl

/-- Pointers of `l` do not change: it stays linked. -/
theorem DoublyLinked.congr {h h' : Heap} {l : List Ref} (d : DoublyLinked h l)
    (hf : ∀ x ∈ l, h'.fol x = h.fol x) (hp : ∀ x ∈ l, h'.prev x = h.prev x) : DoublyLinked h' l := by
  constructor
  · intro i x y hx hy
    rw [hf x (List.mem_of_getElem? hx), hp y (List.mem_of_getElem? hy)]
    exact d.next i x y hx hy
  · intro x hx; rw [hp x (List.mem_of_mem_head? hx)]; exact d.first x hx
  · intro x hx; rw [hf x (List.mem_of_getLast? hx)]; exact d.last x hx

/-- All supersets other than `w` agree with their subset lists, which are good lists; only the entries in `U` have to be
    listed. -/
structure AgreeX (U : Ref → Prop) (h : Heap) (w : Ref) : Prop where
  down : ∀ v, v ≠ w → ∀ x, x ∈ (h.subs v).vals → h.sup x = some v
  up : ∀ v, v ≠ w → ∀ x, U x → h.sup x = some v → x ∈ (h.subs v).vals
  good : ∀ v, v ≠ w → GoodList h (h.subs v).vals

/-- the subset lists after the entries of `l` moved to `w` -/
def adoptedSubs (h : Heap) (w : Ref) (l : List Ref) : Ref → SL :=
  fun v => if v = w then h.subs w else ⟨(h.subs v).vals.filter (· ∉ l), (h.subs v).ecls⟩

/-- the heap after the entries of `l` moved to `w` -/
def adopted (h : Heap) (w : Ref) (l : List Ref) (f p : Ref → Option Link) : Heap :=
  { h with
    subs := adoptedSubs h w l
    sup := fun r => if r ∈ l then some w else h.sup r
    within := fun r => if r ∈ l ∧ h.sup r ≠ some w ∧ h.sup r ≠ none then none else h.within r
    fol := f
    prev := p }

/-- `r` is in no subset list, other than that of `w`, that has an entry of `l` -/
def Aside (h : Heap) (w : Ref) (l : List Ref) (r : Ref) : Prop :=
  ∀ v, v ≠ w → (∃ z ∈ l, z ∈ (h.subs v).vals) → r ∉ (h.subs v).vals

theorem Aside.of_sup {U : Ref → Prop} {h : Heap} {w : Ref} (ax : AgreeX U h w) (l : List Ref) (r : Ref)
    (hr : h.sup r = none ∨ h.sup r = some w) : Aside h w l r := by
  intro v hv _ hm
  have := (ax.down v hv r (hm))
  rcases hr with hr | hr
  · rw [hr] at this; cases this
  · rw [hr] at this; exact hv (Option.some.inj this).symm

theorem filter_notin_nil (l : List Ref) : l.filter (· ∉ ([] : List Ref)) = l := by
  simp

theorem filter_notin_cons (l : List Ref) (x : Ref) (xs : List Ref) :
    (l.filter (· ≠ x)).filter (· ∉ xs) = l.filter (· ∉ x :: xs) := by
  rw [List.filter_filter]
  congr 1
  funext r
  by_cases h1 : r = x <;> by_cases h2 : r ∈ xs <;> simp [h1, h2]

theorem erase_eq_filter' (l : List Ref) (x : Ref) (hnd : l.Nodup) :
    l.erase x = l.filter (· ≠ x) := by
  rw [hnd.erase_eq_filter]; congr 1; funext r; by_cases e : r = x <;> simp [e]

theorem filter_ne_self (l : List Ref) (x : Ref) (hx : x ∉ l) : l.filter (· ≠ x) = l := by
  rw [List.filter_eq_self]; intro a ha; simp; intro e; exact hx (e ▸ ha)

theorem adoptAll_ok {U : Ref → Prop} (w : Ref) (l : List Ref) (hU : ∀ x ∈ l, U x) : ∀ (h : Heap), AgreeX U h w →
    ∃ f p, adoptAll w l h = .ok () (adopted h w l f p) ∧
      (∀ v, v ≠ w → (DoublyLinked h (h.subs v).vals ∨ ∃ x ∈ l, x ∈ (h.subs v).vals) →
        DoublyLinked (adopted h w l f p) ((h.subs v).vals.filter (· ∉ l))) ∧
      (∀ r, Aside h w l r → f r = h.fol r ∧ p r = h.prev r) := by
  induction l with
  | nil =>
    intro h _
    refine ⟨h.fol, h.prev, ?_, ?_, ?_⟩
    · have e : adopted h w [] h.fol h.prev = h := by
        have e1 : adoptedSubs h w [] = h.subs := by
          funext v; simp only [adoptedSubs]; split
          · rename_i e; rw [e]
          · rw [filter_notin_nil]
        simp [adopted, e1]
      rw [e]; rfl
    · intro v _ hd
      rw [filter_notin_nil]
      rcases hd with hd | ⟨x, hx, _⟩
      · exact hd.congr (fun _ _ => rfl) (fun _ _ => rfl)
      · simp at hx
    · intro r _; exact ⟨rfl, rfl⟩
  | cons x xs ih =>
    intro h ax
    -- state after the first element
    have step : ∃ f0 p0 h1, (do
          let h ← M.get
          if h.sup x = some w then pure ()
          else do
            removeSuperset x
            M.modify fun h => { h with sup := upd h.sup x (some w) } : M Unit) h = .ok () h1 ∧
        h1 = { h with
          subs := fun v => if v = w then h.subs w else ⟨(h.subs v).vals.filter (· ≠ x), (h.subs v).ecls⟩
          sup := upd h.sup x (some w)
          within := if h.sup x ≠ some w ∧ h.sup x ≠ none then upd h.within x none else h.within
          fol := f0, prev := p0 } ∧
        (∀ v, v ≠ w → (DoublyLinked h (h.subs v).vals ∨ x ∈ (h.subs v).vals) →
          DoublyLinked h1 ((h.subs v).vals.filter (· ≠ x))) ∧
        (∀ r, (∀ v, v ≠ w → x ∈ (h.subs v).vals → r ∉ (h.subs v).vals) → f0 r = h.fol r ∧ p0 r = h.prev r) := by
      by_cases hw : h.sup x = some w
      · have hnot : ∀ v, v ≠ w → x ∉ (h.subs v).vals := by
          intro v hv hx
          have := (ax.down v hv x (hx))
          rw [hw] at this; exact hv (Option.some.inj this).symm
        refine ⟨h.fol, h.prev, h, ?_, ?_, ?_, fun r _ => ⟨rfl, rfl⟩⟩
        · mstep M.get_apply h
          rw [if_pos hw]; rfl
        · have e1 : (fun v => if v = w then h.subs w else
              (⟨(h.subs v).vals.filter (· ≠ x), (h.subs v).ecls⟩ : SL)) = h.subs := by
            funext v; split
            · rename_i e; rw [e]
            · rename_i e; rw [filter_ne_self _ _ (hnot v e)]
          rw [e1, upd_eq_self _ _ _ hw]
          simp [hw]
        · intro v hv hd
          rw [filter_ne_self _ _ (hnot v hv)]
          rcases hd with hd | hd
          · exact hd
          · exact absurd hd (hnot v hv)
      · cases hs : h.sup x with
        | none =>
          have hnot : ∀ v, v ≠ w → x ∉ (h.subs v).vals := by
            intro v hv hx
            have := (ax.down v hv x (hx))
            rw [hs] at this; simp at this
          refine ⟨h.fol, h.prev, { h with sup := upd h.sup x (some w) }, ?_, ?_, ?_, fun r _ => ⟨rfl, rfl⟩⟩
          · mstep M.get_apply h
            rw [if_neg hw]
            mstep removeSuperset_none x h hs
            rfl
          · have e1 : (fun v => if v = w then h.subs w else
                (⟨(h.subs v).vals.filter (· ≠ x), (h.subs v).ecls⟩ : SL)) = h.subs := by
              funext v; split
              · rename_i e; rw [e]
              · rename_i e; rw [filter_ne_self _ _ (hnot v e)]
            rw [e1]
            simp
          · intro v hv hd
            rw [filter_ne_self _ _ (hnot v hv)]
            rcases hd with hd | hd
            · exact hd.congr (fun _ _ => rfl) (fun _ _ => rfl)
            · exact absurd hd (hnot v hv)
        | some u =>
          have huw : u ≠ w := by intro e; subst e; exact hw hs
          have hxu : x ∈ (h.subs u).vals := ax.up u huw x (hU x (by simp)) hs
          have gu := ax.good u huw
          have hnot : ∀ v, v ≠ w → v ≠ u → x ∉ (h.subs v).vals := by
            intro v hv hvu hx
            have := (ax.down v hv x (hx))
            rw [hs] at this; exact hvu (Option.some.inj this).symm
          refine ⟨(removed h u x).fol, (removed h u x).prev,
            { removed h u x with sup := upd (removed h u x).sup x (some w) }, ?_, ?_, ?_, ?_⟩
          · mstep M.get_apply h
            rw [if_neg hw]
            mstep removeSuperset_ok u x h hs hxu gu
            rfl
          · have e1 : (fun v => if v = w then h.subs w else
                (⟨(h.subs v).vals.filter (· ≠ x), (h.subs v).ecls⟩ : SL)) =
                upd h.subs u ⟨(h.subs u).vals.erase x, (h.subs u).ecls⟩ := by
              funext v
              simp only [upd]
              by_cases e : v = w
              · subst e; rw [if_pos rfl, if_neg (Ne.symm huw)]
              · rw [if_neg e]
                by_cases e2 : v = u
                · subst e2; rw [if_pos rfl, erase_eq_filter' _ _ gu.nodup]
                · rw [if_neg e2, filter_ne_self _ _ (hnot v e e2)]
            rw [e1]
            simp [removed, huw, removeFromSubsetN_ok.upd_upd']
          · intro v hv hd
            by_cases e2 : v = u
            · subst e2
              rw [← erase_eq_filter' _ _ gu.nodup]
              exact linked_of _ _ (gu.nodup.sublist List.erase_sublist) h.fol h.prev rfl rfl
            · rw [filter_ne_self _ _ (hnot v hv e2)]
              rcases hd with hd | hd
              · apply hd.congr
                · intro r hr
                  have : r ∉ (h.subs u).vals.erase x := by
                    intro hh
                    have h1 := (ax.down u huw r ((List.mem_of_mem_erase hh)))
                    rw [(ax.down v hv r (hr))] at h1
                    exact e2 (Option.some.inj h1)
                  simp [removed, folOf, this]
                · intro r hr
                  have : r ∉ (h.subs u).vals.erase x := by
                    intro hh
                    have h1 := (ax.down u huw r ((List.mem_of_mem_erase hh)))
                    rw [(ax.down v hv r (hr))] at h1
                    exact e2 (Option.some.inj h1)
                  simp [removed, prevOf, this]
              · exact absurd hd (hnot v hv e2)
          · intro r hr
            have : r ∉ (h.subs u).vals.erase x := by
              intro hh
              exact hr u huw hxu (List.mem_of_mem_erase hh)
            simp [removed, folOf, prevOf, this]
    obtain ⟨f0, p0, h1, hstep, hh1, hlink, hkeep⟩ := step
    have ax1 : AgreeX U h1 w := by
      refine ⟨?_, ?_, ?_⟩
      · intro v hv r
        rw [hh1]
        simp only [if_neg hv, upd]
        rw [List.mem_filter]
        by_cases e : r = x
        · subst e
          simp
        · simpa [e] using ax.down v hv r
      · intro v hv r hu
        rw [hh1]
        simp only [if_neg hv, upd]
        rw [List.mem_filter]
        by_cases e : r = x
        · subst e
          simp
          intro e2; exact absurd e2.symm hv
        · simpa [e] using ax.up v hv r hu
      · intro v hv
        have : h1.subs v = ⟨(h.subs v).vals.filter (· ≠ x), (h.subs v).ecls⟩ := by
          rw [hh1]; simp [hv]
        rw [this]
        exact ((ax.good v hv).sub List.filter_sublist).congr (by rw [hh1]) (by rw [hh1]) (by rw [hh1])
          (by rw [hh1]) (by rw [hh1])
    obtain ⟨f, p, hrun, hl, hk⟩ := ih (fun y hy => hU y (by simp [hy])) h1 ax1
    have hsup1 : h1.sup = upd h.sup x (some w) := by rw [hh1]
    have hsubw : h1.subs w = h.subs w := by rw [hh1]; simp
    have hsubv : ∀ v, v ≠ w → h1.subs v = ⟨(h.subs v).vals.filter (· ≠ x), (h.subs v).ecls⟩ := by
      intro v hv; rw [hh1]; simp [hv]
    have heq : adopted h1 w xs f p = adopted h w (x :: xs) f p := by
      have e1 : adoptedSubs h1 w xs = adoptedSubs h w (x :: xs) := by
        funext v
        simp only [adoptedSubs]
        by_cases e : v = w
        · simp [e, hsubw]
        · rw [if_neg e, if_neg e, hsubv v e]
          simp only [filter_notin_cons]
      have e2 : (fun r => if r ∈ xs then some w else h1.sup r) =
          fun r => if r ∈ x :: xs then some w else h.sup r := by
        funext r
        rw [hsup1]
        by_cases a : r ∈ xs
        · simp [a]
        · by_cases b : r = x <;> simp [a, b, upd]
      have e3 : (fun r => if r ∈ xs ∧ h1.sup r ≠ some w ∧ h1.sup r ≠ none then none else h1.within r) =
          fun r => if r ∈ x :: xs ∧ h.sup r ≠ some w ∧ h.sup r ≠ none then none else h.within r := by
        funext r
        by_cases b : r = x
        · have h1w : h1.within r = if h.sup x ≠ some w ∧ h.sup x ≠ none then none else h.within x := by
            rw [hh1]; subst b
            show (if h.sup r ≠ some w ∧ h.sup r ≠ none then upd h.within r none else h.within) r = _
            split <;> simp
          rw [hsup1, h1w]
          subst b
          simp
        · have h1w : h1.within r = h.within r := by
            rw [hh1]
            by_cases cc : h.sup x ≠ some w ∧ h.sup x ≠ none <;> simp [cc, upd, b]
          rw [hsup1, h1w]
          simp [upd, b]
      have : adopted h1 w xs f p = { h1 with
          subs := adoptedSubs h w (x :: xs)
          sup := fun r => if r ∈ x :: xs then some w else h.sup r
          within := fun r => if r ∈ x :: xs ∧ h.sup r ≠ some w ∧ h.sup r ≠ none then none else h.within r
          fol := f, prev := p } := by
        unfold adopted; rw [e1, e2, e3]
      rw [this, hh1]
      rfl
    refine ⟨f, p, ?_, ?_, ?_⟩
    · unfold adoptAll at hrun ⊢
      rw [M.forL_cons]
      rw [show _ = Res.ok () h1 from hstep]
      simp only []
      rw [hrun, heq]
    · intro v hv hd
      rw [← filter_notin_cons, ← heq]
      have := hl v hv (by
        rw [hsubv v hv]
        rcases hd with hd | ⟨y, hy, hyv⟩
        · exact Or.inl (hlink v hv (Or.inl hd))
        · rcases List.mem_cons.mp hy with e | e
          · subst e; exact Or.inl (hlink v hv (Or.inr hyv))
          · by_cases hyx : y = x
            · subst hyx; exact Or.inl (hlink v hv (Or.inr hyv))
            · exact Or.inr ⟨y, e, by simp [hyv, hyx]⟩)
      rw [hsubv v hv] at this
      exact this
    · intro r hr
      have h1r : h1.fol r = f0 r ∧ h1.prev r = p0 r := by rw [hh1]; exact ⟨rfl, rfl⟩
      have a := hk r (by
        intro v hv hz hm
        rw [hsubv v hv] at hz hm
        obtain ⟨z, hz1, hz2⟩ := hz
        exact hr v hv ⟨z, by simp [hz1], (List.mem_filter.mp hz2).1⟩ (List.mem_filter.mp hm).1)
      have b := hkeep r (fun v hv hx => hr v hv ⟨x, by simp, hx⟩)
      rw [a.1, a.2, h1r.1, h1r.2]; exact b

end ATG
