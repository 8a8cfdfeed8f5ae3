import Verif.Lemmas.CleanLevel
/-!
# Edits leave no group without tiers
-/
namespace ATG

/-- each page has a tier -/
def Draft.Filled (d : Draft) : Prop := ∀ q ∈ d, q.1 ≠ []

instance (d : Draft) : Decidable d.Filled := by unfold Draft.Filled; infer_instance

theorem Draft.Filled.onPage {d d' : Draft} {i : Nat} {ok : Bool → Bool} {f : Page → Option Page} (s : d.Filled)
    (hf : ∀ p p', f p = some p' → p'.length = p.length) (h : d.onPage i ok f = some d') : d'.Filled := by
  unfold Draft.onPage at h
  cases hq : d[i]? with
  | none => rw [hq] at h; cases h
  | some q =>
    rw [hq] at h
    simp only at h
    split at h
    · obtain ⟨p, hp, rfl⟩ := Option.map_eq_some_iff.mp h
      intro q' hq'
      rcases List.mem_or_eq_of_mem_set hq' with h1 | rfl
      · exact s q' h1
      · intro e
        have := hf _ _ hp
        rw [show p = [] from e] at this
        exact s q (List.mem_of_getElem? hq) (List.length_eq_zero_iff.mp this.symm)
    · cases h

theorem Page.fuse_length {J : String → String → String} {j k : Nat} (p p' : Page) (h : p.fuse J j k = some p') : p'.length = p.length := by
  unfold Page.fuse at h
  split at h
  · cases h
  · split at h
    · split at h
      · cases h
        exact List.length_set
      · cases h
    · cases h

theorem Page.relabel_length {lab : String} {j k : Nat} (p p' : Page) (h : p.relabel lab j k = some p') : p'.length = p.length := by
  unfold Page.relabel at h
  split at h
  · cases h
  · split at h
    · split at h
      · cases h
        exact List.length_set
      · cases h
    · cases h

theorem insertIdx_ne_nil {α} {p : List α} (hp : p ≠ []) {i : Nat} {x : α} : p.insertIdx i x ≠ [] := by
  intro e
  have := congrArg List.length e
  rw [List.length_insertIdx] at this
  have hl := List.length_pos_iff.mpr hp
  simp only [List.length_nil] at this
  split at this <;> omega

theorem Page.interleave_filled {name cname : String} {above fromBelow labels : Bool} (p p' : Page) (hp : p ≠ [])
    (h : p.interleave name above cname fromBelow labels = some p') : p' ≠ [] := by
  unfold Page.interleave at h
  split at h
  · cases h
    exact hp
  · dsimp only at h
    split at h
    · cases h
    · cases h
    · cases h
      exact insertIdx_ne_nil hp

/-- a page of which every tier has the same name, and different tiers have different names -/
theorem names_single {p : Page} {name : String} (nd : (p.map (·.1)).Nodup) (hp : p ≠ []) (ha : ∀ t ∈ p, t.1 = name) : p.map (·.1) = [name] := by
  match p, hp with
  | [t], _ => exact congrArg (fun s => [s]) (ha t (by simp))
  | t :: u :: l, _ =>
    exfalso
    have h1 := ha t (by simp)
    have h2 := ha u (by simp)
    simp [h1, h2] at nd

/-- no edit leaves a group without tiers -/
theorem Change.act_filled {d d' : Draft} (s : d.Filled) (nd : ∀ q ∈ d, (q.1.map (·.1)).Nodup) (e : Change) (h : e.act d = some d') :
    d'.Filled := by
  cases e with
  | touch e =>
    cases e with
    | fuse J i j k => exact s.onPage Page.fuse_length h
    | fuseLeft J i j k =>
      change Draft.onPage i (fun _ => decide (j ≠ 0)) (Page.fuseLeft J j k) d = some d' at h
      exact s.onPage (fun p p' h => by
        match k, h with
        | k + 1, h => exact Page.fuse_length p p' h) h
    | relabel lab i j k =>
      change Draft.onPage i (fun _ => true) (Page.relabel lab j k) d = some d' at h
      exact s.onPage Page.relabel_length h
  | edit e =>
    cases e with
    | interleave name above cname fromBelow labels =>
      change d.interleave name above cname fromBelow labels = some d' at h
      unfold Draft.interleave at h
      split at h
      · have hl := mapM_some h
        intro q' hq'
        obtain ⟨i, hi', e⟩ := List.mem_iff_getElem.mp hq'
        have hi : i < d.length := by omega
        have := hl.2 i _ _ (List.getElem?_eq_getElem hi) (List.getElem?_eq_getElem hi')
        obtain ⟨p, hp, e'⟩ := Option.map_eq_some_iff.mp this
        rw [e] at e'
        rw [← e']
        exact Page.interleave_filled _ _ (s _ (List.getElem_mem hi)) hp
      · cases h
    | pop name =>
      cases h
      unfold Draft.pop
      split
      · exact s
      · intro q hq
        obtain ⟨q0, h0, rfl⟩ := List.mem_map.mp hq
        obtain ⟨hm, hx⟩ := List.mem_filter.mp h0
        intro e
        refine of_decide_eq_true hx (names_single (nd q0 hm) (s q0 hm) ?_)
        intro t ht
        have := List.filter_eq_nil_iff.mp e t ht
        simpa using this
    | shift t =>
      cases h
      intro q hq
      obtain ⟨q0, h0, rfl⟩ := List.mem_map.mp hq
      intro e
      exact s q0 h0 (List.map_eq_nil_iff.mp e)

/-- different tiers of a group have different names -/
theorem Drafted.nodup {h : Heap} {gs : List GRef} {d : Draft} (wk : Workable h gs) (dr : Drafted h gs d) : ∀ q ∈ d, (q.1.map (·.1)).Nodup := by
  obtain ⟨fl, rfl, -⟩ := dr
  intro q hq
  obtain ⟨g, hg, rfl⟩ := List.mem_map.mp hq
  show ((pageOf h g).map (·.1)).Nodup
  rw [pageOf_names]
  have := wk.rows.names _ (List.mem_map_of_mem hg)
  rwa [List.map_map] at this

/-- the tiers of a textgrid, each group with a tier -/
theorem draftFrom_filled {ct : ClassTab} {tss : List (List PTier)} {css : List (List CRef)} (hlen : tss.map List.length = css.map List.length)
    (gc : TopClasses ct css) : (draftFrom tss (css.map (List.map ct.name))).Filled := by
  obtain ⟨full, -, hl, tp⟩ := gc
  intro q hq
  obtain ⟨p, hp, rfl⟩ := List.mem_map.mp hq
  obtain ⟨⟨ts, ns⟩, hz, rfl⟩ := List.mem_map.mp hp
  obtain ⟨i, hi⟩ := List.mem_iff_getElem?.mp hz
  obtain ⟨h1, h2⟩ := List.getElem?_zip_eq_some.mp hi
  rw [List.getElem?_map] at h2
  obtain ⟨cs, hcs, rfl⟩ := Option.map_eq_some_iff.mp h2
  have hlt : i < full.length := by rw [← hl]; exact getElem?_lt hcs
  have hne := (tp i cs _ hcs (List.getElem?_eq_getElem hlt)).1
  have hh : (tss.map List.length)[i]? = (css.map List.length)[i]? := by rw [hlen]
  rw [List.getElem?_map, List.getElem?_map, h1, hcs] at hh
  have hh : ts.length = cs.length := Option.some.inj hh
  intro e
  have := congrArg List.length e
  simp only [List.length_zip, List.length_map, List.length_nil] at this
  have := List.length_pos_iff.mpr hne
  omega

end ATG
