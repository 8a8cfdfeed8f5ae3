import Verif.Lemmas.RecloneTop
import Verif.Lemmas.Lookup
/-!
# Cloning classes whose hierarchy comes without its highest class
-/
namespace ATG

/-- each cloned class has its name from a hierarchy whose highest class is in the list -/
theorem reclone_names {ct : ClassTab} (w : WFC ct) {full : List (List CRef)} (gc : GoodClasses ct full) (l : List CRef)
    (hl : ∀ c ∈ l, c ∈ full.flatten) :
    ∃ ct' new, reclone [] ct l = (ct', .ok new) ∧ Ext ct ct' ∧
      ∀ y ∈ new, ∃ L ∈ full, (∃ t ∈ l, L.head? = some t) ∧ ct'.name y ∈ L.map ct.name := by
  have hmem : ∀ c, c ∈ l.eraseDups ↔ c ∈ l := fun c => List.mem_eraseDups
  have hiv : ∀ c ∈ l, ∃ cs ∈ full, c ∈ cs := fun c hc => by
    obtain ⟨cs, h1, h2⟩ := List.mem_flatten.mp (hl c hc)
    exact ⟨cs, h1, h2⟩
  have hpoints : l.eraseDups.filter (fun c => ct.isSub c cPoint) = [] := by
    rw [List.filter_eq_nil_iff]
    intro c hc
    obtain ⟨cs, h1, h2⟩ := hiv c ((hmem c).mp hc)
    rw [(gc.hier cs h1).not_point w h2]
    simp
  have hivs : l.eraseDups.filter (fun c => ct.isSub c cInterval) = l.eraseDups := by
    rw [List.filter_eq_self]
    intro c hc
    obtain ⟨cs, h1, h2⟩ := hiv c ((hmem c).mp hc)
    exact ((gc.hier cs h1).mem c h2).2.1
  have hany : l.eraseDups.any (fun c => (ct.sup c).isNone) = false := by
    rw [List.any_eq_false]
    intro c hc
    obtain ⟨cs, h1, h2⟩ := hiv c ((hmem c).mp hc)
    obtain ⟨s, hs⟩ := (gc.hier cs h1).sup_some h2
    rw [hs]; simp
  let isTop : CRef → Bool := fun c => match ct.sup c with
      | some s => ct.isSub s cTop
      | none => false
  have hcase : ∀ c, isTop c = true ↔ ∃ s, ct.sup c = some s ∧ ct.isSub s cTop = true := by
    intro c
    show (match ct.sup c with | some s => ct.isSub s cTop | none => false) = true ↔ _
    cases ct.sup c with
    | none => simp
    | some s => simp
  generalize htops : l.eraseDups.filter isTop = tops
  have htm : ∀ c ∈ tops, ∃ L, (L ∈ full ∧ ∃ t ∈ l, L.head? = some t) ∧ L.head? = some c := by
    intro c hc
    rw [← htops, List.mem_filter, hmem] at hc
    obtain ⟨cs, h1, h2⟩ := hiv c hc.1
    obtain ⟨s, hs, ht⟩ := (hcase c).mp hc.2
    have := (gc.hier cs h1).head_of_top h2 hs ht
    exact ⟨cs, ⟨h1, c, hc.1, this⟩, this⟩
  obtain ⟨Ls, hh, hLs⟩ := exists_lists tops htm
  obtain ⟨ct', tops', Ls', e1, w', x', hh', hL', hn'⟩ := cloneAll_run tops Ls w hh fun L hL =>
    ⟨gc.hier L (hLs L hL).1, fun c hc => gc.plain c (List.mem_flatten.mpr ⟨L, (hLs L hL).1, hc⟩)⟩
  have e2 := hiersOf_run hh' fun L hL => (hL' L hL).1
  refine ⟨ct', Ls'.flatten, ?_, x', ?_⟩
  · unfold reclone
    simp only [hpoints, hivs, hany]
    rw [if_neg (by simp)]
    subst htops
    show ((cloneAll [] [] ct []).bind fun ct ps => (cloneAll [] [] ct (l.eraseDups.filter isTop)).bind fun ct ts => _) = _
    simp only [cloneAll, CRes.bind_ok, List.nil_append]
    rw [e1, CRes.bind_ok, e2]
  · intro y hy
    obtain ⟨K, hK, hyK⟩ := List.mem_flatten.mp hy
    obtain ⟨i, hi⟩ := List.mem_iff_getElem?.mp hK
    have q := congrArg (·[i]?) hn'
    simp only [List.getElem?_map, hi, Option.map_some] at q
    obtain ⟨L, hL, q⟩ := Option.map_eq_some_iff.mp q.symm
    have hLm := hLs L (List.mem_of_getElem? hL)
    refine ⟨L, hLm.1, hLm.2, ?_⟩
    rw [q]
    exact List.mem_map_of_mem hyK

theorem mapM_error_mem {α β} (f : α → Except Err β) (k : Err) (l : List α) (hl : ∀ a ∈ l, (∃ x, f a = .ok x) ∨ f a = .error k)
    {a : α} (ha : a ∈ l) (e : f a = .error k) : l.mapM f = .error k := by
  cases q : l.mapM f with
  | error er => rw [mapM_error_of f k l hl er q]
  | ok r =>
    exfalso
    rw [mapM_ok_iff] at q
    have : f a ∈ r.map Except.ok := by rw [← q]; exact List.mem_map_of_mem ha
    obtain ⟨x, -, hx⟩ := List.mem_map.mp this
    rw [e] at hx
    cases hx

theorem swapClasses_cases {ct : ClassTab} (orig new : List CRef) :
    (∃ r, swapClasses ct orig new = .ok r) ∨ swapClasses ct orig new = .error .valueError := by
  cases q : swapClasses ct orig new with
  | ok r => exact Or.inl ⟨r, rfl⟩
  | error er =>
    right
    rw [mapM_error_of _ .valueError orig (fun a _ => by
      cases new.find? (fun c => ct.name c == ct.name a) with
      | none => exact Or.inr rfl
      | some d => exact Or.inl ⟨d, rfl⟩) er q]

theorem swapClasses_missing {ct : ClassTab} {orig new : List CRef} {c : CRef} (hc : c ∈ orig) (hn : ∀ y ∈ new, ct.name y ≠ ct.name c) :
    swapClasses ct orig new = .error .valueError := by
  refine mapM_error_mem _ .valueError orig (fun a _ => ?_) hc ?_
  · cases new.find? (fun c => ct.name c == ct.name a) with
    | none => exact Or.inr rfl
    | some d => exact Or.inl ⟨d, rfl⟩
  · rw [List.find?_eq_none.mpr (fun y hy => by simpa using hn y hy)]

/-- a class without the highest class of its hierarchy is not among the clones -/
theorem reclone_headless {ct : ClassTab} (w : WFC ct) {full : List (List CRef)} (gc : GoodClasses ct full) (l : List CRef)
    (hl : ∀ c ∈ l, c ∈ full.flatten) {L : List CRef} (hL : L ∈ full) {c : CRef} (hc : c ∈ L)
    (ht : ∀ t, L.head? = some t → t ∉ l) :
    ∃ ct' new, reclone [] ct l = (ct', .ok new) ∧ Ext ct ct' ∧ ∀ y ∈ new, ct'.name y ≠ ct'.name c := by
  obtain ⟨ct', new, e, x, hn⟩ := reclone_names w gc l hl
  refine ⟨ct', new, e, x, ?_⟩
  intro y hy q
  obtain ⟨K, hK, ⟨t, htl, hKt⟩, hy'⟩ := hn y hy
  rw [q, x.name c ((gc.hier L hL).mem c hc).1] at hy'
  obtain ⟨d, hd, e⟩ := List.mem_map.mp hy'
  have := gc.names d (List.mem_flatten.mpr ⟨K, hK, hd⟩) c (List.mem_flatten.mpr ⟨L, hL, hc⟩) e
  subst this
  have := (gc.hier K hK).unique (gc.hier L hL) hd hc
  subst this
  exact ht t hKt htl

end ATG
