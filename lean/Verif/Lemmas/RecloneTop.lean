import Verif.Lemmas.Reclone
import Verif.Lemmas.BuildGroup
/-!
# Cloning hierarchies of which only the upper classes are given
-/
namespace ATG

theorem TopParts.refl {ct : ClassTab} {css : List (List CRef)} (hier : ∀ cs ∈ css, IsHierarchy ct cs) : TopParts css css := by
  refine ⟨rfl, fun i cs L h1 h2 => ?_⟩
  rw [h1] at h2
  cases h2
  exact ⟨(hier cs (List.mem_of_getElem? h1)).ne, List.prefix_refl _⟩

/-- the complete list of each given list -/
theorem TopParts.get {css full : List (List CRef)} (tp : TopParts css full) {i : Nat} {cs : List CRef} (hi : css[i]? = some cs) :
    ∃ L, full[i]? = some L ∧ cs ≠ [] ∧ cs <+: L := by
  obtain ⟨hlt, -⟩ := List.getElem?_eq_some_iff.mp hi
  have : full[i]? = some (full[i]'(by rw [← tp.1]; exact hlt)) := List.getElem?_eq_getElem _
  exact ⟨_, this, tp.2 i cs _ hi this⟩

theorem TopParts.mem {css full : List (List CRef)} (tp : TopParts css full) {cs : List CRef} (hc : cs ∈ css) :
    ∃ L ∈ full, cs ≠ [] ∧ cs <+: L := by
  obtain ⟨i, hi⟩ := List.mem_iff_getElem?.mp hc
  obtain ⟨L, h1, h2⟩ := tp.get hi
  exact ⟨L, List.mem_of_getElem? h1, h2⟩

theorem TopPart.of_prefix {ct : ClassTab} {cs L : List CRef} (hne : cs ≠ []) (hp : cs <+: L) (hl : IsHierarchy ct L) : TopPart ct cs := by
  obtain ⟨low, e⟩ := hp
  exact ⟨hne, low, by rw [e]; exact hl⟩

theorem TopParts.top {ct : ClassTab} {css full : List (List CRef)} (tp : TopParts css full) (hier : ∀ L ∈ full, IsHierarchy ct L) :
    ∀ cs ∈ css, TopPart ct cs := by
  intro cs hc
  obtain ⟨L, h1, h2, h3⟩ := tp.mem hc
  exact .of_prefix h2 h3 (hier L h1)

/-- only one list of classes can be completed to a hierarchy that is itself complete -/
theorem TopParts.eq {ct : ClassTab} {css full : List (List CRef)} (tp : TopParts css full) (hier : ∀ L ∈ full, IsHierarchy ct L)
    (h : ∀ cs ∈ css, IsHierarchy ct cs) : css = full := by
  apply List.ext_getElem tp.1
  intro i h1 h2
  obtain ⟨hne, hp⟩ := tp.2 i _ _ (List.getElem?_eq_getElem h1) (List.getElem?_eq_getElem h2)
  obtain ⟨c, hc⟩ := List.exists_mem_of_ne_nil _ hne
  exact (h _ (List.getElem_mem h1)).unique (hier _ (List.getElem_mem h2)) hc (hp.subset hc)

/-- a filter that passes only the first classes of hierarchies -/
theorem filter_tops {ct : ClassTab} {css full : List (List CRef)} (tp : TopParts css full)
    (kind : ∀ (i : Nat) cs L, css[i]? = some cs → full[i]? = some L → IsHierarchy ct L ∨ cs = L) (p : CRef → Bool)
    (hp : ∀ L, IsHierarchy ct L → ∀ c ∈ L, p c = true → L.head? = some c) : css.flatten.filter p = full.flatten.filter p := by
  rw [List.filter_flatten, List.filter_flatten]
  congr 1
  apply List.ext_getElem (by simp [tp.1])
  intro i h1 h2
  rw [List.length_map] at h1 h2
  rw [List.getElem_map, List.getElem_map]
  have e1 : css[i]? = some css[i] := List.getElem?_eq_getElem h1
  have e2 : full[i]? = some full[i] := List.getElem?_eq_getElem h2
  rcases kind i _ _ e1 e2 with hl | hq
  · obtain ⟨hne, r, hr⟩ := tp.2 i _ _ e1 e2
    rw [← hr] at hl ⊢
    rw [List.filter_append]
    conv => lhs; rw [← List.append_nil (List.filter _ css[i])]
    congr 1
    symm
    rw [List.filter_eq_nil_iff]
    intro c hc hq
    have hh := hp _ hl c (by simp [hc]) hq
    cases e : css[i] with
    | nil => exact hne e
    | cons d ds =>
      rw [e] at hh hl
      cases hh
      exact (List.nodup_append.mp hl.nodup).2.2 c (by simp) c hc rfl
  · rw [hq]

/-- cloning looks at the first classes of hierarchies only -/
theorem reclone_tops {ct : ClassTab} (w : WFC ct) {css full : List (List CRef)} (tp : TopParts css full)
    (kind : ∀ (i : Nat) cs L, css[i]? = some cs → full[i]? = some L → IsHierarchy ct L ∨ cs = L) :
    reclone [] ct css.flatten = reclone [] ct full.flatten := by
  let isTop : CRef → Bool := fun c => match ct.sup c with
      | some s => ct.isSub s cTop
      | none => false
  have htop : ∀ c, isTop c = true → ∃ s, ct.sup c = some s ∧ ct.isSub s cTop = true := by
    intro c
    show (match ct.sup c with | some s => ct.isSub s cTop | none => false) = true → _
    cases ct.sup c with
    | none => simp
    | some s => simp
  have hpt : (css.flatten.eraseDups.filter fun c => ct.isSub c cPoint) = full.flatten.eraseDups.filter fun c => ct.isSub c cPoint := by
    rw [filter_eraseDups _ _ _ (Nat.le_refl _), filter_eraseDups _ _ _ (Nat.le_refl _), filter_tops tp kind]
    intro L hl c hc q
    rw [hl.not_point w hc] at q
    cases q
  have hnone : ((css.flatten.eraseDups).filter fun c => ct.isSub c cInterval).filter (fun c => (ct.sup c).isNone) =
      ((full.flatten.eraseDups).filter fun c => ct.isSub c cInterval).filter fun c => (ct.sup c).isNone := by
    rw [List.filter_filter, List.filter_filter, filter_eraseDups _ _ _ (Nat.le_refl _), filter_eraseDups _ _ _ (Nat.le_refl _),
      filter_tops tp kind]
    intro L hl c hc q
    obtain ⟨s, hs⟩ := hl.sup_some hc
    rw [hs] at q
    cases q
  have hany : ((css.flatten.eraseDups).filter fun c => ct.isSub c cInterval).any (fun c => (ct.sup c).isNone) =
      ((full.flatten.eraseDups).filter fun c => ct.isSub c cInterval).any fun c => (ct.sup c).isNone := by
    have key : ∀ l : List CRef, l.any (fun c => (ct.sup c).isNone) = !(l.filter fun c => (ct.sup c).isNone).isEmpty := by
      intro l
      induction l with
      | nil => rfl
      | cons c l ih =>
        rw [List.any_cons, List.filter_cons, ih]
        cases (ct.sup c).isNone <;> simp
    rw [key, key, hnone]
  have key : ((css.flatten.eraseDups).filter fun c => ct.isSub c cInterval).filter isTop =
      ((full.flatten.eraseDups).filter fun c => ct.isSub c cInterval).filter isTop := by
    rw [List.filter_filter, List.filter_filter, filter_eraseDups _ _ _ (Nat.le_refl _), filter_eraseDups _ _ _ (Nat.le_refl _),
      filter_tops tp kind]
    intro L hl c hc q
    rw [Bool.and_eq_true] at q
    obtain ⟨s, hs, ht⟩ := htop c q.1
    exact hl.head_of_top hc hs ht
  unfold reclone
  simp only [hpt, hany]
  exact congrArg (fun tops => if ((full.flatten.eraseDups).filter fun c => ct.isSub c cInterval).any (fun c => (ct.sup c).isNone)
    then (ct, .error .typeError) else
    (cloneAll [] [] ct (full.flatten.eraseDups.filter fun c => ct.isSub c cPoint)).bind fun ct ps =>
    (cloneAll [] [] ct tops).bind fun ct ts =>
    (ct, match hiersOf ct ts with
      | .error e => .error e
      | .ok full => .ok (ps ++ full))) key

theorem swapClasses_prefix {ct : ClassTab} {cs r new l : List CRef} (e : swapClasses ct (cs ++ r) new = .ok l) :
    swapClasses ct cs new = .ok (l.take cs.length) := by
  unfold swapClasses at e ⊢
  rw [mapM_ok_iff] at e ⊢
  have := congrArg (List.take cs.length) e
  rw [← List.map_take, ← List.map_take, List.take_left] at this
  exact this

theorem swapAll_prefix {ct : ClassTab} {new : List CRef} {css full full' : List (List CRef)} (tp : TopParts css full)
    (e : full.mapM (fun l => swapClasses ct l new) = .ok full') :
    ∃ css', css.mapM (fun l => swapClasses ct l new) = .ok css' ∧ TopParts css' full' := by
  rw [mapM_ok_iff] at e
  have hlen : full.length = full'.length := by simpa using congrArg List.length e
  have hi : ∀ (i : Nat) (cs : List CRef), css[i]? = some cs → ∃ l' : List CRef, full'[i]? = some l' ∧ swapClasses ct cs new = .ok (l'.take cs.length) ∧
      l'.take cs.length ≠ [] := by
    intro i cs hc
    obtain ⟨L, h1, h2, r, h3⟩ := tp.get hc
    have q := congrArg (·[i]?) e
    simp only [List.getElem?_map, h1, Option.map_some] at q
    obtain ⟨l', h4, h5⟩ := Option.map_eq_some_iff.mp q.symm
    rw [← h3] at h5
    have h6 := swapClasses_prefix h5.symm
    refine ⟨l', h4, h6, fun q => h2 ?_⟩
    have := congrArg List.length (swapClasses_names h6)
    rw [q] at this
    simpa using this.symm
  refine ⟨(css.zip full').map fun p => p.2.take p.1.length, ?_, ?_, ?_⟩
  · rw [mapM_ok_iff]
    apply List.ext_getElem?
    intro i
    rw [List.getElem?_map, List.getElem?_map, List.getElem?_map]
    cases hc : css[i]? with
    | none =>
      have : (css.zip full')[i]? = none := by
        rw [List.getElem?_eq_none_iff] at hc ⊢
        rw [List.length_zip]; omega
      rw [this]; rfl
    | some cs =>
      obtain ⟨l', h1, h2, -⟩ := hi i cs hc
      have : (css.zip full')[i]? = some (cs, l') := List.getElem?_zip_eq_some.mpr ⟨hc, h1⟩
      rw [this]
      simp only [Option.map_some, h2]
  · rw [List.length_map, List.length_zip, tp.1, hlen, Nat.min_self]
  · intro i cs L h1 h2
    rw [List.getElem?_map] at h1
    obtain ⟨⟨c0, l0⟩, h3, rfl⟩ := Option.map_eq_some_iff.mp h1
    obtain ⟨h4, h5⟩ := List.getElem?_zip_eq_some.mp h3
    rw [h2] at h5
    cases h5
    obtain ⟨l', h6, -, h7⟩ := hi i c0 h4
    rw [h2] at h6
    cases h6
    exact ⟨h7, List.take_prefix _ _⟩

end ATG
