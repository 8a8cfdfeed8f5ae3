import Verif.Lemmas.AtgAppend
/-!
# Making a textgrid of groups: one append after the other
-/
namespace ATG

/-- On the way from `h` to a textgrid of the groups `gs`: the groups `done` have been appended, and their tiers have been
    cast to the hierarchies `Ls`. -/
structure Joining (h k : Heap) (a : ARef) (gs done : List GRef) (Ls : List (List CRef)) : Prop where
  groups : k.agroups a = done
  grid : GapGrid k gs
  placed : ∀ g ∈ gs, Seated k (k.gtiers g)
  wfc : WFC k.ct
  ext : Ext h.ct k.ct
  cloned : k.acloned a = Ls.flatten
  good : GoodClasses k.ct Ls
  fresh : ∀ c ∈ Ls.flatten, h.ct.next ≤ c
  source : ∀ L ∈ Ls, ∃ g ∈ gs, L.map k.ct.name = classNames h g
  gtiers : k.gtiers = h.gtiers
  vals : ∀ t, (k.tseq t).vals = (h.tseq t).vals
  start : k.start = h.start
  stop : k.stop = h.stop
  label : k.label = h.label
  names : ∀ g ∈ gs, classNames k g = classNames h g
  cast : ∀ g ∈ done, (h.gtiers g).map k.tcls ∈ Ls ∧ ∀ t ∈ h.gtiers g, k.tname t = k.ct.name (k.tcls t)

theorem flatMap_apart {α β} {f : α → List β} {l : List α} (nd : (l.flatMap f).Nodup) {x y : α} (hx : x ∈ l) (hy : y ∈ l) (hxy : x ≠ y)
    {b : β} (hb : b ∈ f x) : b ∉ f y := by
  rw [List.nodup_iff_pairwise_ne, List.pairwise_flatMap] at nd
  intro hb'
  obtain ⟨i, hi⟩ := List.mem_iff_getElem?.mp hx
  obtain ⟨j, hj⟩ := List.mem_iff_getElem?.mp hy
  have hi' := List.getElem?_eq_some_iff.mp hi
  have hj' := List.getElem?_eq_some_iff.mp hj
  obtain ⟨li, ei⟩ := hi'
  obtain ⟨lj, ej⟩ := hj'
  have pw := List.pairwise_iff_getElem.mp nd.2
  rcases Nat.lt_trichotomy i j with q | q | q
  · exact pw i j li lj q b (ei ▸ hb) b (ej ▸ hb') rfl
  · subst q
    exact hxy (ei.symm.trans ej)
  · exact pw j i lj li q b (ej ▸ hb') b (ei ▸ hb) rfl

theorem Joining.step {h k : Heap} {a : ARef} {gs done : List GRef} {Ls : List (List CRef)} (J : Joining h k a gs done Ls)
    {g : GRef} (hg : g ∈ gs) (hd : ∀ k ∈ done, k ∈ gs) (hgd : g ∉ done)
    (hne : ∀ t ∈ h.gtiers g, (h.tseq t).vals ≠ []) (plain : ∀ n ∈ classNames h g, PlainName n) (nm : (classNames h g).Nodup)
    (compat : ∀ k ∈ gs, ∀ n ∈ classNames h k, n ∈ classNames h g → classNames h k = classNames h g) :
    ∃ k' K, atgAppend a g k = .ok () k' ∧ Joining h k' a gs (done ++ [g]) (Ls ++ [K]) ∧ (h.gtiers g).map k'.tcls = K := by
  obtain ⟨k', K, e, j, gr, pl, w', x', gc, hor⟩ := atgAppend_run (a := a) J.wfc J.grid hg J.placed
    (by rw [J.gtiers]; intro t ht; rw [J.vals]; exact hne t ht) J.cloned J.good
    (by rw [J.names g hg]; exact plain) (by rw [J.names g hg]; exact nm)
    (by
      intro L hL d hd hm
      rw [J.names g hg] at hm ⊢
      obtain ⟨g', hg', eL⟩ := J.source L hL
      rw [eL]
      exact compat g' hg' _ (eL ▸ List.mem_map_of_mem hd) hm)
  have hgt := J.gtiers
  have hapart : ∀ g' ∈ gs, g' ≠ g → ∀ t ∈ k.gtiers g', t ∉ k.gtiers g :=
    fun g' hg' hn t ht => flatMap_apart J.grid.tiers hg' hg hn ht
  have hlt : ∀ g' ∈ gs, ∀ t ∈ k.gtiers g', k.tcls t < k.ct.next :=
    fun g' hg' t ht => ((J.placed g' hg').hier.mem _ (List.mem_map_of_mem ht)).1
  have hLlt : ∀ L ∈ Ls, ∀ c ∈ L, c < k.ct.next := fun L hL c hc => ((J.good.hier L hL).mem c hc).1
  refine ⟨k', K, e, ⟨?_, gr, pl, w', J.ext.trans x', ?_, gc, ?_, ?_, j.gtiers.trans hgt, fun t => (j.vals t).trans (J.vals t),
    j.start.trans J.start, j.stop.trans J.stop, j.label.trans J.label, ?_, ?_⟩, by rw [← hgt]; exact j.tcls⟩
  · rw [j.agroups, upd_same, J.groups]
  · rw [j.acloned, upd_same, J.cloned]; simp
  · intro c hc
    rcases List.mem_append.mp (by simpa only [List.flatten_append] using hc) with hc | hc
    · exact J.fresh c hc
    · have hc : c ∈ K := by simpa using hc
      rcases hor with ⟨hK, -⟩ | ⟨hK, -⟩
      · exact J.fresh c (List.mem_flatten.mpr ⟨K, hK, hc⟩)
      · exact Nat.le_trans J.ext.le (hK c hc)
  · intro L hL
    rcases List.mem_append.mp hL with hL | hL
    · obtain ⟨g', hg', eL⟩ := J.source L hL
      refine ⟨g', hg', ?_⟩
      rw [← eL]
      exact List.map_congr_left fun c hc => x'.name c (hLlt L hL c hc)
    · have : L = K := by simpa using hL
      exact ⟨g, hg, by rw [this, j.names, J.names g hg]⟩
  · intro g' hg'
    rw [← J.names g' hg']
    by_cases q : g' = g
    · rw [q, ← j.names, ← j.tcls]
      unfold classNames
      rw [j.gtiers, List.map_map]; rfl
    · unfold classNames
      rw [j.gtiers]
      refine List.map_congr_left fun t ht => ?_
      rw [(j.other t (hapart g' hg' q t ht)).1, x'.name _ (hlt g' hg' t ht)]
  · intro g' hg'
    rcases List.mem_append.mp hg' with q | q
    · have hg's := hd g' q
      have hn : g' ≠ g := fun e => hgd (e ▸ q)
      obtain ⟨c1, c2⟩ := J.cast g' q
      have ho : ∀ t ∈ h.gtiers g', k'.tcls t = k.tcls t ∧ k'.tname t = k.tname t := fun t ht => by
        have := j.other t (hapart g' hg's hn t (by rw [hgt]; exact ht))
        exact ⟨this.1, this.2.1⟩
      refine ⟨List.mem_append_left _ ?_, fun t ht => ?_⟩
      · rw [List.map_congr_left fun t ht => (ho t ht).1]; exact c1
      · rw [(ho t ht).1, (ho t ht).2, c2 t ht, x'.name _ (hlt g' hg's t (by rw [hgt]; exact ht))]
    · have : g' = g := by simpa using q
      subst this
      rw [← hgt]
      exact ⟨List.mem_append_right _ (by rw [j.tcls]; simp), j.tname⟩

theorem Joining.all {h : Heap} {a : ARef} {gs : List GRef}
    (hne : ∀ g ∈ gs, ∀ t ∈ h.gtiers g, (h.tseq t).vals ≠ []) (plain : ∀ g ∈ gs, ∀ n ∈ classNames h g, PlainName n)
    (nm : ∀ g ∈ gs, (classNames h g).Nodup)
    (compat : ∀ g ∈ gs, ∀ k ∈ gs, ∀ n ∈ classNames h k, n ∈ classNames h g → classNames h k = classNames h g) :
    ∀ (l : List GRef) (k : Heap) (done : List GRef) (Ls : List (List CRef)), Joining h k a gs done Ls → gs = done ++ l →
      ∃ k' Ls', M.forL l (fun g => atgAppend a g) k = .ok () k' ∧ Joining h k' a gs gs Ls'
  | [], k, done, Ls, J, e => ⟨k, Ls, rfl, by rw [List.append_nil] at e; subst e; exact J⟩
  | g :: l, k, done, Ls, J, e => by
    have hg : g ∈ gs := by rw [e]; simp
    obtain ⟨k1, K, e1, J1, -⟩ := J.step hg (fun x hx => by rw [e]; simp [hx]) (by
      have := J.grid.nodup
      rw [e, List.nodup_append] at this
      intro hm
      exact this.2.2 g hm g (by simp) rfl) (hne g hg) (plain g hg) (nm g hg) (compat g hg)
    obtain ⟨k2, Ls', e2, J2⟩ := Joining.all hne plain nm compat l k1 (done ++ [g]) _ J1 (by rw [e]; simp)
    refine ⟨k2, Ls', ?_, J2⟩
    rw [M.forL_cons, e1]
    exact e2

/-- a fresh textgrid object changes nothing about the groups -/
theorem GapGrid.newObj {h h' : Heap} {ks : List GRef} (gr : GapGrid h ks)
    (f : h' = { h with nA := h'.nA, agroups := h'.agroups, acont := h'.acont, acloned := h'.acloned }) : GapGrid h' ks := by
  have hgt : h'.gtiers = h.gtiers := by rw [f]
  have hseq : h'.tseq = h.tseq := by rw [f]
  have um : ∀ ts, Unmoved h h' ts := fun ts => by
    rw [f]
    exact ⟨fun _ _ => rfl, fun _ _ => rfl, fun _ _ => rfl, fun _ _ _ _ => ⟨rfl, rfl, rfl, rfl⟩,
      fun _ _ _ _ => ⟨rfl, rfl, rfl, rfl, rfl, rfl⟩⟩
  refine ⟨gr.nodup, by rw [hgt]; exact gr.tiers, ?_, ?_, ?_, ?_, ?_, ?_⟩
  · unfold Separate
    rw [hgt, hseq]; exact gr.separate
  · intro g hg
    rw [hgt]
    exact (gr.groups g hg).kept (um _) (by rw [f]) (by rw [f]; exact Nat.le_refl _)
      (fun t _ => by rw [f]; exact ⟨rfl, rfl, rfl⟩) (by rw [f]) (by rw [f]) (by rw [f])
  · rw [hgt, show h'.ct = h.ct by rw [f], show h'.tcls = h.tcls by rw [f]]; exact gr.interval
  · unfold SupClosed OnTiers
    rw [hgt, hseq, show h'.sup = h.sup by rw [f]]; exact gr.closed
  · exact gr.tidy.newClasses _ (by rw [f])
  · unfold Allocated
    rw [show h'.subs = h.subs by rw [f], show h'.nE = h.nE by rw [f]]; exact gr.alloc

theorem newAtgOf_run {h : Heap} {gs : List GRef} (w : WFC h.ct) (gr : GapGrid h gs) (pl : ∀ k ∈ gs, Seated h (h.gtiers k))
    (hne : ∀ g ∈ gs, ∀ t ∈ h.gtiers g, (h.tseq t).vals ≠ []) (plain : ∀ g ∈ gs, ∀ n ∈ classNames h g, PlainName n)
    (nm : ∀ g ∈ gs, (classNames h g).Nodup)
    (compat : ∀ g ∈ gs, ∀ k ∈ gs, ∀ n ∈ classNames h k, n ∈ classNames h g → classNames h k = classNames h g) :
    ∃ h' Ls, newAtgOf gs h = .ok h.nA h' ∧ Joining h h' h.nA gs gs Ls ∧ (∀ g ∈ gs, h'.gwithin g = some h.nA) ∧
      h'.acont h.nA = gs := by
  let k : Heap := { h with nA := h.nA + 1, agroups := upd h.agroups h.nA [], acont := upd h.acont h.nA [], acloned := upd h.acloned h.nA [] }
  have J : Joining h k h.nA gs [] [] := by
    refine ⟨upd_same _ _ _, gr.newObj rfl, fun g hg => ?_, w, .refl _, upd_same _ _ _, ⟨by simp, by simp, by simp⟩, by simp, by simp,
      rfl, fun _ => rfl, rfl, rfl, rfl, fun _ _ => rfl, by simp⟩
    have p := pl g hg
    exact ⟨p.hier, p.tsup, p.tsub⟩
  obtain ⟨k', Ls, e, J'⟩ := Joining.all hne plain nm compat gs k [] [] J rfl
  obtain ⟨h', e', r⟩ := setContainsA_run h.nA k'
  have hg := J'.groups
  refine ⟨h', Ls, ?_, ?_, ?_, ?_⟩
  · unfold newAtgOf
    mstep (show newAtgObj h = .ok h.nA k from rfl)
    mstep e
    mstep e'
    rfl
  · have hct : h'.ct = k'.ct := by rw [r.frame]
    have hgt : h'.gtiers = k'.gtiers := by rw [r.frame]
    have htc : h'.tcls = k'.tcls := by rw [r.frame]
    have htn : h'.tname = k'.tname := by rw [r.frame]
    refine ⟨r.agroups.trans hg, J'.grid.regrouped r, ?_, by rw [hct]; exact J'.wfc, by rw [hct]; exact J'.ext, ?_,
      by rw [hct]; exact J'.good, J'.fresh, by rw [hct]; exact J'.source, hgt.trans J'.gtiers, ?_, ?_, ?_, ?_, ?_, ?_⟩
    · intro g hg
      have p := J'.placed g hg
      rw [hgt]
      exact ⟨by rw [hct, htc]; exact p.hier, by rw [hct, htc, show h'.tsup = k'.tsup by rw [r.frame]]; exact p.tsup,
        by rw [hct, htc, show h'.tsub = k'.tsub by rw [r.frame]]; exact p.tsub⟩
    · rw [show h'.acloned = k'.acloned by rw [r.frame]]; exact J'.cloned
    · rw [show h'.tseq = k'.tseq by rw [r.frame]]; exact J'.vals
    · rw [show h'.start = k'.start by rw [r.frame]]; exact J'.start
    · rw [show h'.stop = k'.stop by rw [r.frame]]; exact J'.stop
    · rw [show h'.label = k'.label by rw [r.frame]]; exact J'.label
    · intro g hg
      rw [← J'.names g hg]
      unfold classNames
      rw [hgt, htc, hct]
    · rw [htc, htn, hct]; exact J'.cast
  · rw [← hg]; exact r.gwithin
  · rw [← hg]; exact r.acont.trans (by rw [hg])

end ATG
