import Verif.Lemmas.PopGroup
/-!
# Popping a class from all groups
-/
namespace ATG

/-- an entry of a tier of one of the groups -/
def OnGroups (h : Heap) (gs : List GRef) (x : Ref) : Prop := ∃ g ∈ gs, OnTiers h (h.gtiers g) x

theorem Apart.unmoved {h h' : Heap} {A : Ref → Prop} (a : Apart h h' A) {ct : ClassTab}
    (s : SameContents { h with ct := ct } h') (us : List TRef) (hA : ∀ t ∈ us, ∀ x ∈ (h.tseq t).vals, ¬ A x) :
    Unmoved h h' us := by
  refine ⟨fun t _ => by rw [s.tseq], fun t _ => by rw [s.tcls], fun t _ => by rw [s.tname],
    fun t _ x _ => ⟨by rw [s.start], by rw [s.stop], by rw [s.label], by rw [s.cls]⟩, ?_⟩
  intro t ht x hx
  have := hA t ht x hx
  exact ⟨a.subs x this, a.sup x this, a.within x this, a.cont x this, a.fol x this, a.prev x this⟩

theorem PopDone.congr {h h1 h' h2 : Heap} {g g' : GRef} {name : String} (a : PopDone h h1 g g' name)
    (hg : h'.gtiers g = h.gtiers g) (hn : ∀ c, h'.ct.name c = h.ct.name c) (htc : h'.tcls = h.tcls)
    (hts : h'.tseq = h.tseq) (hg' : h2.gtiers g' = h1.gtiers g') (m : Unmoved h1 h2 (h1.gtiers g'))
    (hs : h1.tseq = h.tseq) : PopDone h' h2 g g' name := by
  obtain ⟨pre, pt, post, a1, a2, a3, a4, a5, a6⟩ := a
  refine ⟨pre, pt, post, hg.trans a1, by rw [hn, htc]; exact a2, fun t ht => by rw [hn, htc]; exact a3 t ht,
    hg'.trans a4, a5.unmoved (by rw [← a4]; exact m), ?_⟩
  intro t ht x hx
  rw [hts] at hx
  have q := a6 t ht x hx
  obtain ⟨k1, -, -, k4, -⟩ := m.relation t (by rw [a4]; exact List.mem_of_getLast? ht) x (by rw [hs]; exact hx)
  rw [k1, k4]
  exact q

/-- what popping the class `name` from the groups `gs` keeps of all entries and tiers -/
structure PopElse (name : String) (gs : List GRef) (h h' : Heap) : Prop where
  intier : h'.intier = h.intier
  tsup : ∀ t, h'.tsup t = h.tsup t ∧ h'.tsub t = h.tsub t ∨
    h'.tsup t = h'.ct.sup (h.tcls t) ∧ h'.tsub t = h'.ct.sub (h.tcls t)
  ecls : ∀ x, (∀ g ∈ gs, Popped h name g → ¬ OnTiers h (h.gtiers g) x) → (h'.subs x).ecls = (h.subs x).ecls
  gpoint : ∀ g, h'.gpoint g = true → h.gpoint g = true ∧ (g < h.nG ∨ h'.nG ≤ g)

theorem PopElse.cons {name : String} {g : GRef} {gs : List GRef} {h h' : Heap} (e : PopElse name gs h h') :
    PopElse name (g :: gs) h h' := ⟨e.intier, e.tsup, fun x hx => e.ecls x fun g' hg' => hx g' (by simp [hg']), e.gpoint⟩

theorem popGroups_ok {u p d : CRef} (name : String) : ∀ (gs : List GRef) (h : Heap) (K : Ref → Prop),
    Between h.ct u p d → gs.Nodup → (∀ g ∈ gs, g < h.nG) → Separate h gs →
    TidyOn (fun x => K x ∨ OnGroups h gs x) h → (∀ x, K x → ¬ OnGroups h gs x) →
    (∀ g ∈ gs, Popped h name g → ∃ pre pt post, PopSpot h g name p pre pt post ∧
      ClassLinks (closeLink h.ct u d) ((pre ++ post).map h.tcls)) →
    (∀ g ∈ gs, Popped h name g → Far h gs g) →
    ∃ gs' h', popGroups name gs h = .ok gs' h' ∧ gs'.length = (staying h name gs).length ∧
      SameContents { h with ct := h'.ct } h' ∧ h'.agroups = h.agroups ∧ h'.nT = h.nT ∧ h.nG ≤ h'.nG ∧
      (∀ g, g < h.nG → h'.gtiers g = h.gtiers g) ∧
      (∀ (i : Nat) g g', (staying h name gs)[i]? = some g → gs'[i]? = some g' →
        (if Popped h name g then PopDone h h' g g' name
         else g' = g ∧ h'.gtiers g = h.gtiers g ∧ Unmoved h h' (h.gtiers g))) ∧
      TidyOn (fun x => K x ∨ OnGroups h' gs' x) h' ∧
      (∀ us : List TRef, (∀ t ∈ us, ∀ x ∈ (h.tseq t).vals, ∀ g ∈ gs, Popped h name g → ¬ Beneath h (h.gtiers g) x) →
        Unmoved h h' us) ∧
      ((∃ g ∈ gs, Popped h name g) → h'.ct = closeLink h.ct u d) ∧
      ((∀ g ∈ gs, ¬ Popped h name g) → h'.ct = h.ct) ∧
      (∀ v x, h'.sup x = some v → h.sup x = some v ∨
        ∃ g ∈ gs, Popped h name g ∧ OnTiers h (h.gtiers g) v ∧ OnTiers h (h.gtiers g) x) ∧
      (∀ v x, x ∈ (h'.subs v).vals → x ∈ (h.subs v).vals ∨
        ∃ g ∈ gs, Popped h name g ∧ OnTiers h (h.gtiers g) v ∧ OnTiers h (h.gtiers g) x) ∧
      (∀ (i : Nat) g g', (staying h name gs)[i]? = some g → gs'[i]? = some g' → Popped h name g →
        FitGroup h' (h'.gtiers g') ∧ UpClosed h' (h'.gtiers g') ∧ Typed h' (h'.gtiers g') ∧ FirstKept h h' (h'.gtiers g') ∧
        TiersFresh h' (h'.gtiers g')) ∧
      (∀ g' ∈ gs', g' ∈ gs ∨ h.nG ≤ g') ∧ (∀ g' ∈ gs', g' < h'.nG) ∧ gs'.Nodup ∧
      PopElse name gs h h'
  | [], h, K, _, _, _, _, td, _, _, _ =>
    ⟨[], h, rfl, rfl, ⟨rfl, rfl, rfl, rfl, rfl, rfl, rfl, rfl, rfl⟩, rfl, rfl, Nat.le_refl _, fun _ _ => rfl, by simp [staying], td,
      fun us _ => Unmoved.refl h us, (fun q => by obtain ⟨_, hg, _⟩ := q; cases hg), (fun _ => rfl), fun _ _ q => Or.inl q,
      fun _ _ q => Or.inl q, by simp [staying], by simp, by simp, List.nodup_nil,
      ⟨rfl, fun _ => Or.inl ⟨rfl, rfl⟩, fun _ _ => rfl, fun g q => ⟨q, Nat.lt_or_ge g h.nG⟩⟩⟩
  | g :: gs, h, K, b, hnd, hold, hsep, td, hK, hspot, hfar => by
    have hfar' : ∀ g' ∈ gs, Popped h name g' → Far h gs g' := fun g' hg' hp =>
      ⟨(hfar g' (by simp [hg']) hp).1, fun g2 hg2 => (hfar g' (by simp [hg']) hp).2 g2 (by simp [hg2])⟩
    have hgn : g ∉ gs := (List.nodup_cons.mp hnd).1
    have hne : ∀ g' ∈ gs, g ≠ g' := fun g' hg' e => hgn (e ▸ hg')
    have hdisj : ∀ x, OnTiers h (h.gtiers g) x → ¬ OnGroups h gs x := by
      rintro x ⟨t, ht, hx⟩ ⟨g', hg', t', ht', hx'⟩
      exact hsep g (by simp) g' (by simp [hg']) (hne g' hg') t ht x hx t' ht' hx'
    have hOn : ∀ x, OnGroups h (g :: gs) x ↔ OnTiers h (h.gtiers g) x ∨ OnGroups h gs x := by
      intro x; unfold OnGroups; simp
    have hsep' : Separate h gs := fun g1 hg1 g2 hg2 => hsep g1 (by simp [hg1]) g2 (by simp [hg2])
    by_cases hc : ((h.gtiers g).map fun t => h.ct.name (h.tcls t)).contains name = true
    · have hex : ∃ t ∈ h.gtiers g, h.ct.name (h.tcls t) = name := by
        rw [List.contains_iff_mem, List.mem_map] at hc
        exact hc
      by_cases hl : ((h.gtiers g).map fun t => h.ct.name (h.tcls t)).length = 1
      · -- the group is dropped
        have hnil : (h.gtiers g).map (fun t => h.ct.name (h.tcls t)) = [name] := by
          obtain ⟨y, hy⟩ := List.length_eq_one_iff.mp hl
          rw [hy] at hc ⊢
          rw [List.contains_iff_mem, List.mem_singleton] at hc
          rw [hc]
        have hst : staying h name (g :: gs) = staying h name gs := by
          unfold staying
          rw [List.filter_cons_of_neg (by simp [hnil])]
        obtain ⟨gs', h', e, c1, c2, c3, c4, c5, c6, c7, c8, c9, c10, c11, c12, c13, c14, c15, c16, c17, c18⟩ :=
          popGroups_ok name gs h K b (List.nodup_cons.mp hnd).2 (fun g' hg' => hold g' (by simp [hg'])) hsep'
            (td.mono (by intro x hx; rw [hOn]; rcases hx with q | q; exact Or.inl q; exact Or.inr (Or.inr q)))
            (fun x hx q => hK x hx ((hOn x).mpr (Or.inr q))) (fun g' hg' => hspot g' (by simp [hg'])) hfar'
        refine ⟨gs', h', ?_, by rw [hst]; exact c1, c2, c3, c4, c5, c6, by rw [hst]; exact c7, c8, ?_, ?_, ?_,
          fun v x q => (c12 v x q).imp id (fun ⟨g', hg', z⟩ => ⟨g', by simp [hg'], z⟩),
          fun v x q => (c13 v x q).imp id (fun ⟨g', hg', z⟩ => ⟨g', by simp [hg'], z⟩),
          by rw [hst]; exact c14, fun g' hg' => (c15 g' hg').imp (fun q => by simp [q]) id, c16, c17, c18.cons⟩
        · rw [popGroups]
          mstep M.get_apply h
          rw [if_neg (by simp only [hc, Bool.not_true]; simp), if_pos hl]
          exact e
        · intro us hus
          exact c9 us (fun t ht x hx g' hg' => hus t ht x hx g' (by simp [hg']))
        · rintro ⟨g', hg', q⟩
          rcases List.mem_cons.mp hg' with rfl | hg'
          · exact absurd (by simpa using hl) q.2
          · exact c10 ⟨g', hg', q⟩
        · intro q; exact c11 (fun g' hg' => q g' (by simp [hg']))
      · -- a tier is taken out
        have hP : Popped h name g := ⟨hex, by simpa using hl⟩
        obtain ⟨pre, pt, post, sp, cl⟩ := hspot g (by simp) hP
        obtain ⟨sc, hgfar⟩ := hfar g (by simp) hP
        rw [sp.eq] at sc
        have hst : staying h name (g :: gs) = g :: staying h name gs := by
          unfold staying
          rw [List.filter_cons_of_pos]
          simp only [decide_eq_true_eq]
          intro q
          rw [q] at hl
          exact hl rfl
        have hkne : pre ++ post ≠ [] := by
          intro q
          rw [List.append_eq_nil_iff] at q
          apply hl
          rw [sp.eq, q.1, q.2]
          rfl
        have hA : ∀ x, OnTiers h (h.gtiers g) x ↔ OnTiers h (pre ++ pt :: post) x := by intro x; rw [sp.eq]
        have hkeep : ∀ x, OnTiers h (pre ++ post) x → OnTiers h (pre ++ pt :: post) x := by
          rintro x ⟨t, ht, hx⟩
          exact ⟨t, by simp only [List.mem_append, List.mem_cons] at ht ⊢; rcases ht with q | q <;> simp [q], hx⟩
        have hkp : ∀ x, OnTiers h [pt] x → ¬ OnTiers h (pre ++ post) x := by
          rintro x ⟨t, ht, hx⟩ ⟨t', ht', hx'⟩
          rw [List.mem_singleton] at ht
          subst ht
          have q := sp.fit.once
          have hperm : ((pre ++ t :: post).map fun t => (h.tseq t).vals).flatten.Perm
              ((h.tseq t).vals ++ ((pre ++ post).map fun t => (h.tseq t).vals).flatten) := by
            rw [← List.flatten_cons]
            exact (List.perm_middle.map _).flatten
          rw [hperm.nodup_iff, List.nodup_append] at q
          exact q.2.2 x hx x (List.mem_flatten.mpr ⟨_, List.mem_map_of_mem ht', hx'⟩) rfl
        obtain ⟨h1, e1, k1, k2, k3, k4, k5, k6, k7, k8, k9, k10, k11, k12, k13, k14, k15, k16, k17, k18, k19⟩ := popGroup_ok
          (L := fun x => (K x ∨ OnTiers h (pre ++ post) x) ∨ OnGroups h gs x) name h g pre post pt sp.eq
          (by rw [sp.cls]; exact sp.named) sp.only hkne (by rw [sp.cls]; exact b) cl sp.fit
          (td.mono (by
            intro x hx
            rw [hOn, hA]
            rcases hx with (q | q) | q
            · exact Or.inl q
            · exact Or.inr (Or.inl (hkeep x q))
            · exact Or.inr (Or.inr q)))
          (fun x hx => Or.inl (Or.inr hx))
          (by
            intro x hx q
            have hxA : OnTiers h (h.gtiers g) x := by
              obtain ⟨t, ht, hxt⟩ := hx
              rw [List.mem_singleton] at ht
              exact ⟨t, by rw [sp.eq, ht]; simp, hxt⟩
            rcases q with (q | q) | q
            · exact hK x q ((hOn x).mpr (Or.inl hxA))
            · exact hkp x hx q
            · exact hdisj x hxA q)
          sc
        have hseq : h1.tseq = h.tseq := k4.tseq
        have htc : h1.tcls = h.tcls := k4.tcls
        have hnm : ∀ c, h1.ct.name c = h.ct.name c := fun c => by rw [k4.ct]; rfl
        have hgt : ∀ g', g' < h.nG → h1.gtiers g' = h.gtiers g' := fun g' hg' => by
          rw [k1, upd_ne _ _ _ _ (Nat.ne_of_lt hg')]
        have hgs1 : ∀ g' ∈ gs, h1.gtiers g' = h.gtiers g' := fun g' hg' => hgt g' (hold g' (by simp [hg']))
        have hOnT : ∀ ts x, OnTiers h1 ts x ↔ OnTiers h ts x := by
          intro ts x; unfold OnTiers; rw [hseq]
        have hOnG : ∀ x, OnGroups h1 gs x ↔ OnGroups h gs x := by
          intro x
          unfold OnGroups
          constructor
          · rintro ⟨g', hg', q⟩; exact ⟨g', hg', by rw [hOnT, hgs1 g' hg'] at q; exact q⟩
          · rintro ⟨g', hg', q⟩; exact ⟨g', hg', by rw [hOnT, hgs1 g' hg']; exact q⟩
        have hnA : ∀ g' ∈ gs, ∀ t ∈ h.gtiers g', ∀ x ∈ (h.tseq t).vals, ¬ Beneath h (pre ++ pt :: post) x := by
          intro g' hg' t ht x hx
          rw [← sp.eq]
          exact hgfar g' (by simp [hg']) (hne g' hg').symm x ⟨t, ht, hx⟩
        have hun : ∀ g' ∈ gs, Unmoved h h1 (h.gtiers g') := fun g' hg' => k7.unmoved k4 _ (hnA g' hg')
        have hPop : ∀ g' ∈ gs, (Popped h1 name g' ↔ Popped h name g') := by
          intro g' hg'
          unfold Popped
          rw [hgs1 g' hg', htc]
          simp only [hnm]
        have hst1 : staying h1 name gs = staying h name gs := by
          unfold staying
          apply List.filter_congr
          intro g' hg'
          rw [hgs1 g' hg', htc]
          simp only [hnm]
        have hback : ∀ g' ∈ gs, Popped h name g' → ∀ x, Beneath h1 (h.gtiers g') x → Beneath h (h.gtiers g') x := by
          intro g' hg' hp x q
          refine q.back (fun t _ => by rw [hseq]) k10 ?_
          intro y hy
          exact (hfar g' (by simp [hg']) hp).2 g (by simp) (hne g' hg') y ((hA y).mpr hy)
        have hfar1 : ∀ g' ∈ gs, Popped h1 name g' → Far h1 gs g' := by
          intro g' hg' hp
          have hp' := (hPop g' hg').mp hp
          obtain ⟨f1, f2⟩ := hfar' g' hg' hp'
          rw [Far, hgs1 g' hg']
          refine ⟨?_, ?_⟩
          · intro v x hs hx
            rw [hOnT] at hx ⊢
            rcases k10 v x hs with r | ⟨r1, r2⟩
            · exact f1 v x r hx
            · exact absurd ⟨g', hg', hx⟩ (hdisj x ((hA x).mpr r2))
          · intro g2 hg2 hne2 x hx q
            rw [hOnT, hgs1 g2 hg2] at hx
            exact f2 g2 hg2 hne2 x hx (hback g' hg' hp' x q)
        have hct1 : closeLink h1.ct u d = closeLink h.ct u d := by
          rw [k4.ct]; exact closeLink_twice _ _ _
        obtain ⟨gs', h', e2, c1, c2, c3, c4, c5, c6, c7, c8, c9, c10, c11, c12, c13, c14, c15, c16, c17, c18⟩ :=
          popGroups_ok name gs h1 (fun x => K x ∨ OnTiers h (pre ++ post) x) (by rw [k4.ct]; exact b.close)
            (List.nodup_cons.mp hnd).2
            (fun g' hg' => by rw [k2]; exact Nat.lt_succ_of_lt (hold g' (by simp [hg'])))
            (by
              intro g1 hg1 g2 hg2 hne' t ht x hx t' ht'
              rw [hgs1 g1 hg1] at ht
              rw [hgs1 g2 hg2] at ht'
              rw [hseq] at hx ⊢
              exact hsep' g1 hg1 g2 hg2 hne' t ht x hx t' ht')
            (k6.mono (by intro x hx; rw [hOnG] at hx; exact hx))
            (by
              intro x hx q
              rw [hOnG] at q
              rcases hx with z | z
              · exact hK x z ((hOn x).mpr (Or.inr q))
              · exact hdisj x ((hA x).mpr (hkeep x z)) q)
            (by
              intro g' hg' hp
              obtain ⟨pre', pt', post', s, cl'⟩ := hspot g' (by simp [hg']) ((hPop g' hg').mp hp)
              refine ⟨pre', pt', post', ⟨by rw [hgs1 g' hg']; exact s.eq, by rw [htc]; exact s.cls,
                by rw [hnm]; exact s.named, fun t ht => by rw [htc, hnm]; exact s.only t ht, ?_⟩,
                by rw [hct1, htc]; exact cl'⟩
              have hm := hun g' hg'
              rw [s.eq] at hm
              refine s.fit.unmoved hm ?_ (by rw [k8]; exact Nat.le_refl _) (by rw [k4.nE]; exact Nat.le_refl _)
              intro v x hx
              rcases k11 v x hx with r | ⟨r1, r2⟩
              · exact s.fit.closed v x r
              · constructor
                · intro z; exact absurd ⟨g', hg', by rw [s.eq]; exact z⟩ (hdisj v ((hA v).mpr r1))
                · intro z; exact absurd ⟨g', hg', by rw [s.eq]; exact z⟩ (hdisj x ((hA x).mpr r2)))
            hfar1
        have hG' : h'.gtiers h.nG = pre ++ post := by
          rw [c6 h.nG (by rw [k2]; exact Nat.lt_succ_self _), k1, upd_same]
        have hG1 : h1.gtiers h.nG = pre ++ post := by rw [k1, upd_same]
        have c2' : SameContents { h with ct := h'.ct } h' :=
          ⟨c2.start.trans k4.start, c2.stop.trans k4.stop, c2.label.trans k4.label, c2.cls.trans k4.cls,
            c2.nE.trans k4.nE, c2.tseq.trans k4.tseq, c2.tcls.trans k4.tcls, c2.tname.trans k4.tname, rfl⟩
        have hTun : Unmoved h1 h' (pre ++ post) := by
          apply c9
          intro t ht x hx g' hg' hp q
          rw [hgs1 g' hg'] at q
          rw [hseq] at hx
          have hp' := (hPop g' hg').mp hp
          exact (hfar g' (by simp [hg']) hp').2 g (by simp) (hne g' hg') x ((hA x).mpr (hkeep x ⟨t, ht, hx⟩))
            (hback g' hg' hp' x q)
        have hct' : h'.ct = closeLink h.ct u d := by
          by_cases q : ∃ g' ∈ gs, Popped h1 name g'
          · exact (c10 q).trans hct1
          · exact (c11 (fun g' hg' z => q ⟨g', hg', z⟩)).trans k4.ct
        refine ⟨h.nG :: gs', h', ?_, by rw [hst, List.length_cons, List.length_cons, c1, hst1], c2', c3.trans k9,
          c4.trans k8, Nat.le_trans (by rw [k2]; exact Nat.le_succ _) c5, ?_, ?_, ?_, ?_, ?_, ?_, ?_, ?_, ?_, ?_, ?_, ?_, ?_⟩
        · rw [popGroups]
          mstep M.get_apply h
          rw [if_neg (by simp only [hc, Bool.not_true]; simp), if_neg hl]
          mstep e1
          mstep e2
          rfl
        · intro g' hg'
          rw [c6 g' (by rw [k2]; exact Nat.lt_succ_of_lt hg'), hgt g' hg']
        · intro i g1 g1' hi hi'
          rw [hst] at hi
          cases i with
          | zero =>
            simp only [List.getElem?_cons_zero, Option.some.injEq] at hi hi'
            subst hi hi'
            rw [if_pos hP]
            refine PopDone.congr (h := h) (h1 := h1) ⟨pre, pt, post, sp.eq, by rw [sp.cls]; exact sp.named, sp.only, hG1,
              k3, k5⟩ rfl (fun _ => rfl) rfl rfl (by rw [hG', hG1]) ?_ hseq
            rw [hG1]
            exact hTun
          | succ i =>
            simp only [List.getElem?_cons_succ] at hi hi'
            have hg1 : g1 ∈ gs := (List.mem_filter.mp (List.mem_of_getElem? hi)).1
            have := c7 i g1 g1' (by rw [hst1]; exact hi) hi'
            by_cases hp : Popped h name g1
            · rw [if_pos ((hPop g1 hg1).mpr hp)] at this
              rw [if_pos hp]
              exact this.congr (hgs1 g1 hg1).symm (fun c => (hnm c).symm) htc.symm hseq.symm rfl
                (Unmoved.refl h' _) c2.tseq
            · rw [if_neg (fun q => hp ((hPop g1 hg1).mp q))] at this
              rw [if_neg hp]
              rw [hgs1 g1 hg1] at this
              exact ⟨this.1, this.2.1, (hun g1 hg1).trans this.2.2⟩
        · refine c8.mono ?_
          intro x hx
          rcases hx with q | ⟨g', hg', q⟩
          · exact Or.inl (Or.inl q)
          · rcases List.mem_cons.mp hg' with rfl | hg'
            · rw [hG'] at q
              obtain ⟨t, ht, hxt⟩ := q
              rw [c2'.tseq] at hxt
              exact Or.inl (Or.inr ⟨t, ht, hxt⟩)
            · exact Or.inr ⟨g', hg', q⟩
        · intro us hus
          have m1 : Unmoved h h1 us := k7.unmoved k4 us (fun t ht x hx q =>
            hus t ht x hx g (by simp) hP (by rw [sp.eq]; exact q))
          refine m1.trans (c9 us ?_)
          intro t ht x hx g' hg' hp q
          rw [hgs1 g' hg'] at q
          rw [hseq] at hx
          have hp' := (hPop g' hg').mp hp
          exact hus t ht x hx g' (by simp [hg']) hp' (hback g' hg' hp' x q)
        · exact fun _ => hct'
        · intro q
          exact absurd hP (q g (by simp))
        · intro v x q
          rcases c12 v x q with z | ⟨g', hg', z1, z2, z3⟩
          · refine (k10 v x z).imp id fun z => ⟨g, by simp, hP, (hA v).mpr z.1, (hA x).mpr z.2⟩
          · rw [hOnT, hgs1 g' hg'] at z2 z3
            exact Or.inr ⟨g', by simp [hg'], (hPop g' hg').mp z1, z2, z3⟩
        · intro v x q
          rcases c13 v x q with z | ⟨g', hg', z1, z2, z3⟩
          · refine (k11 v x z).imp id fun z => ⟨g, by simp, hP, (hA v).mpr z.1, (hA x).mpr z.2⟩
          · rw [hOnT, hgs1 g' hg'] at z2 z3
            exact Or.inr ⟨g', by simp [hg'], (hPop g' hg').mp z1, z2, z3⟩
        · intro i g1 g1' hi hi' hp
          rw [hst] at hi
          cases i with
          | zero =>
            simp only [List.getElem?_cons_zero, Option.some.injEq] at hi hi'
            subst hi hi'
            rw [hG']
            have hout : ∀ (x : Ref), OnTiers h1 (pre ++ post) x → ∀ g' ∈ gs, ¬ OnTiers h1 (h1.gtiers g') x := by
              intro x hx g' hg' q
              rw [hOnT] at hx q
              rw [hgs1 g' hg'] at q
              exact hdisj x ((hA x).mpr (hkeep x hx)) ⟨g', hg', q⟩
            refine ⟨k12.unmoved hTun ?_ (by rw [c4]; exact Nat.le_refl _) (by rw [c2.nE]; exact Nat.le_refl _), ?_, ?_, ?_, ?_⟩
            · intro v x hx
              rcases c13 v x hx with z | ⟨g', hg', -, z2, z3⟩
              · exact k12.closed v x z
              · exact ⟨fun y => absurd z2 (hout v y g' hg'), fun y => absurd z3 (hout x y g' hg')⟩
            · intro v x hs hx
              have hon : ∀ y, OnTiers h' (pre ++ post) y ↔ OnTiers h1 (pre ++ post) y := by
                intro y; unfold OnTiers; rw [c2.tseq]
              rw [hon] at hx ⊢
              rcases c12 v x hs with z | ⟨g', hg', -, z2, z3⟩
              · exact k13 v x z hx
              · exact absurd z3 (hout x hx g' hg')
            · intro i t t' q1 q2 v hv
              rw [c2.tseq] at hv
              rw [c18.ecls v (fun g' hg' _ => hout v ⟨t, List.mem_of_getElem? q1, hv⟩ g' hg'), c2.tcls]
              exact k14 i t t' q1 q2 v hv
            · intro t ht x hx hs
              have m := hTun.relation t (List.mem_of_getElem? ht) x (by rw [hseq]; exact hx)
              rw [m.2.2.2.2.1, m.2.2.1, m.2.2.2.2.2]
              exact k15 t ht x hx hs
            · intro t ht
              rw [c2.tcls, htc]
              rcases c18.tsup t with ⟨q1, q2⟩ | q
              · rcases k17 t with ⟨-, -, q⟩ | q
                · exact absurd ht q
                · rw [q1, q2, hct']; exact q
              · rw [htc] at q; exact q
          | succ i =>
            simp only [List.getElem?_cons_succ] at hi hi'
            have hg1 : g1 ∈ gs := (List.mem_filter.mp (List.mem_of_getElem? hi)).1
            obtain ⟨j1, j2, j3, j4, jf⟩ := c14 i g1 g1' (by rw [hst1]; exact hi) hi' ((hPop g1 hg1).mpr hp)
            refine ⟨j1, j2, j3, ?_, jf⟩
            have j5 := c7 i g1 g1' (by rw [hst1]; exact hi) hi'
            rw [if_pos ((hPop g1 hg1).mpr hp)] at j5
            obtain ⟨pre', pt', post', a1, -, -, a4, -⟩ := j5
            intro t ht x hx hs
            have htm : t ∈ h.gtiers g1 := by
              rw [← hgs1 g1 hg1, a1]
              have := List.mem_of_getElem? ht
              rw [a4] at this
              simp only [List.mem_append, List.mem_cons] at this ⊢
              rcases this with q | q <;> simp [q]
            obtain ⟨-, m2, m3, -, m5, m6⟩ := (hun g1 hg1).relation t htm x hx
            rw [← m5, ← m3, ← m6]
            exact j4 t ht x (by rw [hseq]; exact hx) (by rw [m2]; exact hs)
        · intro g' hg'
          rcases List.mem_cons.mp hg' with rfl | hg'
          · exact Or.inr (Nat.le_refl _)
          · rcases c15 g' hg' with q | q
            · exact Or.inl (by simp [q])
            · rw [k2] at q; exact Or.inr (Nat.le_of_succ_le q)
        · intro g' hg'
          rcases List.mem_cons.mp hg' with rfl | hg'
          · exact Nat.lt_of_lt_of_le (by rw [k2]; exact Nat.lt_succ_self _) c5
          · exact c16 g' hg'
        · refine List.nodup_cons.mpr ⟨?_, c17⟩
          intro q
          rcases c15 _ q with q | q
          · exact Nat.lt_irrefl _ (hold h.nG (by simp [q]))
          · rw [k2] at q; exact Nat.not_succ_le_self _ q
        · refine ⟨c18.intier.trans k16, ?_, ?_, ?_⟩
          rotate_left 2
          · intro g' q
            obtain ⟨q1, q2⟩ := c18.gpoint g' q
            have hn : g' ≠ h.nG := by
              rintro rfl
              rw [k19, upd_same] at q1
              cases q1
            rw [k19, upd_ne _ _ _ _ hn] at q1
            rw [k2] at q2
            exact ⟨q1, q2.imp (fun q => Nat.lt_of_le_of_ne (Nat.le_of_lt_succ q) hn) id⟩
          · intro t
            rcases c18.tsup t with ⟨q1, q2⟩ | q
            · rw [q1, q2, hct']; exact (k17 t).imp (fun q => ⟨q.1, q.2.1⟩) id
            · rw [htc] at q; exact Or.inr q
          · intro x hx
            rw [c18.ecls x (fun g' hg' q => by
              rw [hOnT, hgs1 g' hg']; exact hx g' (by simp [hg']) ((hPop g' hg').mp q))]
            exact k18 x fun q => hx g (by simp) hP ((hA x).mpr (hkeep x q))
    · -- the group has no tier of the class
      have hex : ¬ ∃ t ∈ h.gtiers g, h.ct.name (h.tcls t) = name := by
        rw [List.contains_iff_mem, List.mem_map] at hc
        exact hc
      have hnP : ¬ Popped h name g := fun q => hex q.1
      have hst : staying h name (g :: gs) = g :: staying h name gs := by
        unfold staying
        rw [List.filter_cons_of_pos]
        simp only [decide_eq_true_eq]
        intro q
        rw [q] at hc
        exact hc (by simp)
      obtain ⟨gs', h', e, c1, c2, c3, c4, c5, c6, c7, c8, c9, c10, c11, c12, c13, c14, c15, c16, c17, c18⟩ :=
        popGroups_ok name gs h (fun x => K x ∨ OnTiers h (h.gtiers g) x) b (List.nodup_cons.mp hnd).2
          (fun g' hg' => hold g' (by simp [hg'])) hsep'
          (td.mono (by
            intro x hx
            rw [hOn]
            rcases hx with (q | q) | q
            · exact Or.inl q
            · exact Or.inr (Or.inl q)
            · exact Or.inr (Or.inr q)))
          (by
            intro x hx q
            rcases hx with z | z
            · exact hK x z ((hOn x).mpr (Or.inr q))
            · exact hdisj x z q)
          (fun g' hg' => hspot g' (by simp [hg'])) hfar'
      have hgg := c6 g (hold g (by simp))
      refine ⟨g :: gs', h', ?_, by rw [hst, List.length_cons, List.length_cons, c1], c2, c3, c4, c5, c6, ?_, ?_, ?_, ?_, ?_,
        fun v x q => (c12 v x q).imp id (fun ⟨g', hg', z⟩ => ⟨g', by simp [hg'], z⟩),
        fun v x q => (c13 v x q).imp id (fun ⟨g', hg', z⟩ => ⟨g', by simp [hg'], z⟩), ?_, ?_, ?_, ?_⟩
      · rw [popGroups]
        mstep M.get_apply h
        rw [if_pos (by simp only [Bool.not_eq_true] at hc; simp only [hc, Bool.not_false])]
        mstep e
        rfl
      · intro i g1 g1' hi hi'
        rw [hst] at hi
        cases i with
        | zero =>
          simp only [List.getElem?_cons_zero, Option.some.injEq] at hi hi'
          subst hi hi'
          rw [if_neg hnP]
          refine ⟨rfl, hgg, c9 _ ?_⟩
          intro t ht x hx g' hg' hp
          exact (hfar g' (by simp [hg']) hp).2 _ (by simp) (hne g' hg') x ⟨t, ht, hx⟩
        | succ i =>
          simp only [List.getElem?_cons_succ] at hi hi'
          exact c7 i g1 g1' hi hi'
      · refine c8.mono ?_
        intro x hx
        rcases hx with q | ⟨g', hg', q⟩
        · exact Or.inl (Or.inl q)
        · rcases List.mem_cons.mp hg' with rfl | hg'
          · rw [hgg] at q
            obtain ⟨t, ht, hxt⟩ := q
            rw [c2.tseq] at hxt
            exact Or.inl (Or.inr ⟨t, ht, hxt⟩)
          · exact Or.inr ⟨g', hg', q⟩
      · intro us hus
        exact c9 us (fun t ht x hx g' hg' => hus t ht x hx g' (by simp [hg']))
      · rintro ⟨g', hg', q⟩
        rcases List.mem_cons.mp hg' with rfl | hg'
        · exact absurd q hnP
        · exact c10 ⟨g', hg', q⟩
      · intro q; exact c11 (fun g' hg' => q g' (by simp [hg']))
      · intro i g1 g1' hi hi' hp
        rw [hst] at hi
        cases i with
        | zero =>
          simp only [List.getElem?_cons_zero, Option.some.injEq] at hi
          exact absurd (hi ▸ hp) hnP
        | succ i =>
          simp only [List.getElem?_cons_succ] at hi hi'
          exact c14 i g1 g1' hi hi' hp
      · intro g' hg'
        rcases List.mem_cons.mp hg' with rfl | hg'
        · exact Or.inl (by simp)
        · exact (c15 g' hg').imp (fun q => by simp [q]) id
      · intro g' hg'
        rcases List.mem_cons.mp hg' with rfl | hg'
        · exact Nat.lt_of_lt_of_le (hold _ (by simp)) c5
        · exact c16 g' hg'
      · refine ⟨List.nodup_cons.mpr ⟨?_, c17⟩, c18.cons⟩
        intro q
        rcases c15 _ q with q | q
        · exact hgn q
        · exact absurd (hold g (by simp)) (Nat.not_lt_of_le q)

end ATG
