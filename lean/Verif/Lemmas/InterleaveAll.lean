import Verif.Lemmas.InterleaveGroup
import Verif.Lemmas.Adopt
/-!
# Interleaving a tier into all groups
-/
namespace ATG

theorem Unmoved.refl (h : Heap) (ts : List TRef) : Unmoved h h ts :=
  ⟨fun _ _ => rfl, fun _ _ => rfl, fun _ _ => rfl, fun _ _ _ _ => ⟨rfl, rfl, rfl, rfl⟩,
    fun _ _ _ _ => ⟨rfl, rfl, rfl, rfl, rfl, rfl⟩⟩

theorem Unmoved.trans {h h1 h2 : Heap} {ts : List TRef} (a : Unmoved h h1 ts) (b : Unmoved h1 h2 ts) :
    Unmoved h h2 ts := by
  refine ⟨fun t ht => (b.tseq t ht).trans (a.tseq t ht), fun t ht => (b.tcls t ht).trans (a.tcls t ht),
    fun t ht => (b.tname t ht).trans (a.tname t ht), ?_, ?_⟩
  · intro t ht x hx
    obtain ⟨a1, a2, a3, a4⟩ := a.value t ht x hx
    obtain ⟨b1, b2, b3, b4⟩ := b.value t ht x (by rw [a.tseq t ht]; exact hx)
    exact ⟨b1.trans a1, b2.trans a2, b3.trans a3, b4.trans a4⟩
  · intro t ht x hx
    obtain ⟨a1, a2, a3, a4, a5, a6⟩ := a.relation t ht x hx
    obtain ⟨b1, b2, b3, b4, b5, b6⟩ := b.relation t ht x (by rw [a.tseq t ht]; exact hx)
    exact ⟨b1.trans a1, b2.trans a2, b3.trans a3, b4.trans a4, b5.trans a5, b6.trans a6⟩

theorem RelatedByContainment.unmoved {h h' : Heap} {ts : List TRef} (r : RelatedByContainment h ts)
    (m : Unmoved h h' ts) : RelatedByContainment h' ts := by
  have hsub : ∀ (i : Nat) t t', ts[i]? = some t → ts[i + 1]? = some t' → ∀ u ∈ (h'.tseq t).vals,
      u ∈ (h.tseq t).vals ∧ (h'.subs u).vals = (h.subs u).vals ∧ ∀ x ∈ (h.subs u).vals, x ∈ (h.tseq t').vals := by
    intro i t t' e1 e2 u hu
    rw [m.tseq t (List.mem_of_getElem? e1)] at hu
    refine ⟨hu, (m.relation t (List.mem_of_getElem? e1) u hu).1, ?_⟩
    intro x hx
    rw [(r.subs i t t' e1 e2 u hu).1] at hx
    exact (List.mem_filter.mp hx).1
  refine ⟨?_, ?_, ?_, ?_, ?_, ?_⟩
  · intro i t t' e1 e2 u hu
    obtain ⟨q1, q2, -⟩ := hsub i t t' e1 e2 u hu
    have ht := List.mem_of_getElem? e1
    have ht' := List.mem_of_getElem? e2
    rw [q2, m.tseq t' ht', (r.subs i t t' e1 e2 u q1).1]
    refine ⟨?_, ?_⟩
    · apply List.filter_congr
      intro x hx
      obtain ⟨v1, v2, -⟩ := m.value t ht u q1
      obtain ⟨w1, w2, -⟩ := m.value t' ht' x hx
      have : Inside h' u x ↔ Inside h u x := by
        unfold Inside
        rw [v1, v2, w1, w2]
      simp only [this]
    · have := (r.subs i t t' e1 e2 u q1)
      rw [← this.1]; exact this.2
  · intro i t t' e1 e2 u hu
    obtain ⟨q1, q2, q3⟩ := hsub i t t' e1 e2 u hu
    rw [q2]
    have ht' := List.mem_of_getElem? e2
    exact (r.linked i t t' e1 e2 u q1).congr (fun x hx => (m.relation t' ht' x (q3 x hx)).2.2.2.2.1)
      (fun x hx => (m.relation t' ht' x (q3 x hx)).2.2.2.2.2)
  · intro i t t' e1 e2 u hu x hx
    obtain ⟨q1, q2, q3⟩ := hsub i t t' e1 e2 u hu
    rw [q2] at hx
    have ht' := List.mem_of_getElem? e2
    obtain ⟨-, w2, w3, -⟩ := m.relation t' ht' x (q3 x hx)
    rw [w2, w3]
    exact r.sup i t t' e1 e2 u q1 x hx
  · intro i t t' e1 e2 x hx
    rw [m.tseq t' (List.mem_of_getElem? e2)] at hx
    obtain ⟨u, hu, hxu⟩ := r.covered i t t' e1 e2 x hx
    have hu' : u ∈ (h'.tseq t).vals := by rw [m.tseq t (List.mem_of_getElem? e1)]; exact hu
    exact ⟨u, hu', by rw [(hsub i t t' e1 e2 u hu').2.1]; exact hxu⟩
  · intro t e x hx
    have ht := List.mem_of_getElem? e
    rw [m.tseq t ht] at hx
    rw [(m.relation t ht x hx).2.1]
    exact r.top t e x hx
  · intro i t t' e1 e2 u hu
    obtain ⟨q1, -⟩ := hsub i t t' e1 e2 u hu
    rw [(m.relation t (List.mem_of_getElem? e1) u q1).2.2.2.1]
    exact r.contains i t t' e1 e2 u q1

theorem CopyOf.unmoved {h0 h h' : Heap} {k t' : TRef} {c : CRef} {labels : Bool} {ts : List TRef}
    (a : CopyOf h0 k h t' c labels) (m : Unmoved h h' ts) (ht : t' ∈ ts) : CopyOf h0 k h' t' c labels := by
  refine ⟨?_, by rw [m.tcls t' ht]; exact a.tcls, ?_, ⟨a.new.1, ?_⟩⟩
  · rw [← a.values, m.tseq t' ht]
    apply List.map_congr_left
    intro x hx
    obtain ⟨v1, v2, v3, -⟩ := m.value t' ht x hx
    rw [v1, v2, v3]
  · intro x hx
    rw [m.tseq t' ht] at hx
    rw [(m.value t' ht x hx).2.2.2]
    exact a.cls x hx
  · rw [m.tseq t' ht]; exact a.new.2

/-- a copy of a tier that was the same before -/
theorem CopyOf.source {h0 h h' : Heap} {k t' : TRef} {c : CRef} {labels : Bool} {ts : List TRef}
    (a : CopyOf h k h' t' c labels) (m : Unmoved h0 h ts) (hk : k ∈ ts) (h1 : h0.nT ≤ h.nT) (h2 : h0.nE ≤ h.nE) :
    CopyOf h0 k h' t' c labels := by
  refine ⟨?_, a.tcls, a.cls, ⟨Nat.le_trans h1 a.new.1, fun x hx => Nat.le_trans h2 (a.new.2 x hx)⟩⟩
  rw [a.values, m.tseq k hk]
  apply List.map_congr_left
  intro x hx
  obtain ⟨v1, v2, v3, -⟩ := m.value k hk x hx
  rw [v1, v2, v3]

theorem FitGroup.unmoved {h h' : Heap} {ts : List TRef} (f : FitGroup h ts) (m : Unmoved h h' ts)
    (hcl : ∀ v x, x ∈ (h'.subs v).vals → ((∃ t ∈ ts, v ∈ (h.tseq t).vals) ↔ ∃ t ∈ ts, x ∈ (h.tseq t).vals))
    (hT : h.nT ≤ h'.nT) (hE : h.nE ≤ h'.nE) : FitGroup h' ts := by
  have hsp : ∀ t ∈ ts, (h'.tseq t).vals.map h'.span = (h.tseq t).vals.map h.span := by
    intro t ht
    rw [m.tseq t ht]
    apply List.map_congr_left
    intro x hx
    obtain ⟨v1, v2, -⟩ := m.value t ht x hx
    unfold Heap.span
    rw [v1, v2]
  have hex : ∀ x, (∃ t ∈ ts, x ∈ (h'.tseq t).vals) ↔ ∃ t ∈ ts, x ∈ (h.tseq t).vals := by
    intro x
    constructor
    · rintro ⟨t, ht, hx⟩; exact ⟨t, ht, by rw [← m.tseq t ht]; exact hx⟩
    · rintro ⟨t, ht, hx⟩; exact ⟨t, ht, by rw [m.tseq t ht]; exact hx⟩
  constructor
  · rw [List.map_congr_left (g := fun t => (h.tseq t).vals) (fun t ht => by rw [m.tseq t ht])]
    exact f.once
  · intro t ht x hx
    rw [m.tseq t ht] at hx
    rw [(m.value t ht x hx).2.2.2, m.tcls t ht]
    exact f.cls t ht x hx
  · intro t ht x hx
    rw [m.tseq t ht] at hx
    rw [(m.value t ht x hx).2.2.1]
    exact f.label t ht x hx
  · intro t ht
    rw [m.tseq t ht]
    refine List.Pairwise.imp_of_mem ?_ (f.disjoint t ht)
    intro a b ha hb hab
    rw [(m.value t ht a ha).2.1, (m.value t ht b hb).1]; exact hab
  · intro t ht x hx
    rw [m.tseq t ht] at hx
    rw [(m.value t ht x hx).1, (m.value t ht x hx).2.1]
    exact f.positive t ht x hx
  · intro i t t' e1 e2
    exact (f.aligned i t t' e1 e2).of_spans (hsp t (List.mem_of_getElem? e1)) (hsp t' (List.mem_of_getElem? e2))
  · intro v x hx
    rw [hex, hex]
    exact hcl v x hx
  · intro t ht
    refine ⟨Nat.lt_of_lt_of_le (f.old t ht).1 hT, ?_⟩
    intro x hx
    rw [m.tseq t ht] at hx
    exact Nat.lt_of_lt_of_le ((f.old t ht).2 x hx) hE

/-- tiers without an entry of the changed group are unmoved -/
theorem Interleaved.unmoved {L : Ref → Prop} {h h' : Heap} {g : GRef} {pre post : List TRef} {k : TRef} {new : CRef} {labels : Bool}
    (i : Interleaved L h g pre post k new labels h') (us : List TRef)
    (hold : ∀ t ∈ us, t < h.nT ∧ ∀ x ∈ (h.tseq t).vals, x < h.nE)
    (hap : ∀ t ∈ us, ∀ x ∈ (h.tseq t).vals, ¬ Beneath h (pre ++ post) x) : Unmoved h h' us := by
  refine ⟨fun t ht => (i.tiers t (hold t ht).1).1, fun t ht => (i.tiers t (hold t ht).1).2.1,
    fun t ht => (i.tiers t (hold t ht).1).2.2, fun t ht x hx => i.entries x ((hold t ht).2 x hx), ?_⟩
  intro t ht x hx
  exact i.apart x ((hold t ht).2 x hx) (hap t ht x hx)

/-- the classes of a group with the new one in its place -/
def spotClasses (h : Heap) (pre post : List TRef) (new : CRef) : List CRef :=
  pre.map h.tcls ++ new :: post.map h.tcls

theorem Interleaved.fitOther {L : Ref → Prop} {h h' : Heap} {g : GRef} {pre post : List TRef} {k : TRef} {new : CRef} {labels : Bool}
    (i : Interleaved L h g pre post k new labels h') (us : List TRef) (f : FitGroup h us)
    (hap : ∀ t ∈ us, ∀ x ∈ (h.tseq t).vals, ¬ Beneath h (pre ++ post) x)
    (hp : ∀ t ∈ pre ++ post, t < h.nT) : FitGroup h' us := by
  have hnot : ∀ y, (∃ t ∈ pre ++ h.nT :: post, y ∈ (h'.tseq t).vals) → ¬ ∃ t ∈ us, y ∈ (h.tseq t).vals := by
    rintro y ⟨t, ht, hy⟩ ⟨s, hs, hys⟩
    have : t = h.nT ∨ t ∈ pre ++ post := by
      simp only [List.mem_append, List.mem_cons] at ht ⊢
      rcases ht with q | q | q
      · exact Or.inr (Or.inl q)
      · exact Or.inl q
      · exact Or.inr (Or.inr q)
    rcases this with rfl | ht
    · have q1 := i.copy.new.2 y hy
      have q2 := (f.old s hs).2 y hys
      unfold Ref at *; omega
    · rw [(i.tiers t (hp t ht)).1] at hy
      exact hap s hs y hys (.on ⟨t, ht, hy⟩)
  refine f.unmoved (i.unmoved us f.old hap) ?_ (by rw [i.nT]; exact Nat.le_succ _) i.nE
  intro v x hx
  rcases i.outside v x hx with q | q
  · exact f.closed v x q
  · exact ⟨fun q' => absurd q' (hnot v q.1), fun q' => absurd q' (hnot x q.2)⟩

/-- The groups `gs'` of `h'` are those `gs` of `h` or new, and all have entries of their own. -/
structure OwnEntries (h h' : Heap) (gs gs' : List GRef) : Prop where
  nG : h.nG ≤ h'.nG
  nodup : gs'.Nodup
  lt : ∀ g' ∈ gs', g' < h'.nG ∧ (g' ∈ gs ∨ h.nG ≤ g')
  entries : ∀ g' ∈ gs', ∀ t ∈ h'.gtiers g', ∀ x ∈ (h'.tseq t).vals,
    h.nE ≤ x ∨ ∃ g ∈ gs, ∃ t ∈ h.gtiers g, x ∈ (h.tseq t).vals
  sep : Separate h' gs'
  outside : ∀ v x, x ∈ (h'.subs v).vals → x ∈ (h.subs v).vals ∨
    ∃ g' ∈ gs', (∃ t ∈ h'.gtiers g', v ∈ (h'.tseq t).vals) ∧ ∃ t ∈ h'.gtiers g', x ∈ (h'.tseq t).vals
  outsideUp : ∀ v x, h'.sup x = some v → h.sup x = some v ∨
    ∃ g' ∈ gs', OnTiers h' (h'.gtiers g') v ∧ OnTiers h' (h'.gtiers g') x

theorem Separate.cons {h : Heap} {g : GRef} {gs : List GRef} (s : Separate h gs)
    (c : ∀ g' ∈ gs, ∀ t ∈ h.gtiers g', ∀ x ∈ (h.tseq t).vals, ∀ t' ∈ h.gtiers g, x ∉ (h.tseq t').vals) :
    Separate h (g :: gs) := by
  intro g1 h1 g2 h2 hne t ht x hx t' ht' hx'
  rcases List.mem_cons.mp h1 with e1 | m1
  · rcases List.mem_cons.mp h2 with e2 | m2
    · exact hne (e1.trans e2.symm)
    · subst e1; exact c g2 m2 t' ht' x hx' t ht hx
  · rcases List.mem_cons.mp h2 with e2 | m2
    · subst e2; exact c g1 m1 t ht x hx t' ht' hx'
    · exact s g1 m1 g2 m2 hne t ht x hx t' ht' hx'

/-- what is known of the tiers `ts` of a group that has got a new one, those made since `h` -/
structure InterleaveHome (h h' : Heap) (ts : List TRef) : Prop where
  home : ∀ t ∈ ts, h.nT ≤ t → ∀ x ∈ (h'.tseq t).vals, h'.intier x = some t
  fresh : TiersFresh h' ts
  typed : Typed h' ts
  first : ∀ t, ts[0]? = some t → t < h.nT → ∀ x ∈ (h.tseq t).vals, h.sup x = none →
    h'.fol x = h.fol x ∧ h'.within x = h.within x ∧ h'.prev x = h.prev x
  chained : ∀ t, ts[0]? = some t → h.nT ≤ t → UnderTop h'.ct (h'.tcls t) → Strung h' ts
  backed : ∀ t, ts[0]? = some t → h.nT ≤ t → Backed h' ts

/-- what interleaving in the groups `gs` keeps of all entries and tiers there were -/
structure InterleaveElse (specified : CRef) (gs : List GRef) (h h' : Heap) : Prop where
  intier : ∀ x, x < h.nE → h'.intier x = h.intier x
  tsup : ∀ t, t < h.nT → h'.tsup t = h.tsup t ∧ h'.tsub t = h.tsub t ∨
    h'.tsup t = h.ct.sup (h.tcls t) ∧ h'.tsub t = h.ct.sub (h.tcls t)
  ecls : ∀ x, x < h.nE → (∀ g ∈ gs, (∃ t ∈ h.gtiers g, h.tcls t = specified) → ¬ OnTiers h (h.gtiers g) x) →
    (h'.subs x).ecls = (h.subs x).ecls
  gpoint : ∀ g, h'.gpoint g = true → h.gpoint g = true ∧ (g < h.nG ∨ h'.nG ≤ g)

theorem interleaveGroups_ok (specified new u d : CRef) (fromBelow labels : Bool) : ∀ (gs : List GRef) (h : Heap) (L : Ref → Prop),
    TidyOn L h → (∀ g ∈ gs, ∀ x, OnTiers h (h.gtiers g) x → L x) → Allocated h → AllocatedUp h →
    h.ct.isSub new cPoint = false → gs.Nodup →
    (∀ g ∈ gs, g < h.nG ∧ ∀ t ∈ h.gtiers g, t < h.nT ∧ ∀ x ∈ (h.tseq t).vals, x < h.nE) → Separate h gs →
    (∀ g ∈ gs, (∃ t ∈ h.gtiers g, h.tcls t = specified) → ∃ pre post k, Spot h g pre post k u d fromBelow ∧
      ClassLinks h.ct (spotClasses h pre post new)) →
    (∀ g ∈ gs, (∃ t ∈ h.gtiers g, h.tcls t = specified) → Far h gs g) →
    ∃ gs' h', interleaveGroups specified new (some d) (some (if fromBelow then d else u)) labels gs h = .ok gs' h' ∧
      gs'.length = gs.length ∧ h'.ct = h.ct ∧ h'.agroups = h.agroups ∧ h.nE ≤ h'.nE ∧ h.nT ≤ h'.nT ∧
      (∀ (i : Nat) g g', gs[i]? = some g → gs'[i]? = some g' →
        (if ∃ t ∈ h.gtiers g, h.tcls t = specified then SpotDone h h' g g' new u d fromBelow labels
         else g' = g ∧ h'.gtiers g = h.gtiers g ∧ Unmoved h h' (h.gtiers g))) ∧
      (∀ g, g < h.nG → g ∉ gs → h'.gtiers g = h.gtiers g) ∧
      TidyOn (fun x => L x ∨ h.nE ≤ x ∧ x < h'.nE) h' ∧ Allocated h' ∧
      (∀ x, x < h.nE → h'.start x = h.start x ∧ h'.stop x = h.stop x ∧ h'.label x = h.label x ∧ h'.cls x = h.cls x) ∧
      (∀ t, t < h.nT → h'.tseq t = h.tseq t ∧ h'.tcls t = h.tcls t ∧ h'.tname t = h.tname t) ∧
      (∀ us : List TRef, (∀ t ∈ us, t < h.nT ∧ ∀ x ∈ (h.tseq t).vals, x < h.nE) →
        (∀ t ∈ us, ∀ x ∈ (h.tseq t).vals, ∀ g ∈ gs, (∃ t ∈ h.gtiers g, h.tcls t = specified) →
          ¬ Beneath h (h.gtiers g) x) → Unmoved h h' us) ∧
      OwnEntries h h' gs gs' ∧ AllocatedUp h' ∧
      (∀ (i : Nat) g g', gs[i]? = some g → gs'[i]? = some g' → (∃ t ∈ h.gtiers g, h.tcls t = specified) →
        UpClosed h' (h'.gtiers g') ∧ InterleaveHome h h' (h'.gtiers g')) ∧
      InterleaveElse specified gs h h'
  | [], h, L, td, _, ac, au, _, _, _, _, _, _ =>
    ⟨[], h, rfl, rfl, rfl, rfl, Nat.le_refl _, Nat.le_refl _, by simp, fun _ _ _ => rfl,
      td.mono (fun x hx => hx.elim id fun q => absurd q.2 (Nat.not_lt_of_le q.1)), ac,
      fun _ _ => ⟨rfl, rfl, rfl, rfl⟩, fun _ _ => ⟨rfl, rfl, rfl⟩, fun us _ _ => Unmoved.refl h us,
      ⟨Nat.le_refl _, List.nodup_nil, by simp, by simp, fun _ q => (nomatch q), fun _ _ q => Or.inl q,
        fun _ _ q => Or.inl q⟩, au, by simp, ⟨fun _ _ => rfl, fun _ _ => Or.inl ⟨rfl, rfl⟩, fun _ _ _ => rfl,
          fun g q => ⟨q, Nat.lt_or_ge g h.nG⟩⟩⟩
  | g :: gs, h, L, td, hL, ac, au, hpt, hnd, hold, hsep, hspot, hfar => by
    have hfar' : ∀ g' ∈ gs, (∃ t ∈ h.gtiers g', h.tcls t = specified) → Far h gs g' := fun g' hg' hp =>
      ⟨(hfar g' (by simp [hg']) hp).1, fun g2 hg2 => (hfar g' (by simp [hg']) hp).2 g2 (by simp [hg2])⟩
    have hgn : g ∉ gs := (List.nodup_cons.mp hnd).1
    have hcont : ((h.gtiers g).map h.tcls).contains specified = true ↔ ∃ t ∈ h.gtiers g, h.tcls t = specified := by
      rw [List.contains_iff_mem, List.mem_map]
    by_cases hc : ∃ t ∈ h.gtiers g, h.tcls t = specified
    · obtain ⟨pre, post, k, sp, cl⟩ := hspot g (by simp) hc
      have hk : post.head? = some k ∨ pre.getLast? = some k := by
        have := sp.source
        cases fromBelow
        · exact Or.inr (by simpa using this)
        · exact Or.inl (by simpa using this)
      have hkc : h.tcls k = if fromBelow then d else u := by
        have := sp.source
        cases fromBelow
        · exact sp.above k (by simpa using this)
        · exact sp.below k (by simpa using this)
      obtain ⟨huc, hgfar⟩ := hfar g (by simp) hc
      rw [sp.eq] at huc
      obtain ⟨h1, e1, il⟩ := interleaveGroup_ok h g new d k labels pre post sp.eq sp.onlyBelow sp.below hk cl hpt
        sp.filled sp.fit td (by rw [← sp.eq]; exact hL g (by simp)) huc ac au
      have hT1 : h.nT ≤ h1.nT := by rw [il.nT]; exact Nat.le_succ _
      have hgt1 : ∀ g', g' < h.nG → g' ≠ g → h1.gtiers g' = h.gtiers g' := by
        intro g' hg' hne
        rw [il.gtiers, upd_ne _ _ _ _ (Nat.ne_of_lt hg'), upd_ne _ _ _ _ hne]
      have hne : ∀ g' ∈ gs, g' ≠ g := fun g' hg' e => hgn (e ▸ hg')
      have hgs1 : ∀ g' ∈ gs, h1.gtiers g' = h.gtiers g' := fun g' hg' =>
        hgt1 g' (hold g' (by simp [hg'])).1 (hne g' hg')
      have hoT : ∀ t ∈ pre ++ post, t < h.nT := fun t ht => (sp.fit.old t ht).1
      have hapg : ∀ g' ∈ gs, ∀ t ∈ h.gtiers g', ∀ x ∈ (h.tseq t).vals, ∀ t' ∈ pre ++ post, x ∉ (h.tseq t').vals := by
        intro g' hg' t ht x hx t' ht'
        exact hsep g' (by simp [hg']) g (by simp) (hne g' hg') t ht x hx t' (by rw [sp.eq]; exact ht')
      have hapb : ∀ g' ∈ gs, ∀ t ∈ h.gtiers g', ∀ x ∈ (h.tseq t).vals, ¬ Beneath h (pre ++ post) x := by
        intro g' hg' t ht x hx
        rw [← sp.eq]
        exact hgfar g' (by simp [hg']) (hne g' hg') x ⟨t, ht, hx⟩
      have hold' : ∀ g' ∈ gs, ∀ t ∈ h.gtiers g', t < h.nT ∧ ∀ x ∈ (h.tseq t).vals, x < h.nE := fun g' hg' =>
        (hold g' (by simp [hg'])).2
      have hun : ∀ g' ∈ gs, Unmoved h h1 (h.gtiers g') := fun g' hg' =>
        il.unmoved _ (hold' g' hg') (hapb g' hg')
      have hex1 : ∀ g' ∈ gs, (∃ t ∈ h1.gtiers g', h1.tcls t = specified) ↔ ∃ t ∈ h.gtiers g', h.tcls t = specified := by
        intro g' hg'
        rw [hgs1 g' hg']
        constructor
        · rintro ⟨t, ht, q⟩; exact ⟨t, ht, by rw [← (hun g' hg').tcls t ht]; exact q⟩
        · rintro ⟨t, ht, q⟩; exact ⟨t, ht, by rw [(hun g' hg').tcls t ht]; exact q⟩
      have hspot1 : ∀ g' ∈ gs, ∀ pre' post' k', Spot h g' pre' post' k' u d fromBelow →
          Spot h1 g' pre' post' k' u d fromBelow := by
        intro g' hg' pre' post' k' s
        have hm : ∀ t ∈ pre' ++ post', t ∈ h.gtiers g' := fun t ht => by rw [s.eq]; exact ht
        have hu := hun g' hg'
        have hk' : k' ∈ pre' ++ post' := by
          have := s.source
          cases fromBelow
          · simp only [Bool.false_eq_true, if_false] at this
            simp [List.mem_of_getLast? this]
          · simp only [if_true] at this
            simp [List.mem_of_head? this]
        refine ⟨⟨by rw [hgs1 g' hg']; exact s.eq, ?_, ?_, ?_, ?_, s.source⟩, ?_, ?_⟩
        · intro t ht
          rw [hu.tcls t (hm t (by simp [List.mem_of_getLast? ht]))]
          exact s.above t ht
        · intro t ht
          rw [hu.tcls t (hm t (by simp [List.mem_of_head? ht]))]
          exact s.below t ht
        · intro t ht
          rw [hu.tcls t (hm t (by simp [ht]))]
          exact s.onlyAbove t ht
        · intro t ht
          rw [hu.tcls t (hm t (by simp [ht]))]
          exact s.onlyBelow t ht
        · rw [hu.tseq k' (hm k' hk')]
          exact s.filled
        · exact il.fitOther _ s.fit (fun t ht => hapb g' hg' t (hm t ht)) hoT
      have hclass1 : ∀ g' ∈ gs, ∀ pre' post' k', Spot h g' pre' post' k' u d fromBelow →
          spotClasses h1 pre' post' new = spotClasses h pre' post' new := by
        intro g' hg' pre' post' k' s
        have hm : ∀ t ∈ pre' ++ post', t ∈ h.gtiers g' := fun t ht => by rw [s.eq]; exact ht
        unfold spotClasses
        congr 1
        · apply List.map_congr_left
          intro t ht; exact (hun g' hg').tcls t (hm t (by simp [ht]))
        · congr 1
          apply List.map_congr_left
          intro t ht; exact (hun g' hg').tcls t (hm t (by simp [ht]))
      have hOnT : ∀ g' ∈ gs, ∀ x, OnTiers h1 (h.gtiers g') x ↔ OnTiers h (h.gtiers g') x := by
        intro g' hg' x
        constructor
        · rintro ⟨t, ht, hx⟩; exact ⟨t, ht, by rw [← (hun g' hg').tseq t ht]; exact hx⟩
        · rintro ⟨t, ht, hx⟩; exact ⟨t, ht, by rw [(hun g' hg').tseq t ht]; exact hx⟩
      have hnew : ∀ x, OnTiers h1 (pre ++ h.nT :: post) x → h.nE ≤ x ∨ OnTiers h (h.gtiers g) x := by
        rintro x ⟨t, ht, hx⟩
        have : t = h.nT ∨ t ∈ pre ++ post := by
          simp only [List.mem_append, List.mem_cons] at ht ⊢
          rcases ht with q | q | q
          · exact Or.inr (Or.inl q)
          · exact Or.inl q
          · exact Or.inr (Or.inr q)
        rcases this with rfl | ht
        · exact Or.inl (il.copy.new.2 x hx)
        · rw [(il.tiers t (hoT t ht)).1] at hx
          exact Or.inr ⟨t, by rw [sp.eq]; exact ht, hx⟩
      have hnb : ∀ g' ∈ gs, (∃ t ∈ h.gtiers g', h.tcls t = specified) → ∀ x, OnTiers h1 (pre ++ h.nT :: post) x →
          ¬ Beneath h (h.gtiers g') x := by
        intro g' hg' hp x hx q
        rcases hnew x hx with z | z
        · have := q.lt au (fun y ⟨t, ht, hy⟩ => (hold' g' hg' t ht).2 y hy)
          unfold Ref at *; omega
        · exact (hfar g' (by simp [hg']) hp).2 g (by simp) (hne g' hg').symm x z q
      have hback : ∀ g' ∈ gs, (∃ t ∈ h.gtiers g', h.tcls t = specified) → ∀ x, Beneath h1 (h.gtiers g') x →
          Beneath h (h.gtiers g') x := fun g' hg' hp x q =>
        q.back (fun t ht => (hun g' hg').tseq t ht) il.outsideUp (hnb g' hg' hp)
      have hfar1 : ∀ g' ∈ gs, (∃ t ∈ h1.gtiers g', h1.tcls t = specified) → Far h1 gs g' := by
        intro g' hg' hp
        have hp' := (hex1 g' hg').mp hp
        obtain ⟨f1, f2⟩ := hfar' g' hg' hp'
        rw [Far, hgs1 g' hg']
        refine ⟨?_, ?_⟩
        · intro v x hs hx
          rw [hOnT g' hg'] at hx ⊢
          rcases il.outsideUp v x hs with r | ⟨r1, r2⟩
          · exact f1 v x r hx
          · exact absurd (.on hx) (hnb g' hg' hp' x r2)
        · intro g2 hg2 hne2 x hx q
          rw [hgs1 g2 hg2, hOnT g2 hg2] at hx
          exact f2 g2 hg2 hne2 x hx (hback g' hg' hp' x q)
      obtain ⟨gs', h', e2, c1, c2, c3, c4, c5, c6, c7, c8, c9, c10, c11, c12, wv, c13, c14, c15⟩ :=
        interleaveGroups_ok specified new u d fromBelow labels gs h1 _ il.tidy
          (by
            intro g' hg' x hx
            rw [hgs1 g' hg', hOnT g' hg'] at hx
            exact Or.inl (hL g' (by simp [hg']) x hx))
          il.allocated il.allocatedUp
          (by rw [il.ct]; exact hpt) (List.nodup_cons.mp hnd).2
          (by
            intro g' hg'
            rw [hgs1 g' hg', il.nG]
            refine ⟨Nat.lt_succ_of_lt (hold g' (by simp [hg'])).1, ?_⟩
            intro t ht
            have q := hold' g' hg' t ht
            rw [(hun g' hg').tseq t ht]
            exact ⟨Nat.lt_of_lt_of_le q.1 hT1, fun x hx => Nat.lt_of_lt_of_le (q.2 x hx) il.nE⟩)
          (by
            intro g1 hg1 g2 hg2 hne' t ht x hx t' ht'
            rw [hgs1 g1 hg1] at ht
            rw [hgs1 g2 hg2] at ht'
            rw [(hun g1 hg1).tseq t ht] at hx
            rw [(hun g2 hg2).tseq t' ht']
            exact hsep g1 (by simp [hg1]) g2 (by simp [hg2]) hne' t ht x hx t' ht')
          (by
            intro g' hg' hcg
            obtain ⟨pre', post', k', s, cl'⟩ := hspot g' (by simp [hg']) ((hex1 g' hg').mp hcg)
            exact ⟨pre', post', k', hspot1 g' hg' _ _ _ s, by rw [il.ct, hclass1 g' hg' _ _ _ s]; exact cl'⟩)
          hfar1
      have hTold : ∀ t ∈ pre ++ h.nT :: post, t < h1.nT ∧ ∀ x ∈ (h1.tseq t).vals, x < h1.nE := il.fit.old
      have hTap : ∀ t ∈ pre ++ h.nT :: post, ∀ x ∈ (h1.tseq t).vals, ∀ g' ∈ gs, ∀ t' ∈ h1.gtiers g',
          x ∉ (h1.tseq t').vals := by
        intro t ht x hx g' hg' t' ht' hx'
        rw [hgs1 g' hg'] at ht'
        rw [(hun g' hg').tseq t' ht'] at hx'
        have hx'' := (hold' g' hg' t' ht').2 x hx'
        have : t = h.nT ∨ t ∈ pre ++ post := by
          simp only [List.mem_append, List.mem_cons] at ht ⊢
          rcases ht with q | q | q
          · exact Or.inr (Or.inl q)
          · exact Or.inl q
          · exact Or.inr (Or.inr q)
        rcases this with rfl | ht
        · have q1 := il.copy.new.2 x hx
          unfold Ref at *; omega
        · rw [(il.tiers t (hoT t ht)).1] at hx
          exact hapg g' hg' t' ht' x hx' t ht hx
      have hTun := c12 _ hTold (by
        intro t ht x hx g' hg' hp q
        rw [hgs1 g' hg'] at q
        have hp' := (hex1 g' hg').mp hp
        exact hnb g' hg' hp' x ⟨t, ht, hx⟩ (hback g' hg' hp' x q))
      have hg0 : h'.gtiers h.nG = pre ++ h.nT :: post := by
        rw [c7 h.nG (by rw [il.nG]; exact Nat.lt_succ_self _), il.gtiers, upd_same]
        intro q
        exact Nat.lt_irrefl _ (hold h.nG (by simp [q])).1
      have cross : ∀ g' ∈ gs', ∀ t ∈ h'.gtiers g', ∀ x ∈ (h'.tseq t).vals, ∀ t' ∈ pre ++ h.nT :: post,
          x ∉ (h1.tseq t').vals := by
        intro g' hg' t ht x hx t' ht' hx'
        rcases wv.entries g' hg' t ht x hx with q | ⟨g1, hg1, t1, ht1, q⟩
        · have := (hTold t' ht').2 x hx'
          unfold Ref at *; omega
        · exact hTap t' ht' x hx' g1 hg1 t1 ht1 q
      have hfit : FitGroup h' (pre ++ h.nT :: post) := by
        refine il.fit.unmoved hTun ?_ c5 c4
        intro v x hx
        rcases wv.outside v x hx with q | ⟨g', hg', ⟨t1, ht1, q1⟩, ⟨t2, ht2, q2⟩⟩
        · exact il.fit.closed v x q
        · constructor
          · rintro ⟨t, ht, q⟩; exact absurd q (cross g' hg' t1 ht1 v q1 t ht)
          · rintro ⟨t, ht, q⟩; exact absurd q (cross g' hg' t2 ht2 x q2 t ht)
      have hwov : OwnEntries h h' (g :: gs) (h.nG :: gs') := by
        refine ⟨Nat.le_trans (by rw [il.nG]; exact Nat.le_succ _) wv.nG, List.nodup_cons.mpr ⟨?_, wv.nodup⟩, ?_, ?_,
          wv.sep.cons ?_, ?_, ?_⟩
        · intro q
          rcases (wv.lt _ q).2 with q | q
          · exact Nat.lt_irrefl _ (hold h.nG (by simp [q])).1
          · rw [il.nG] at q; exact Nat.not_succ_le_self _ q
        · intro g' hg'
          rcases List.mem_cons.mp hg' with rfl | hg'
          · exact ⟨Nat.lt_of_lt_of_le (by rw [il.nG]; exact Nat.lt_succ_self _) wv.nG, Or.inr (Nat.le_refl _)⟩
          · refine ⟨(wv.lt g' hg').1, ?_⟩
            rcases (wv.lt g' hg').2 with q | q
            · exact Or.inl (by simp [q])
            · rw [il.nG] at q; exact Or.inr (Nat.le_of_succ_le q)
        · intro g' hg' t ht x hx
          rcases List.mem_cons.mp hg' with rfl | hg'
          · rw [hg0] at ht
            rw [hTun.tseq t ht] at hx
            have : t = h.nT ∨ t ∈ pre ++ post := by
              simp only [List.mem_append, List.mem_cons] at ht ⊢
              rcases ht with q | q | q
              · exact Or.inr (Or.inl q)
              · exact Or.inl q
              · exact Or.inr (Or.inr q)
            rcases this with rfl | ht
            · exact Or.inl (il.copy.new.2 x hx)
            · rw [(il.tiers t (hoT t ht)).1] at hx
              exact Or.inr ⟨g, by simp, t, by rw [sp.eq]; exact ht, hx⟩
          · rcases wv.entries g' hg' t ht x hx with q | ⟨g1, hg1, t1, ht1, q⟩
            · exact Or.inl (Nat.le_trans il.nE q)
            · rw [hgs1 g1 hg1] at ht1
              rw [(hun g1 hg1).tseq t1 ht1] at q
              exact Or.inr ⟨g1, by simp [hg1], t1, ht1, q⟩
        · intro g' hg' t ht x hx t' ht'
          rw [hg0] at ht'
          rw [hTun.tseq t' ht']
          exact cross g' hg' t ht x hx t' ht'
        · intro v x hx
          rcases wv.outside v x hx with q | ⟨g', hg', q⟩
          · rcases il.outside v x q with q | ⟨⟨t1, ht1, q1⟩, ⟨t2, ht2, q2⟩⟩
            · exact Or.inl q
            · refine Or.inr ⟨h.nG, by simp, ⟨t1, by rw [hg0]; exact ht1, by rw [hTun.tseq t1 ht1]; exact q1⟩,
                ⟨t2, by rw [hg0]; exact ht2, by rw [hTun.tseq t2 ht2]; exact q2⟩⟩
          · exact Or.inr ⟨g', by simp [hg'], q⟩
        · intro v x hx
          rcases wv.outsideUp v x hx with q | ⟨g', hg', q⟩
          · rcases il.outsideUp v x q with q | ⟨⟨t1, ht1, q1⟩, ⟨t2, ht2, q2⟩⟩
            · exact Or.inl q
            · refine Or.inr ⟨h.nG, by simp, ⟨t1, by rw [hg0]; exact ht1, by rw [hTun.tseq t1 ht1]; exact q1⟩,
                ⟨t2, by rw [hg0]; exact ht2, by rw [hTun.tseq t2 ht2]; exact q2⟩⟩
          · exact Or.inr ⟨g', by simp [hg'], q⟩
      have hrun : interleaveGroups specified new (some d) (some (if fromBelow then d else u)) labels (g :: gs) h =
          .ok (h.nG :: gs') h' := by
        unfold interleaveGroups
        mstep M.get_apply h
        rw [if_pos (hcont.mpr hc)]
        rw [← hkc]
        mstep e1
        rw [hkc]
        mstep e2
        rfl
      refine ⟨h.nG :: gs', h', hrun, by simp [c1], by rw [c2, il.ct], by rw [c3, il.agroups],
        Nat.le_trans il.nE c4, Nat.le_trans hT1 c5, ?_, ?_, ?_, c9, ?_, ?_, ?_, hwov, c13, ?_, ?_⟩
      · intro i g1 g1' hi hi'
        cases i with
        | zero =>
          simp only [List.getElem?_cons_zero, Option.some.injEq] at hi hi'
          subst hi hi'
          rw [if_pos hc]
          exact ⟨pre, post, k, h.nT, sp.toPlace, hg0, il.copy.unmoved hTun (by simp), il.related.unmoved hTun, hfit⟩
        | succ i =>
          simp only [List.getElem?_cons_succ] at hi hi'
          have hg1 := List.mem_of_getElem? hi
          have := c6 i g1 g1' hi hi'
          by_cases hc1 : ∃ t ∈ h.gtiers g1, h.tcls t = specified
          · rw [if_pos ((hex1 g1 hg1).mpr hc1)] at this
            rw [if_pos hc1]
            obtain ⟨pre', post', k', t', s', q1, q2, q3, q4⟩ := this
            have heq : h.gtiers g1 = pre' ++ post' := by rw [← hgs1 g1 hg1]; exact s'.eq
            have hm : ∀ t ∈ pre' ++ post', t ∈ h.gtiers g1 := fun t ht => by rw [heq]; exact ht
            have hu := hun g1 hg1
            have hk' : k' ∈ pre' ++ post' := by
              have := s'.source
              cases fromBelow
              · simp only [Bool.false_eq_true, if_false] at this
                simp [List.mem_of_getLast? this]
              · simp only [if_true] at this
                simp [List.mem_of_head? this]
            refine ⟨pre', post', k', t', ⟨heq, ?_, ?_, ?_, ?_, s'.source⟩, q1, q2.source hu (hm k' hk') hT1 il.nE, q3, q4⟩
            · intro t ht
              rw [← hu.tcls t (hm t (by simp [List.mem_of_getLast? ht]))]
              exact s'.above t ht
            · intro t ht
              rw [← hu.tcls t (hm t (by simp [List.mem_of_head? ht]))]
              exact s'.below t ht
            · intro t ht
              rw [← hu.tcls t (hm t (by simp [ht]))]
              exact s'.onlyAbove t ht
            · intro t ht
              rw [← hu.tcls t (hm t (by simp [ht]))]
              exact s'.onlyBelow t ht
          · rw [if_neg (fun q => hc1 ((hex1 g1 hg1).mp q))] at this
            rw [if_neg hc1]
            rw [hgs1 g1 hg1] at this
            exact ⟨this.1, this.2.1, (hun g1 hg1).trans this.2.2⟩
      · intro g' hg' hn
        rw [c7 g' (by rw [il.nG]; exact Nat.lt_succ_of_lt hg') (fun q => hn (by simp [q])),
          hgt1 g' hg' (fun q => hn (by simp [q]))]
      · refine c8.mono ?_
        intro x hx
        rcases hx with q | q
        · exact Or.inl (Or.inl q)
        · by_cases z : x < h1.nE
          · exact Or.inl (Or.inr ⟨q.1, z⟩)
          · exact Or.inr ⟨Nat.le_of_not_lt z, q.2⟩
      · intro x hx
        obtain ⟨a1, a2, a3, a4⟩ := il.entries x hx
        obtain ⟨b1, b2, b3, b4⟩ := c10 x (Nat.lt_of_lt_of_le hx il.nE)
        exact ⟨b1.trans a1, b2.trans a2, b3.trans a3, b4.trans a4⟩
      · intro t ht
        obtain ⟨a1, a2, a3⟩ := il.tiers t ht
        obtain ⟨b1, b2, b3⟩ := c11 t (Nat.lt_of_lt_of_le ht hT1)
        exact ⟨b1.trans a1, b2.trans a2, b3.trans a3⟩
      · intro us hu1 hu2
        have m1 : Unmoved h h1 us := il.unmoved us hu1 (fun t ht x hx => by
          rw [← sp.eq]; exact hu2 t ht x hx g (by simp) hc)
        refine m1.trans (c12 us ?_ ?_)
        · intro t ht
          rw [m1.tseq t ht]
          exact ⟨Nat.lt_of_lt_of_le (hu1 t ht).1 hT1, fun x hx => Nat.lt_of_lt_of_le ((hu1 t ht).2 x hx) il.nE⟩
        · intro t ht x hx g' hg' hp q
          rw [hgs1 g' hg'] at q
          rw [m1.tseq t ht] at hx
          have hp' := (hex1 g' hg').mp hp
          exact hu2 t ht x hx g' (by simp [hg']) hp' (hback g' hg' hp' x q)
      · intro i g1 g1' hi hi' hp
        cases i with
        | zero =>
          simp only [List.getElem?_cons_zero, Option.some.injEq] at hi hi'
          subst hi hi'
          rw [hg0]
          have hout : ∀ t ∈ pre ++ h.nT :: post, ∀ x ∈ (h1.tseq t).vals, ∀ g' ∈ gs,
              (∃ t ∈ h1.gtiers g', h1.tcls t = specified) → ¬ OnTiers h1 (h1.gtiers g') x := by
            rintro t ht x hx g' hg' - ⟨t', ht', hx'⟩
            exact hTap t ht x hx g' hg' t' ht' hx'
          have hpn0 : ∀ t, (pre ++ h.nT :: post)[0]? = some t → h.nT ≤ t → pre = [] := by
            intro t ht hn
            cases hq : pre with
            | nil => rfl
            | cons p ps =>
              rw [hq] at ht
              simp only [List.cons_append, List.getElem?_cons_zero, Option.some.injEq] at ht
              have := hoT p (by rw [hq]; simp)
              rw [ht] at this
              exact absurd this (Nat.not_lt_of_le hn)
          refine ⟨?_, ?_, ?_, ?_, ?_, ?_, ?_⟩
          rotate_left
          · intro t ht hn x hx
            rw [hTun.tseq t ht] at hx
            rw [c15.intier x ((hTold t ht).2 x hx)]
            have : t = h.nT := by
              have := (hTold t ht).1
              rw [il.nT] at this
              exact Nat.le_antisymm (Nat.le_of_lt_succ this) hn
            subst this
            exact il.home x hx
          · intro t ht
            rw [c2, hTun.tcls t ht]
            rcases c15.tsup t (hTold t ht).1 with ⟨q1, q2⟩ | q
            · rw [q1, q2, il.ct]; exact il.tsup t ht
            · exact q
          · intro i t t' q1 q2 v hv
            have htm := List.mem_of_getElem? q1
            rw [hTun.tseq t htm] at hv
            rw [c15.ecls v ((hTold t htm).2 v hv) (hout t htm v hv), hTun.tcls t' (List.mem_of_getElem? q2)]
            exact il.typed i t t' q1 q2 v hv
          · intro t ht hn x hx hs
            have htm := List.mem_of_getElem? ht
            have htp : pre.head? = some t := by
              cases hq : pre with
              | nil =>
                rw [hq] at ht
                simp only [List.nil_append, List.getElem?_cons_zero, Option.some.injEq] at ht
                exact absurd hn (by rw [ht]; exact Nat.lt_irrefl _)
              | cons p ps =>
                rw [hq] at ht
                exact ht
            have m := hTun.relation t htm x (by rw [(il.tiers t hn).1]; exact hx)
            rw [m.2.2.2.2.1, m.2.2.1, m.2.2.2.2.2]
            exact il.first t htp x hx hs
          · intro t ht hn htop
            have hpn := hpn0 t ht hn
            intro t1 ht1 j v hv
            have htm := List.mem_of_getElem? ht1
            rw [hTun.tseq t1 htm] at hv ⊢
            have m := hTun.relation t1 htm v (List.mem_of_getElem? hv)
            rw [m.2.2.2.2.1, m.2.2.1]
            refine il.chained hpn ?_ t1 ht1 j v hv
            have : t = h.nT := by
              rw [hpn] at ht
              simpa using ht.symm
            rw [c2, hTun.tcls t (List.mem_of_getElem? ht), this, il.copy.tcls, il.ct] at htop
            exact htop
          · intro t ht hn t1 ht1 j v hv
            have htm := List.mem_of_getElem? ht1
            rw [hTun.tseq t1 htm] at hv ⊢
            have m := hTun.relation t1 htm v (List.mem_of_getElem? hv)
            rw [m.2.2.2.2.2]
            exact il.backed (hpn0 t ht hn) t1 ht1 j v hv
          intro v x hs hx
          have hon : ∀ y, OnTiers h' (pre ++ h.nT :: post) y ↔ OnTiers h1 (pre ++ h.nT :: post) y := by
            intro y
            constructor
            · rintro ⟨t, ht, hx⟩; exact ⟨t, ht, by rw [← hTun.tseq t ht]; exact hx⟩
            · rintro ⟨t, ht, hx⟩; exact ⟨t, ht, by rw [hTun.tseq t ht]; exact hx⟩
          rw [hon] at hx ⊢
          rcases wv.outsideUp v x hs with q | ⟨g', hg', -, ⟨t, ht, q⟩⟩
          · exact il.up v x q hx
          · obtain ⟨t', ht', hx'⟩ := hx
            exact absurd hx' (cross g' hg' t ht x q t' ht')
        | succ i =>
          simp only [List.getElem?_cons_succ] at hi hi'
          have hg1 := List.mem_of_getElem? hi
          obtain ⟨j1, j2⟩ := c14 i g1 g1' hi hi' ((hex1 g1 hg1).mpr hp)
          have j3 := c6 i g1 g1' hi hi'
          rw [if_pos ((hex1 g1 hg1).mpr hp)] at j3
          obtain ⟨pre', post', k', t', s', q1, q2, -⟩ := j3
          have hdi : ∀ t ∈ h'.gtiers g1', t ∈ h.gtiers g1 ∨ h1.nT ≤ t := by
            intro t ht
            rw [← hgs1 g1 hg1, s'.eq]
            rw [q1] at ht
            simp only [List.mem_append, List.mem_cons] at ht ⊢
            rcases ht with q | q | q
            · exact Or.inl (Or.inl q)
            · rw [q]; exact Or.inr q2.new.1
            · exact Or.inl (Or.inr q)
          have hdn : ∀ t ∈ h'.gtiers g1', h.nT ≤ t → h1.nT ≤ t := fun t ht hn =>
            (hdi t ht).resolve_left fun q => absurd (hold' g1 hg1 t q).1 (Nat.not_lt_of_le hn)
          refine ⟨j1, fun t ht hn => j2.home t ht (hdn t ht hn), j2.fresh, j2.typed, ?_,
            fun t ht hn => j2.chained t ht (hdn t (List.mem_of_getElem? ht) hn),
            fun t ht hn => j2.backed t ht (hdn t (List.mem_of_getElem? ht) hn)⟩
          intro t ht hn x hx hs
          have htm : t ∈ h.gtiers g1 := (hdi t (List.mem_of_getElem? ht)).resolve_right fun q =>
            absurd (Nat.le_trans hT1 q) (Nat.not_le_of_lt hn)
          obtain ⟨-, m2, m3, -, m5, m6⟩ := (hun g1 hg1).relation t htm x hx
          rw [← m5, ← m3, ← m6]
          exact j2.first t ht (Nat.lt_of_lt_of_le hn hT1) x (by rw [(hun g1 hg1).tseq t htm]; exact hx) (by rw [m2]; exact hs)
      · refine ⟨?_, ?_, ?_, ?_⟩
        rotate_left 3
        · intro g' q
          obtain ⟨q1, q2⟩ := c15.gpoint g' q
          have hn : g' ≠ h.nG := by
            rintro rfl
            rw [il.gpoint, upd_same] at q1
            cases q1
          rw [il.gpoint, upd_ne _ _ _ _ hn] at q1
          rw [il.nG] at q2
          exact ⟨q1, q2.imp (fun q => Nat.lt_of_le_of_ne (Nat.le_of_lt_succ q) hn) id⟩
        · intro x hx
          rw [c15.intier x (Nat.lt_of_lt_of_le hx il.nE), il.intier x hx]
        · intro t ht
          obtain ⟨-, a2, -⟩ := il.tiers t ht
          rcases c15.tsup t (Nat.lt_of_lt_of_le ht hT1) with ⟨q1, q2⟩ | q
          · rw [q1, q2]
            by_cases hm : t ∈ pre ++ post
            · right
              rw [← a2]
              exact il.tsup t (by
                simp only [List.mem_append, List.mem_cons] at hm ⊢
                rcases hm with z | z <;> simp [z])
            · exact Or.inl (il.links t ht hm)
          · right; rw [il.ct, a2] at q; exact q
        · intro x hx hn
          rw [c15.ecls x (Nat.lt_of_lt_of_le hx il.nE) (by
            intro g' hg' hp
            rw [hgs1 g' hg', hOnT g' hg']
            exact hn g' (by simp [hg']) ((hex1 g' hg').mp hp))]
          exact il.ecls x hx (by rw [← sp.eq]; exact hn g (by simp) hc)
    · obtain ⟨gs', h', e2, c1, c2, c3, c4, c5, c6, c7, c8, c9, c10, c11, c12, wv, c13, c14, c15⟩ :=
        interleaveGroups_ok specified new u d fromBelow labels gs h L td (fun g' hg' => hL g' (by simp [hg'])) ac au hpt
          (List.nodup_cons.mp hnd).2
          (fun g' hg' => hold g' (by simp [hg']))
          (fun g1 hg1 g2 hg2 => hsep g1 (by simp [hg1]) g2 (by simp [hg2]))
          (fun g' hg' => hspot g' (by simp [hg'])) hfar'
      have hrun : interleaveGroups specified new (some d) (some (if fromBelow then d else u)) labels (g :: gs) h =
          .ok (g :: gs') h' := by
        unfold interleaveGroups
        mstep M.get_apply h
        rw [if_neg (fun q => hc (hcont.mp q))]
        mstep (show (pure g : M GRef) h = .ok g h from rfl)
        mstep e2
        rfl
      have hun : Unmoved h h' (h.gtiers g) := by
        refine c12 _ (hold _ (by simp)).2 ?_
        intro t ht x hx g' hg' hp
        exact (hfar g' (by simp [hg']) hp).2 g (by simp) (fun q => hgn (by rw [q]; exact hg')) x ⟨t, ht, hx⟩
      have hg0 : h'.gtiers g = h.gtiers g := c7 _ (hold _ (by simp)).1 hgn
      have hwov : OwnEntries h h' (g :: gs) (g :: gs') := by
        refine ⟨wv.nG, List.nodup_cons.mpr ⟨?_, wv.nodup⟩, ?_, ?_, wv.sep.cons ?_, ?_, ?_⟩
        · intro q
          rcases (wv.lt _ q).2 with q | q
          · exact hgn q
          · exact absurd (hold g (by simp)).1 (Nat.not_lt_of_le q)
        · intro g' hg'
          rcases List.mem_cons.mp hg' with rfl | hg'
          · exact ⟨Nat.lt_of_lt_of_le (hold _ (by simp)).1 wv.nG, Or.inl (by simp)⟩
          · refine ⟨(wv.lt g' hg').1, ?_⟩
            rcases (wv.lt g' hg').2 with q | q
            · exact Or.inl (by simp [q])
            · exact Or.inr q
        · intro g' hg' t ht x hx
          rcases List.mem_cons.mp hg' with rfl | hg'
          · rw [hg0] at ht
            rw [hun.tseq t ht] at hx
            exact Or.inr ⟨g', by simp, t, ht, hx⟩
          · rcases wv.entries g' hg' t ht x hx with q | ⟨g1, hg1, t1, ht1, q⟩
            · exact Or.inl q
            · exact Or.inr ⟨g1, by simp [hg1], t1, ht1, q⟩
        · intro g' hg' t ht x hx t' ht' hx'
          rw [hg0] at ht'
          rw [hun.tseq t' ht'] at hx'
          rcases wv.entries g' hg' t ht x hx with q | ⟨g1, hg1, t1, ht1, q⟩
          · have := ((hold g (by simp)).2 t' ht').2 x hx'
            unfold Ref at *; omega
          · exact hsep _ (by simp) g1 (by simp [hg1]) (fun q => hgn (by rw [q]; exact hg1)) t' ht' x hx' t1 ht1 q
        · intro v x hx
          rcases wv.outside v x hx with q | ⟨g', hg', q⟩
          · exact Or.inl q
          · exact Or.inr ⟨g', by simp [hg'], q⟩
        · intro v x hx
          rcases wv.outsideUp v x hx with q | ⟨g', hg', q⟩
          · exact Or.inl q
          · exact Or.inr ⟨g', by simp [hg'], q⟩
      refine ⟨g :: gs', h', hrun, by simp [c1], c2, c3, c4, c5, ?_, ?_, c8, c9, c10, c11, ?_, hwov, c13, ?_,
        ⟨c15.intier, c15.tsup, fun x hx hn => c15.ecls x hx fun g' hg' => hn g' (by simp [hg']), c15.gpoint⟩⟩
      · intro i g1 g1' hi hi'
        cases i with
        | zero =>
          simp only [List.getElem?_cons_zero, Option.some.injEq] at hi hi'
          subst hi hi'
          rw [if_neg hc]
          exact ⟨rfl, hg0, hun⟩
        | succ i =>
          simp only [List.getElem?_cons_succ] at hi hi'
          exact c6 i g1 g1' hi hi'
      · intro g' hg' hn
        exact c7 g' hg' (fun q => hn (by simp [q]))
      · intro us hu1 hu2
        exact c12 us hu1 (fun t ht x hx g' hg' => hu2 t ht x hx g' (by simp [hg']))
      · intro i g1 g1' hi hi' hp
        cases i with
        | zero =>
          simp only [List.getElem?_cons_zero, Option.some.injEq] at hi
          exact absurd (hi ▸ hp) hc
        | succ i =>
          simp only [List.getElem?_cons_succ] at hi hi'
          exact c14 i g1 g1' hi hi' hp

end ATG
