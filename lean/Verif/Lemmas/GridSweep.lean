import Verif.Spec.Grid
import Verif.Lemmas.GroupMake
import Verif.Lemmas.InterleaveAll
/-!
# Cleaning up group after group
-/
namespace ATG

/-- what differs at most after the cleanup of groups -/
structure GridFrame (h h' : Heap) : Prop where
  nE : h.nE ≤ h'.nE
  frame : h' = { h with nE := h'.nE, cls := h'.cls, start := h'.start, stop := h'.stop, label := h'.label,
                        fol := h'.fol, prev := h'.prev, subs := h'.subs, sup := h'.sup, intier := h'.intier,
                        within := h'.within, cont := h'.cont, tseq := h'.tseq, gcont := h'.gcont,
                        twithin := h'.twithin }
  value : ∀ x, x < h.nE → h'.start x = h.start x ∧ h'.stop x = h.stop x ∧ h'.label x = h.label x ∧ h'.cls x = h.cls x
  intier : ∀ x, x < h.nE → h'.intier x = h.intier x

theorem GridFrame.refl (h : Heap) : GridFrame h h := ⟨Nat.le_refl _, rfl, fun _ _ => ⟨rfl, rfl, rfl, rfl⟩, fun _ _ => rfl⟩

theorem GridFrame.trans {h h1 h2 : Heap} (a : GridFrame h h1) (b : GridFrame h1 h2) : GridFrame h h2 := by
  refine ⟨Nat.le_trans a.nE b.nE, ?_, ?_, fun x hx => (b.intier x (Nat.lt_of_lt_of_le hx a.nE)).trans (a.intier x hx)⟩
  · rw [b.frame, a.frame]
  · intro x hx
    obtain ⟨a1, a2, a3, a4⟩ := a.value x hx
    obtain ⟨b1, b2, b3, b4⟩ := b.value x (Nat.lt_of_lt_of_le hx a.nE)
    exact ⟨b1.trans a1, b2.trans a2, b3.trans a3, b4.trans a4⟩

theorem Unmoved.spans {h h' : Heap} {ts : List TRef} (m : Unmoved h h' ts) {t : TRef} (ht : t ∈ ts) :
    (h'.tseq t).vals.map h'.span = (h.tseq t).vals.map h.span := by
  rw [m.tseq t ht]
  apply List.map_congr_left
  intro x hx
  obtain ⟨v1, v2, -⟩ := m.value t ht x hx
  unfold Heap.span
  rw [v1, v2]

theorem AlignedTiers.unmoved {h h' : Heap} {ts : List TRef} (a : AlignedTiers h ts) (m : Unmoved h h' ts)
    (hct : h'.ct = h.ct) (htc : h'.tcls = h.tcls) : AlignedTiers h' ts := by
  refine ⟨?_, ?_, ?_, ?_, ?_⟩
  · rw [show (ts.map fun t => (h'.tseq t).vals) = ts.map fun t => (h.tseq t).vals from
      List.map_congr_left fun t ht => by rw [m.tseq t ht]]
    exact a.once
  · intro t ht x hx
    rw [m.tseq t ht] at hx
    rw [(m.value t ht x hx).2.2.2, htc]
    exact a.cls t ht x hx
  · intro t ht x hx
    rw [m.tseq t ht] at hx
    rw [(m.value t ht x hx).2.2.1]
    exact a.label t ht x hx
  · rw [hct, htc]; exact a.chain
  · intro i t t' e1 e2
    exact (a.aligned i t t' e1 e2).of_spans (m.spans (List.mem_of_getElem? e1)) (m.spans (List.mem_of_getElem? e2))

theorem GapGroup.unmoved {h h' : Heap} {g : GRef} {ts : List TRef} (a : GapGroup h g ts) (f : GridFrame h h')
    (m : Unmoved h h' ts) (hg : h'.gcont g = h.gcont g) (hw : ∀ t ∈ ts, h'.twithin t = h.twithin t) : GapGroup h' g ts := by
  have hct : h'.ct = h.ct := by rw [f.frame]
  have htc : h'.tcls = h.tcls := by rw [f.frame]
  have hlow : ToBottom h' ts ↔ ToBottom h ts := ToBottom.congr hct fun t _ => by rw [f.frame]
  refine { toTierStack := ⟨?_, ?_, ?_, a.ne, ?_, ?_, a.aligned.unmoved m hct htc, ?_, ?_, ?_⟩, related := a.related.unmoved m }
  · rw [f.frame]; exact a.gtiers
  · rw [hlow, hg]; exact a.gcont
  · rw [f.frame]; exact a.gpoint
  · exact a.chain.congr (by rw [f.frame]) (by rw [f.frame]) (by rw [f.frame]) (by rw [f.frame])
  · rw [hct, htc]; exact a.top
  · intro t ht
    have q := a.tiers t ht
    refine ⟨?_, ?_, ?_, ?_⟩
    · intro x hx
      rw [m.tseq t ht] at hx
      exact Nat.lt_of_lt_of_le (q.old x hx) f.nE
    · rw [m.tseq t ht, htc]; exact q.ecls
    · rw [m.spans ht]; exact q.laid
    · rw [m.spans ht]
      intro hg x hx
      rw [m.tseq t ht] at hx
      rw [(m.value t ht x hx).1]
      exact q.pos hg x hx
  · intro q t ht
    rw [hw t ht]; exact a.twithin (hlow.mp q) t ht
  · intro q t ht
    rw [hw t ht]; exact a.loose (fun q' => q (hlow.mpr q')) t ht

theorem GapGroup.moved {h h' : Heap} {g : GRef} {ts us : List TRef} (a : GapGroup h g ts) (s : SameContents h h')
    (m : GroupMade h h' us) (hg : g ≠ h.nG) (u : Unmoved h h' ts) (hw : ∀ t ∈ ts, h'.twithin t = h.twithin t) :
    GapGroup h' g ts := by
  have hlow : ToBottom h' ts ↔ ToBottom h ts := ToBottom.congr s.ct fun t _ => by rw [m.frame]
  refine { toTierStack := ⟨?_, ?_, ?_, a.ne, ?_, ?_, a.aligned.unmoved u s.ct s.tcls, ?_, ?_, ?_⟩, related := a.related.unmoved u }
  · rw [m.frame]; exact (upd_ne _ _ _ _ hg).trans a.gtiers
  · rw [hlow, m.gcont g hg]; exact a.gcont
  · rw [m.frame]; exact (upd_ne _ _ _ _ hg).trans a.gpoint
  · exact a.chain.congr (by rw [m.frame]) (by rw [m.frame]) (by rw [m.frame]) (by rw [m.frame])
  · rw [s.ct, s.tcls]; exact a.top
  · exact fun t ht => (a.tiers t ht).congr s
  · exact fun q t ht => (hw t ht).trans (a.twithin (hlow.mp q) t ht)
  · exact fun q t ht => (hw t ht).trans (a.loose (fun q' => q (hlow.mpr q')) t ht)

theorem flatMap_congr_left {α β} {f k : α → List β} : ∀ {l : List α}, (∀ a ∈ l, f a = k a) → l.flatMap f = l.flatMap k
  | [], _ => rfl
  | a :: l, e => by
    rw [List.flatMap_cons, List.flatMap_cons, e a (by simp), flatMap_congr_left fun b hb => e b (by simp [hb])]

theorem FilledTier.after {h h1 h2 : Heap} {ts : List TRef} {t : TRef} {new : List Ref} (q : FilledTier h h1 t new)
    (f : GridFrame h1 h2) (m : Unmoved h1 h2 ts) (ht : t ∈ ts) : FilledTier h h2 t new := by
  have hv : ∀ x ∈ new, x < h1.nE := fun x hx => (q.fresh x hx).2.1
  refine ⟨?_, ?_, ?_, ?_, ?_, ?_⟩
  · intro x hx
    obtain ⟨q1, q2, q3, q4⟩ := q.fresh x hx
    obtain ⟨-, -, v3, v4⟩ := f.value x q2
    exact ⟨q1, Nat.lt_of_lt_of_le q2 f.nE, v3.trans q3, v4.trans q4⟩
  · rw [← q.spans]
    apply List.map_congr_left
    intro x hx
    obtain ⟨v1, v2, -⟩ := f.value x (hv x hx)
    unfold Heap.span
    rw [v1, v2]
  · rw [m.tseq t ht]; exact q.kept
  · rw [m.tseq t ht]; exact q.perm
  · rw [m.spans ht]; exact q.touching
  · rw [m.spans ht]; exact q.laid

theorem FilledTier.before {h h1 h2 : Heap} {ts : List TRef} {t : TRef} {new : List Ref} (q : FilledTier h1 h2 t new)
    (f : GridFrame h h1) (m : Unmoved h h1 ts) (ht : t ∈ ts) : FilledTier h h2 t new := by
  refine ⟨?_, ?_, ?_, ?_, q.touching, q.laid⟩
  · intro x hx
    obtain ⟨q1, q2, q3, q4⟩ := q.fresh x hx
    exact ⟨Nat.le_trans f.nE q1, q2, q3, by rw [q4, m.tcls t ht]⟩
  · rw [q.spans, m.spans ht]
  · rw [← m.tseq t ht]; exact q.kept
  · rw [← m.tseq t ht]; exact q.perm

theorem HasGap.unmoved {h h' : Heap} {g : GRef} (f : GridFrame h h') (m : Unmoved h h' (h.gtiers g)) :
    HasGap h' g ↔ HasGap h g := by
  have hg : h'.gtiers g = h.gtiers g := by rw [f.frame]
  unfold HasGap
  rw [hg]
  exact ⟨fun ⟨t, ht, p, hp, hr⟩ => ⟨t, ht, p, by rw [← m.spans ht]; exact hp, hr⟩,
    fun ⟨t, ht, p, hp, hr⟩ => ⟨t, ht, p, by rw [m.spans ht]; exact hp, hr⟩⟩

theorem GroupFilled.after {h h1 h2 : Heap} {g : GRef} (q : GroupFilled h h1 g) (f : GridFrame h1 h2)
    (m : Unmoved h1 h2 (h.gtiers g)) : GroupFilled h h2 g := by
  refine ⟨fun hn t ht => (m.tseq t ht).trans (q.1 hn t ht), fun hg => ?_⟩
  obtain ⟨new, hn⟩ := q.2 hg
  exact ⟨new, fun t ht => (hn t ht).after f m ht⟩

theorem GroupFilled.before {h h1 h2 : Heap} {g : GRef} (q : GroupFilled h1 h2 g) (f : GridFrame h h1)
    (m : Unmoved h h1 (h.gtiers g)) : GroupFilled h h2 g := by
  have hg : h1.gtiers g = h.gtiers g := by rw [f.frame]
  unfold GroupFilled at q
  rw [HasGap.unmoved f m, hg] at q
  refine ⟨fun hn t ht => (q.1 hn t ht).trans (m.tseq t ht), fun hh => ?_⟩
  obtain ⟨new, hn⟩ := q.2 hh
  exact ⟨new, fun t ht => (hn t ht).before f m ht⟩

theorem flatMap_disjoint {α β} {f : α → List β} : ∀ {l : List α} {a b : α}, (l.flatMap f).Nodup → a ∈ l → b ∈ l →
    a ≠ b → ∀ {x : β}, x ∈ f a → x ∉ f b
  | c :: l, a, b, hn, ha, hb, hne, x, hx => by
    rw [List.flatMap_cons, List.nodup_append] at hn
    intro hx'
    rcases List.mem_cons.mp ha with rfl | ha'
    · rcases List.mem_cons.mp hb with rfl | hb'
      · exact hne rfl
      · exact hn.2.2 x hx x (List.mem_flatMap.mpr ⟨b, hb', hx'⟩) rfl
    · rcases List.mem_cons.mp hb with rfl | hb'
      · exact hn.2.2 x hx' x (List.mem_flatMap.mpr ⟨a, ha', hx⟩) rfl
      · exact flatMap_disjoint hn.2.1 ha' hb' hne hx hx'

/-- the tiers `us` exist and are none of the tiers of the groups `gs`; nor are their entries -/
def Beside (h : Heap) (gs : List GRef) (us : List TRef) : Prop :=
  (∀ t ∈ us, ∀ g ∈ gs, t ∉ h.gtiers g) ∧ ∀ x, OnTiers h us x → x < h.nE ∧ ∀ g ∈ gs, ¬ OnTiers h (h.gtiers g) x

theorem GapGrid.stacked {h : Heap} {gs : List GRef} (a : GapGrid h gs) {g : GRef} (hg : g ∈ gs) :
    Stacked (fun _ => True) (fun x => OnTiers h (h.gtiers g) x ∨ h.nE ≤ x) h g (h.gtiers g) := by
  have gg := a.groups g hg
  refine ⟨gg.toTierStack, a.tidy.on _, a.alloc, fun _ _ => trivial, fun x hx => Or.inl (mem_entriesOf.mp hx), ?_,
    gg.related.inner⟩
  intro v x e
  obtain ⟨l1, l2⟩ := a.alloc v x ((a.tidy.agree v x).mpr e)
  have := a.closed g hg v x e
  constructor
  · rintro (q | q)
    · exact Or.inl (this.mp q)
    · exact absurd l1 (Nat.not_lt.mpr q)
  · rintro (q | q)
    · exact Or.inl (this.mpr q)
    · exact absurd l2 (Nat.not_lt.mpr q)

theorem GapGrid.idle {h : Heap} {gs : List GRef} (a : GapGrid h gs) {g : GRef} (hg : g ∈ gs) (hr : Rooted h (h.gtiers g))
    (hno : ¬ HasGap h g) : groupCleanup g h = .ok () h :=
  groupCleanup_idle (a.stacked hg).stack.gtiers (a.stacked hg).stack.ne (a.groups g hg).related hr fun t ht p hp q => hno ⟨t, ht, p, hp, q⟩

theorem GapGrid.step {h : Heap} {gs : List GRef} (a : GapGrid h gs) {g : GRef} (hg : g ∈ gs) :
    ∃ h', groupCleanup g h = .ok () h' ∧ GapGrid h' gs ∧ GridFrame h h' ∧ GroupFilled h h' g ∧
      (∀ k ∈ gs, k ≠ g → Unmoved h h' (h.gtiers k)) ∧ ∀ us, Beside h gs us → Unmoved h h' us ∧ Beside h' gs us := by
  let A : Ref → Prop := fun x => OnTiers h (h.gtiers g) x ∨ h.nE ≤ x
  have gg := a.groups g hg
  have hsupalloc : ∀ v x, h.sup x = some v → v < h.nE ∧ x < h.nE :=
    fun v x e => a.alloc v x ((a.tidy.agree v x).mpr e)
  have hold : ∀ k ∈ gs, ∀ x, OnTiers h (h.gtiers k) x → x < h.nE :=
    fun k hk x ⟨t, ht, hx⟩ => ((a.groups k hk).tiers t ht).old x hx
  have st : Stacked (fun _ => True) A h g (h.gtiers g) := by
    refine ⟨gg.toTierStack, a.tidy.on _, a.alloc, fun _ _ => trivial, fun x hx => Or.inl (mem_entriesOf.mp hx), ?_,
      gg.related.inner⟩
    intro v x e
    obtain ⟨l1, l2⟩ := hsupalloc v x e
    have := a.closed g hg v x e
    constructor
    · rintro (q | q)
      · exact Or.inl (this.mp q)
      · exact absurd l1 (Nat.not_lt.mpr q)
    · rintro (q | q)
      · exact Or.inl (this.mpr q)
      · exact absurd l2 (Nat.not_lt.mpr q)
  obtain ⟨h', e, k', r', w, hmade, c1, c2⟩ := groupCleanup_run st gg.related (fun x hx => Or.inr hx)
  have f : GridFrame h h' := ⟨w.nE, w.frame, fun x hx => by
    obtain ⟨v1, v2, v3, v4, -⟩ := w.value x hx
    exact ⟨v1, v2, v3, v4⟩, fun x hx => (w.value x hx).2.2.2.2⟩
  have hgt : h'.gtiers = h.gtiers := by rw [f.frame]
  have td' : Tidy h' := k'.tidy.tidy fun x => Or.inl trivial
  have hdt : ∀ k ∈ gs, k ≠ g → ∀ t ∈ h.gtiers k, t ∉ h.gtiers g := by
    intro k hk hne t ht ht'
    exact flatMap_disjoint a.tiers hk hg hne ht ht'
  have hap : ∀ k ∈ gs, k ≠ g → ∀ x, OnTiers h (h.gtiers k) x → ¬ A x := by
    rintro k hk hne x ⟨t, ht, hx⟩ (⟨t', ht', hx'⟩ | q)
    · exact a.separate k hk g hg hne t ht x hx t' ht' hx'
    · exact absurd (hold k hk x ⟨t, ht, hx⟩) (Nat.not_lt.mpr q)
  have hum : ∀ k ∈ gs, k ≠ g → Unmoved h h' (h.gtiers k) := by
    intro k hk hne
    refine ⟨fun t ht => w.other t (hdt k hk hne t ht), fun t _ => by rw [f.frame], fun t _ => by rw [f.frame], ?_, ?_⟩
    · exact fun t ht x hx => f.value x (hold k hk x ⟨t, ht, hx⟩)
    · exact fun t ht x hx => w.apart x (hold k hk x ⟨t, ht, hx⟩) (hap k hk hne x ⟨t, ht, hx⟩)
  have hfill : GroupFilled h h' g := by
    refine ⟨fun hn t ht => by rw [(c1 fun t ht p hp hr => hn ⟨t, ht, p, hp, hr⟩).tseq], c2⟩
  have hkept : ∀ x, OnTiers h (h.gtiers g) x → OnTiers h' (h.gtiers g) x := by
    rintro x ⟨t, ht, hx⟩
    by_cases hh : HasGap h g
    · obtain ⟨new, hn⟩ := hfill.2 hh
      exact ⟨t, ht, (hn t ht).kept.subset hx⟩
    · exact ⟨t, ht, by rw [hfill.1 hh t ht]; exact hx⟩
  have hnew : ∀ x, OnTiers h' (h.gtiers g) x → A x := fun x hx => k'.inA x (mem_entriesOf.mpr hx)
  have honG : ∀ x, x < h'.nE → (OnTiers h' (h.gtiers g) x ↔ A x) := by
    intro x hx
    refine ⟨hnew x, ?_⟩
    rintro (q | q)
    · exact hkept x q
    · exact hmade x ⟨q, hx⟩
  have honK : ∀ k ∈ gs, k ≠ g → ∀ x, OnTiers h' (h.gtiers k) x ↔ OnTiers h (h.gtiers k) x := by
    intro k hk hne x
    constructor
    · rintro ⟨t, ht, hx⟩
      rw [(hum k hk hne).tseq t ht] at hx
      exact ⟨t, ht, hx⟩
    · rintro ⟨t, ht, hx⟩
      exact ⟨t, ht, by rw [(hum k hk hne).tseq t ht]; exact hx⟩
  have hbes : ∀ us, Beside h gs us → Unmoved h h' us ∧ Beside h' gs us := by
    intro us hb
    have hu : Unmoved h h' us := by
      refine ⟨fun t ht => w.other t (hb.1 t ht g hg), fun t _ => by rw [f.frame], fun t _ => by rw [f.frame], ?_, ?_⟩
      · exact fun t ht x hx => f.value x (hb.2 x ⟨t, ht, hx⟩).1
      · intro t ht x hx
        obtain ⟨b1, b2⟩ := hb.2 x ⟨t, ht, hx⟩
        refine w.apart x b1 ?_
        rintro (q | q)
        · exact b2 g hg q
        · exact absurd b1 (Nat.not_lt.mpr q)
    refine ⟨hu, by rw [hgt]; exact hb.1, ?_⟩
    rintro x ⟨t, ht, hx⟩
    rw [hu.tseq t ht] at hx
    obtain ⟨b1, b2⟩ := hb.2 x ⟨t, ht, hx⟩
    refine ⟨Nat.lt_of_lt_of_le b1 f.nE, ?_⟩
    intro k hk q
    rw [hgt] at q
    by_cases hkg : k = g
    · subst hkg
      rcases hnew x q with q | q
      · exact b2 k hk q
      · exact absurd b1 (Nat.not_lt.mpr q)
    · exact b2 k hk ((honK k hk hkg x).mp q)
  refine ⟨h', e, ⟨a.nodup, by rw [hgt]; exact a.tiers, ?_, ?_, ?_, ?_, td', k'.alloc⟩, f, hfill, hum, hbes⟩
  · intro k hk k2 hk2 hne t ht x hx t' ht' hx'
    rw [hgt] at ht ht'
    by_cases hkg : k = g
    · subst hkg
      have h2 := (honK k2 hk2 (Ne.symm hne) x).mp ⟨t', ht', hx'⟩
      exact hap k2 hk2 (Ne.symm hne) x h2 (hnew x ⟨t, ht, hx⟩)
    · have h1 := (honK k hk hkg x).mp ⟨t, ht, hx⟩
      by_cases hkg2 : k2 = g
      · subst hkg2
        exact hap k hk hkg x h1 (hnew x ⟨t', ht', hx'⟩)
      · obtain ⟨u, hu, hxu⟩ := h1
        obtain ⟨u', hu', hxu'⟩ := (honK k2 hk2 hkg2 x).mp ⟨t', ht', hx'⟩
        exact a.separate k hk k2 hk2 hne u hu x hxu u' hu' hxu'
  · intro k hk
    rw [hgt]
    by_cases hkg : k = g
    · subst hkg
      exact { toTierStack := k'.stack, related := r' }
    · refine (a.groups k hk).unmoved f (hum k hk hkg) ?_ ?_
      · rcases w.gcont k with q | q
        · exact q
        · exact absurd q.1 hkg
      · intro t ht
        rcases w.twithin t with q | q
        · exact q
        · exact absurd q.1 (hdt k hk hkg t ht)
  · rw [hgt, f.frame]; exact a.interval
  · intro k hk v x hs
    rw [hgt]
    obtain ⟨l1, l2⟩ := k'.alloc v x ((td'.agree v x).mpr hs)
    have hc := k'.closed v x hs
    by_cases hkg : k = g
    · subst hkg
      rw [honG v l1, honG x l2]
      exact hc
    · rw [honK k hk hkg, honK k hk hkg]
      by_cases hA : A x
      · have hAv := hc.mpr hA
        exact ⟨fun q => absurd hAv (hap k hk hkg v q), fun q => absurd hA (hap k hk hkg x q)⟩
      · have hxn : x < h.nE := Nat.lt_of_not_le fun q => hA (Or.inr q)
        rw [(w.apart x hxn hA).2.1] at hs
        exact a.closed k hk v x hs

theorem GapGrid.sweep : ∀ (l : List GRef) {h : Heap} {gs : List GRef}, GapGrid h gs → l.Nodup → (∀ g ∈ l, g ∈ gs) →
    ∃ h', M.forL l (fun g => do
        let h ← M.get
        if h.gpoint g then pure () else groupCleanup g) h = .ok () h' ∧ GapGrid h' gs ∧ GridFrame h h' ∧
      (∀ g ∈ l, GroupFilled h h' g) ∧ (∀ k ∈ gs, k ∉ l → Unmoved h h' (h.gtiers k)) ∧
      ∀ us, Beside h gs us → Unmoved h h' us
  | [], h, gs, a, _, _ => ⟨h, rfl, a, .refl h, by simp, fun _ _ _ => Unmoved.refl h _, fun _ _ => Unmoved.refl h _⟩
  | g :: l, h, gs, a, hnd, hl => by
    have hgn := (List.nodup_cons.mp hnd).1
    obtain ⟨h1, e1, a1, f1, q1, u1, b1⟩ := a.step (hl g (by simp))
    obtain ⟨h2, e2, a2, f2, q2, u2, b2⟩ := GapGrid.sweep l a1 (List.nodup_cons.mp hnd).2 fun k hk => hl k (by simp [hk])
    have hgt : h1.gtiers = h.gtiers := by rw [f1.frame]
    rw [hgt] at u2
    have er : (do
        let h ← M.get
        if h.gpoint g then pure () else groupCleanup g : M Unit) h = .ok () h1 := by
      mstep M.get_apply h
      rw [if_neg (by rw [(a.groups g (hl g (by simp))).gpoint]; simp)]
      exact e1
    refine ⟨h2, ?_, a2, f1.trans f2, ?_, ?_, fun us hb => (b1 us hb).1.trans (b2 us (b1 us hb).2)⟩
    · rw [M.forL_cons, er]
      exact e2
    · intro k hk
      rcases List.mem_cons.mp hk with rfl | hk
      · exact q1.after f2 (u2 k (hl k (by simp)) hgn)
      · exact (q2 k hk).before f1 (u1 k (hl k (by simp [hk])) fun e => hgn (e ▸ hk))
    · intro k hk hkn
      exact (u1 k hk fun e => hkn (by simp [e])).trans (u2 k hk fun e => hkn (by simp [e]))

/-- a further group beside the old ones -/
theorem GapGrid.add {h : Heap} {gs : List GRef} (a : GapGrid h gs) (hgs : ∀ g ∈ gs, g < h.nG) (ts : List TRef)
    (ch : ClassChain h ts) (hne : ts ≠ [])
    (top : ∀ t, ts[0]? = some t → ∃ c, h.ct.sup (h.tcls t) = some c ∧ h.ct.isSub c cTop = true)
    (low : ¬ ToBottom h ts → ∀ t ∈ ts, h.twithin t = none)
    (al : AlignedTiers h ts) (hf : ∀ t ∈ ts, Fillable h t) (hiv : ∀ t ∈ ts, h.ct.isSub (h.tcls t) cPoint = false)
    (cl : SupClosed h ts) (hnt : ∀ t ∈ ts, ∀ g ∈ gs, t ∉ h.gtiers g)
    (hne' : ∀ x, OnTiers h ts x → ∀ g ∈ gs, ¬ OnTiers h (h.gtiers g) x) :
    ∃ h', newGroup ts h = .ok h.nG h' ∧ GapGrid h' (gs ++ [h.nG]) ∧ h'.nG = h.nG + 1 ∧ SameContents h h' ∧
      GroupMade h h' ts ∧ (∀ us, (∀ x, OnTiers h ts x → ¬ OnTiers h us x) → Unmoved h h' us) ∧
      ∀ us, SupClosed h us → (∀ x, OnTiers h ts x → ¬ OnTiers h us x) → SupClosed h' us := by
  have own : ∀ v x, OnTiers h ts v → x ∈ (h.subs v).vals → OnTiers h ts x :=
    fun v x hv hx => (cl v x ((a.tidy.agree v x).mp hx)).mp hv
  obtain ⟨h', e, gg, -, ac', s, m⟩ := newGroup_gap h ts ts ch (List.Perm.refl _) hne top low al hf (a.tidy.on _) a.alloc own
  obtain ⟨h2, e2, -, -, -, -, htd, ap, -, -, -, -, -, hsup, -⟩ := newGroup_among ts h ch hne al (a.tidy.on fun _ => True)
    (A := OnTiers h ts) (fun _ _ => trivial) (fun x hx => mem_entriesOf.mp hx) cl
  have hh : h2 = h' := by
    rw [e] at e2
    injection e2 with _ q
    exact q.symm
  subst hh
  have td' : Tidy h2 := (htd fun v hv x hx _ => mem_entriesOf.mpr (own v x (mem_entriesOf.mp hv) hx)).tidy fun _ => trivial
  have hgt : h2.gtiers = upd h.gtiers h.nG ts := by rw [m.frame]
  have hold : ∀ g ∈ gs, g ≠ h.nG := fun g hg e => Nat.lt_irrefl _ (e ▸ hgs g hg)
  have hgo : ∀ g ∈ gs, h2.gtiers g = h.gtiers g := fun g hg => by rw [hgt]; exact upd_ne _ _ _ _ (hold g hg)
  have hgn : h2.gtiers h.nG = ts := by rw [hgt]; exact upd_same _ _ _
  have hon : ∀ us x, OnTiers h2 us x ↔ OnTiers h us x := by intro us x; unfold OnTiers; rw [s.tseq]
  have humA : ∀ us, (∀ x, OnTiers h ts x → ¬ OnTiers h us x) → Unmoved h h2 us := by
    intro us hus
    refine ap.unmoved (ct := h.ct) s _ ?_
    intro t ht x hx hx'
    exact hus x hx' ⟨t, ht, hx⟩
  have hum : ∀ g ∈ gs, Unmoved h h2 (h.gtiers g) := fun g hg => humA _ fun x hx => hne' x hx g hg
  refine ⟨h2, e, ⟨?_, ?_, ?_, ?_, ?_, ?_, td', ac'⟩, by rw [m.frame], s, m, humA, ?_⟩
  · refine List.nodup_append.mpr ⟨a.nodup, by simp, ?_⟩
    intro g hg k hk e
    have : k = h.nG := by simpa using hk
    exact hold g hg (e.trans this)
  · rw [List.flatMap_append, List.flatMap_singleton, hgn, List.nodup_append]
    have : gs.flatMap h2.gtiers = gs.flatMap h.gtiers := by
      apply flatMap_congr_left
      exact hgo
    rw [this]
    refine ⟨a.tiers, ch.nodup, ?_⟩
    intro t ht u hu e
    obtain ⟨g, hg, htg⟩ := List.mem_flatMap.mp ht
    exact hnt u hu g hg (e ▸ htg)
  · intro k hk k2 hk2 hkk t ht x hx t' ht' hx'
    rw [s.tseq] at hx hx'
    rcases List.mem_append.mp hk with hk | hk <;> rcases List.mem_append.mp hk2 with hk2 | hk2
    · rw [hgo k hk] at ht
      rw [hgo k2 hk2] at ht'
      exact a.separate k hk k2 hk2 hkk t ht x hx t' ht' hx'
    · have : k2 = h.nG := by simpa using hk2
      subst this
      rw [hgo k hk] at ht
      rw [hgn] at ht'
      exact hne' x ⟨t', ht', hx'⟩ k hk ⟨t, ht, hx⟩
    · have : k = h.nG := by simpa using hk
      subst this
      rw [hgo k2 hk2] at ht'
      rw [hgn] at ht
      exact hne' x ⟨t, ht, hx⟩ k2 hk2 ⟨t', ht', hx'⟩
    · have e1 : k = h.nG := by simpa using hk
      have e2 : k2 = h.nG := by simpa using hk2
      exact hkk (e1.trans e2.symm)
  · intro k hk
    rcases List.mem_append.mp hk with hk | hk
    · rw [hgo k hk]
      refine (a.groups k hk).moved s m (hold k hk) (hum k hk) ?_
      intro t ht
      exact m.twithin t fun q => hnt t q k hk ht
    · have : k = h.nG := by simpa using hk
      subst this
      rw [hgn]; exact gg
  · intro k hk t ht
    rw [s.ct, s.tcls]
    rcases List.mem_append.mp hk with hk | hk
    · rw [hgo k hk] at ht
      exact a.interval k hk t ht
    · have : k = h.nG := by simpa using hk
      subst this
      rw [hgn] at ht
      exact hiv t ht
  · intro k hk v x hs
    rw [hon, hon]
    rcases List.mem_append.mp hk with hk | hk
    · rw [hgo k hk]
      rcases hsup v x hs with q | q
      · exact a.closed k hk v x q.1
      · exact ⟨fun w => absurd w (hne' v (mem_entriesOf.mp q.1) k hk), fun w => absurd w (hne' x (mem_entriesOf.mp q.2) k hk)⟩
    · have : k = h.nG := by simpa using hk
      subst this
      rw [hgn]
      rcases hsup v x hs with q | q
      · exact cl v x q.1
      · exact ⟨fun _ => mem_entriesOf.mp q.2, fun _ => mem_entriesOf.mp q.1⟩
  · intro us hus hap v x hs
    rw [hon, hon]
    rcases hsup v x hs with q | q
    · exact hus v x q.1
    · exact ⟨fun w => absurd w (hap v (mem_entriesOf.mp q.1)), fun w => absurd w (hap x (mem_entriesOf.mp q.2))⟩

end ATG
