import Verif.Lemmas.GroupSweep
import Verif.Lemmas.GroupApart
/-!
# `TierGroup(tiers)` for aligned tiers
-/
namespace ATG

/-- the heap after `TierGroup(tiers)`, apart from the relations -/
structure GroupMade (h h' : Heap) (ts : List TRef) : Prop where
  frame : h' = { h with nG := h.nG + 1, gtiers := upd h.gtiers h.nG ts, gcont := h'.gcont,
                        gpoint := upd h.gpoint h.nG false, gwithin := h'.gwithin, twithin := h'.twithin,
                        subs := h'.subs, sup := h'.sup, within := h'.within, cont := h'.cont, fol := h'.fol,
                        prev := h'.prev }
  gcont : ∀ k, k ≠ h.nG → h'.gcont k = h.gcont k
  twithin : ∀ t, t ∉ ts → h'.twithin t = h.twithin t
  seated : ToBottom h ts → h'.gcont h.nG = some ts ∧ ∀ t ∈ ts, h'.twithin t = some h.nG

theorem newGroup_gap (h : Heap) (tiers ts : List TRef) (ch : ClassChain h ts) (hp : tiers.Perm ts) (hne : ts ≠ [])
    (top : ∀ t, ts[0]? = some t → ∃ c, h.ct.sup (h.tcls t) = some c ∧ h.ct.isSub c cTop = true)
    (low : ¬ ToBottom h ts → ∀ t ∈ ts, h.twithin t = none)
    (al : AlignedTiers h ts) (hf : ∀ t ∈ ts, Fillable h t) (td : TidyOn (OnTiers h ts) h) (ac : Allocated h)
    (own : ∀ v x, OnTiers h ts v → x ∈ (h.subs v).vals → OnTiers h ts x) :
    ∃ h', newGroup tiers h = .ok h.nG h' ∧ GapGroup h' h.nG ts ∧ TidyOn (OnTiers h' ts) h' ∧ Allocated h' ∧
      SameContents h h' ∧ GroupMade h h' ts := by
  obtain ⟨h0, e0⟩ : ∃ h0, newGroupObj false h = .ok h.nG h0 := ⟨_, rfl⟩
  have f0 : h0 = { h with nG := h.nG + 1, gtiers := upd h.gtiers h.nG [], gcont := h0.gcont,
                          gpoint := upd h.gpoint h.nG false, gwithin := h0.gwithin } := by
    unfold newGroupObj at e0
    simp only [Res.ok.injEq] at e0
    rw [← e0.2]
  have f0c : ∀ k, k ≠ h.nG → h0.gcont k = h.gcont k := by
    unfold newGroupObj at e0
    simp only [Res.ok.injEq] at e0
    rw [← e0.2]
    exact fun k hk => upd_ne _ _ _ _ hk
  have s0 : SameContents h h0 := by constructor <;> rw [f0]
  have ch0 : ClassChain h0 ts := ch.congr (by rw [f0]) (by rw [f0]) (by rw [f0]) (by rw [f0])
  obtain ⟨b, hb⟩ := ch0.arrange hp hne
  have al0 : AlignedTiers h0 ts := al.congr s0.start s0.stop s0.tseq s0.cls s0.tcls s0.label s0.ct
  have td0 : TidyOn (OnTiers h ts) h0 :=
    td.congr (by rw [f0]) (by rw [f0]) (by rw [f0]) (by rw [f0]) (by rw [f0]) (by rw [f0]) (by rw [f0])
  have hE : ∀ x, x ∈ entriesOf h0 tiers ↔ OnTiers h ts x := by
    intro x
    rw [mem_entriesOf, s0.tseq]
    exact ⟨fun ⟨t, ht, hx⟩ => ⟨t, hp.mem_iff.mp ht, hx⟩, fun ⟨t, ht, hx⟩ => ⟨t, hp.mem_iff.mpr ht, hx⟩⟩
  have hmem : ∀ t ∈ ts, t ∈ tiers := fun t ht => hp.mem_iff.mpr ht
  obtain ⟨h1, h', e, f, r⟩ := groupInit_run h.nG tiers ts false b h0 hb hmem al0 td0 (fun x hx => (hE x).mp hx)
  obtain ⟨h2, e', g1, s, r', -, htd⟩ := groupInit_related h.nG tiers ts false b h0 hb hmem al0 td0 (fun x hx => (hE x).mp hx)
  have hh : h2 = h' := by
    rw [e] at e'
    injection e' with _ q
    exact q.symm
  subst hh
  have q0 := seated_frame h0 h.nG ts b
  have hbt : b = true ↔ ToBottom h ts :=
    (arrange_toBottom ch0 hne hb).trans (ToBottom.congr s0.ct fun t _ => by rw [f0])
  have hseat : ToBottom h ts → h2.gcont h.nG = some ts ∧ ∀ t ∈ ts, h2.twithin t = some h.nG := by
    intro q
    have := hbt.mpr q
    subst this
    rw [r.frame, f.frame]
    exact ⟨upd_same _ _ _, fun t ht => if_pos ht⟩
  have hunseat : ¬ ToBottom h ts → h2.twithin = h.twithin := by
    intro q
    have : b = false := by
      cases b with
      | false => rfl
      | true => exact absurd (hbt.mp rfl) q
    subst this
    rw [r.frame, f.frame, show h.twithin = h0.twithin by rw [f0]]
    rfl
  have S : SameContents h h2 := by
    constructor
    · rw [s.start, s0.start]
    · rw [s.stop, s0.stop]
    · rw [s.label, s0.label]
    · rw [s.cls, s0.cls]
    · rw [s.nE, s0.nE]
    · rw [s.tseq, s0.tseq]
    · rw [s.tcls, s0.tcls]
    · rw [s.tname, s0.tname]
    · rw [s.ct, s0.ct]
  have hlt : ∀ x, OnTiers h ts x → x < h.nE := fun x ⟨t, ht, hx⟩ => (hf t ht).old x hx
  have hC : chainPairs h0 ts = chainPairs h ts := chainPairs_congr (by rw [f0]) (by rw [f0]) (by rw [f0]) ts
  have hup : ∀ p ∈ chainPairs h ts, OnTiers h ts p.1 := by
    intro p hp
    obtain ⟨i, t, t', g1, g2, g3, g4⟩ := mem_chainPairs hp
    exact ⟨t, List.mem_of_getElem? g1, g3⟩
  have hlo : ∀ p ∈ chainPairs h ts, ∀ x ∈ p.2, OnTiers h ts x := by
    intro p hp x hx
    obtain ⟨i, t, t', g1, g2, g3, g4⟩ := mem_chainPairs hp
    rw [g4] at hx
    exact ⟨t', List.mem_of_getElem? g2, (List.mem_filter.mp hx).1⟩
  rw [hC] at r
  have hsub0 : h0.subs = h.subs := by rw [f0]
  have hlow : ToBottom h2 ts ↔ ToBottom h ts := ToBottom.congr S.ct fun t _ => by rw [r.frame, f.frame, q0, f0]
  refine ⟨h2, ?_, { toTierStack := ⟨?_, fun q => (hseat (hlow.mp q)).1, ?_, hne, ?_, ?_, ?_, ?_,
    fun q => (hseat (hlow.mp q)).2, ?_⟩, related := r' }, ?_, ?_, S, ⟨?_, ?_, ?_, hseat⟩⟩
  · unfold newGroup
    mstep e0
    mstep e
    rfl
  · rw [g1]; exact upd_same _ _ _
  · rw [r.frame, f.frame, q0, f0]; exact upd_same _ _ _
  · exact ch.congr (by rw [r.frame, f.frame, q0, f0]) (by rw [r.frame, f.frame, q0, f0]) (by rw [r.frame, f.frame, q0, f0])
      (by rw [r.frame, f.frame, q0, f0])
  · rw [S.ct, S.tcls]; exact top
  · exact al.congr S.start S.stop S.tseq S.cls S.tcls S.label S.ct
  · exact fun t ht => (hf t ht).congr S
  · intro q
    rw [hlow] at q
    rw [hunseat q]; exact low q
  · have : OnTiers h2 ts = OnTiers h ts := by unfold OnTiers; rw [S.tseq]
    rw [this]
    apply htd
    rw [hC, hsub0]
    intro p hp x hx _
    exact (hE x).mpr (own p.1 x (hup p hp) hx)
  · intro v x hx
    rw [S.nE]
    by_cases hv : ∃ p ∈ chainPairs h ts, p.1 = v
    · obtain ⟨p, hp, rfl⟩ := hv
      rw [r.subs p hp] at hx
      exact ⟨hlt _ (hup p hp), hlt x (hlo p hp x hx)⟩
    · rw [(r.otherUpper v (fun p hp e => hv ⟨p, hp, e⟩)).1, f.subs, q0, hsub0] at hx
      exact ac v x (List.mem_filter.mp hx).1
  · rw [r.frame, f.frame, q0, f0]
    simp only [upd_upd]
  · intro k hk
    rw [r.frame, f.frame]
    cases b with
    | false => exact f0c k hk
    | true => exact (upd_ne _ _ _ _ hk).trans (f0c k hk)
  · intro t ht
    rw [r.frame, f.frame, show h.twithin = h0.twithin by rw [f0]]
    cases b with
    | false => rfl
    | true => exact if_neg ht

end ATG
