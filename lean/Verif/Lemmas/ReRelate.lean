import Verif.Lemmas.GroupApart
import Verif.Lemmas.ArrangeFlag
/-!
# Relating the tiers of a group again
-/
namespace ATG

/-- what relating the tiers `ts` of the group `g` again does -/
structure Reseated (h h' : Heap) (g : GRef) (ts : List TRef) (A : Ref → Prop) : Prop where
  frame : h' = { h with subs := h'.subs, sup := h'.sup, within := h'.within, cont := h'.cont, fol := h'.fol,
                        prev := h'.prev, gcont := h'.gcont, twithin := h'.twithin }
  gcont : ∀ k, h'.gcont k = h.gcont k ∨ k = g ∧ h'.gcont k = some ts
  twithin : ∀ t, h'.twithin t = h.twithin t ∨ t ∈ ts ∧ h'.twithin t = some g
  seated : ToBottom h ts → h'.gcont g = some ts ∧ ∀ t ∈ ts, h'.twithin t = some g
  unseated : ¬ ToBottom h ts → h'.gcont = h.gcont ∧ h'.twithin = h.twithin
  related : RelatedByContainment h' ts
  apart : Apart h h' A
  subs : ∀ v x, x ∈ (h'.subs v).vals → x ∈ (h.subs v).vals ∧ x ∉ entriesOf h ts ∨
    v ∈ entriesOf h ts ∧ x ∈ entriesOf h ts
  sup : ∀ v x, h'.sup x = some v → h.sup x = some v ∧ x ∉ entriesOf h ts ∨ v ∈ entriesOf h ts ∧ x ∈ entriesOf h ts
  top : ∀ t, ts[0]? = some t → ∀ x ∈ (h.tseq t).vals, h.sup x = none → h'.within x = h.within x
  toplinks : ∀ t, ts[0]? = some t → ∀ x ∈ (h.tseq t).vals, h.sup x = none → h'.fol x = h.fol x ∧ h'.prev x = h.prev x

theorem Reseated.same {h h' : Heap} {g : GRef} {ts : List TRef} {A : Ref → Prop} (r : Reseated h h' g ts A) :
    SameContents h h' := by
  constructor <;> rw [r.frame]

theorem reRelate_among (g : GRef) (ts : List TRef) (h : Heap) (hgt : h.gtiers g = ts) (hgp : h.gpoint g = false)
    (ch : ClassChain h ts) (hne : ts ≠ []) (al : AlignedTiers h ts) {L A : Ref → Prop} (td : TidyOn L h)
    (hL : ∀ x ∈ entriesOf h ts, L x) (hA : ∀ x ∈ entriesOf h ts, A x)
    (hcl : ∀ v x, h.sup x = some v → (A v ↔ A x)) :
    ∃ h', reRelate g h = .ok () h' ∧ Reseated h h' g ts A ∧
      ((∀ i t t', ts[i]? = some t → ts[i + 1]? = some t' → ∀ v ∈ (h.tseq t).vals, ∀ x ∈ (h.subs v).vals, L x →
        x ∈ entriesOf h ts) → TidyOn L h') := by
  obtain ⟨b, hb⟩ := ch.arrange (List.Perm.refl ts) hne
  obtain ⟨h1, h', e, f, r⟩ := groupInit_run g ts ts false b h hb (fun _ ht => ht) al td hL
  obtain ⟨h2, e', g1, s, r', -, htd⟩ := groupInit_related g ts ts false b h hb (fun _ ht => ht) al td hL
  have hh : h2 = h' := by
    rw [e] at e'
    injection e' with _ q
    exact q.symm
  subst hh
  have q0 := seated_frame h g ts b
  have hup : ∀ p ∈ chainPairs h ts, p.1 ∈ entriesOf h ts := by
    intro p hp
    obtain ⟨i, t, t', g1, g2, g3, g4⟩ := mem_chainPairs hp
    exact mem_entriesOf.mpr ⟨t, List.mem_of_getElem? g1, g3⟩
  have hlo : ∀ p ∈ chainPairs h ts, ∀ x ∈ p.2, x ∈ entriesOf h ts := by
    intro p hp x hx
    obtain ⟨i, t, t', g1, g2, g3, g4⟩ := mem_chainPairs hp
    rw [g4] at hx
    exact mem_entriesOf.mpr ⟨t', List.mem_of_getElem? g2, (List.mem_filter.mp hx).1⟩
  have hsub0 : (seated h g ts b).subs = h.subs := by rw [q0]
  have hsup0 : (seated h g ts b).sup = h.sup := by rw [q0]
  have hoU : ∀ v, ¬ A v → h2.subs v = h1.subs v ∧ h2.cont v = h1.cont v := fun v hv =>
    r.otherUpper v fun p hp e => hv (hA v (e ▸ hup p hp))
  have hoL0 := fun x (hx : x ∉ entriesOf h ts) => r.otherLower x fun p hp e => hx (hlo p hp x e)
  have hoL := fun x (hx : ¬ A x) => hoL0 x fun e => hx (hA x e)
  have hlinks : ∀ x, ¬ A x → h1.fol x = h.fol x ∧ h1.prev x = h.prev x := by
    intro x hx
    have := f.links x (by
      intro v hv y hy hyE
      rw [hsub0] at hy
      rw [hsup0] at hv
      exact hx ((hcl v x hv).mp ((hcl v y (td.down v y hy)).mpr (hA y hyE))))
    rw [this.1, this.2, q0]
    exact ⟨rfl, rfl⟩
  have hg0 : upd h.gtiers g ts = h.gtiers := upd_eq_self _ _ _ hgt
  have hfr : h2 = { h with subs := h2.subs, sup := h2.sup, within := h2.within, cont := h2.cont, fol := h2.fol,
                           prev := h2.prev, gcont := (seated h g ts b).gcont, twithin := (seated h g ts b).twithin } := by
    have k0 := r.frame
    rw [f.frame, q0, hg0] at k0
    exact k0
  refine ⟨h2, ?_, ⟨?_, ?_, ?_, ?_, ?_, r', ⟨?_, ?_, ?_, ?_, ?_, ?_⟩, ?_, ?_, ?_, ?_⟩, ?_⟩
  · unfold reRelate
    mstep M.get_apply h
    rw [hgp, hgt]
    exact e
  · rw [show h2.gcont = (seated h g ts b).gcont by rw [hfr], show h2.twithin = (seated h g ts b).twithin by rw [hfr]]
    exact hfr
  · intro k
    rw [show h2.gcont = (seated h g ts b).gcont by rw [hfr]]
    cases b with
    | false => exact Or.inl rfl
    | true =>
      show upd h.gcont g (some ts) k = _ ∨ k = g ∧ upd h.gcont g (some ts) k = _
      by_cases hk : k = g
      · subst hk; exact Or.inr ⟨rfl, upd_same _ _ _⟩
      · exact Or.inl (upd_ne _ _ _ _ hk)
  · intro t
    rw [show h2.twithin = (seated h g ts b).twithin by rw [hfr]]
    cases b with
    | false => exact Or.inl rfl
    | true =>
      show (if t ∈ ts then some g else h.twithin t) = _ ∨ t ∈ ts ∧ (if t ∈ ts then some g else h.twithin t) = _
      by_cases ht : t ∈ ts
      · exact Or.inr ⟨ht, if_pos ht⟩
      · exact Or.inl (if_neg ht)
  · intro q
    have hbt := (arrange_toBottom ch hne hb).mpr q
    subst hbt
    rw [show h2.gcont = (seated h g ts true).gcont by rw [hfr], show h2.twithin = (seated h g ts true).twithin by rw [hfr]]
    exact ⟨upd_same _ _ _, fun t ht => if_pos ht⟩
  · intro q
    have hbf : b = false := by
      cases b with
      | false => rfl
      | true => exact absurd ((arrange_toBottom ch hne hb).mp rfl) q
    subst hbf
    rw [show h2.gcont = (seated h g ts false).gcont by rw [hfr], show h2.twithin = (seated h g ts false).twithin by rw [hfr]]
    exact ⟨rfl, rfl⟩
  · intro v hv
    rw [(hoU v hv).1, f.subs, hsub0]
    simp only
    rw [List.filter_eq_self]
    intro y hy
    have : y ∉ entriesOf h ts := fun hy' => hv ((hcl v y (td.down v y hy)).mpr (hA y hy'))
    simpa using this
  · intro x hx
    rw [(hoL x hx).1, f.sup, if_neg (fun e => hx (hA x e)), hsup0]
  · intro x hx
    rw [(hoL x hx).2.1, f.within, if_neg (fun q => hx (hA x q.1)), q0]
  · intro x hx
    rw [(hoU x hx).2, f.frame, q0]
  · intro x hx
    rw [(hoL x hx).2.2.1, (hlinks x hx).1]
  · intro x hx
    rw [(hoL x hx).2.2.2, (hlinks x hx).2]
  · intro v x hx
    by_cases hv : ∃ p ∈ chainPairs h ts, p.1 = v
    · obtain ⟨p, hp, rfl⟩ := hv
      rw [r.subs p hp] at hx
      exact Or.inr ⟨hup p hp, hlo p hp x hx⟩
    · rw [(r.otherUpper v (fun p hp e => hv ⟨p, hp, e⟩)).1, f.subs, hsub0] at hx
      have := List.mem_filter.mp hx
      exact Or.inl ⟨this.1, by simpa using this.2⟩
  · intro v x hx
    by_cases hl : ∃ p ∈ chainPairs h ts, x ∈ p.2
    · obtain ⟨p, hp, hxp⟩ := hl
      rw [(r.sup p hp x hxp).1] at hx
      cases hx
      exact Or.inr ⟨hup p hp, hlo p hp x hxp⟩
    · rw [(r.otherLower x (fun p hp hh => hl ⟨p, hp, hh⟩)).1, f.sup] at hx
      by_cases hE' : x ∈ entriesOf h ts
      · rw [if_pos hE'] at hx; cases hx
      · rw [if_neg hE', hsup0] at hx
        exact Or.inl ⟨hx, hE'⟩
  · intro t ht x hx hs
    rw [(r.otherLower x (chain_lower_notTop al t ht x hx)).2.1, f.within, if_neg (by rw [hsup0]; exact fun q => q.2 hs), q0]
  · intro t ht x hx hs
    have l := r.otherLower x (chain_lower_notTop al t ht x hx)
    have := f.links x (by
      intro v hv
      rw [hsup0, hs] at hv
      cases hv)
    rw [l.2.2.1, l.2.2.2, this.1, this.2, q0]
    exact ⟨rfl, rfl⟩
  · intro q
    apply htd
    intro p hp x hx
    obtain ⟨i, t, t', k1, k2, k3, -⟩ := mem_chainPairs hp
    exact q i t t' k1 k2 p.1 k3 x hx

end ATG
