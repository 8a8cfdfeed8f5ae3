import Verif.Lemmas.BuildTiers
import Verif.Lemmas.RelatedAll
/-!
# The same program at other times
-/
namespace ATG

theorem newEntries_retime (c : CRef) : ∀ (raw raw' : List (Time × Time × String)) (h : Heap) (s e : Ref → Time),
    raw.map (·.2.2) = raw'.map (·.2.2) → ∀ rs h1, newEntries c raw h = .ok rs h1 →
    ∃ s' e', newEntries c raw' (h.retime s e) = .ok rs (h1.retime s' e')
  | [], [], h, s, e, _, rs, h1, hr => by
    unfold newEntries at hr
    simp only [M.pure_apply, Res.ok.injEq] at hr
    obtain ⟨rfl, rfl⟩ := hr
    exact ⟨s, e, rfl⟩
  | [], _ :: _, _, _, _, hl, _, _, _ => by cases hl
  | _ :: _, [], _, _, _, hl, _, _, _ => by cases hl
  | (a, b, l) :: raw, (a', b', l') :: raw', h, s, e, hl, rs, h1, hr => by
    simp only [List.map_cons, List.cons.injEq] at hl
    obtain ⟨hl0, hl⟩ := hl
    subst hl0
    obtain ⟨rs2, h2, e2, -⟩ := newEntries_ok c raw (newEntry c a b l h).heap
    have hk : newEntries c ((a, b, l) :: raw) h = .ok (h.nE :: rs2) h2 := by
      unfold newEntries
      mstep (show newEntry c a b l h = .ok h.nE (newEntry c a b l h).heap from rfl)
      mstep e2
      rfl
    rw [hk] at hr
    simp only [Res.ok.injEq] at hr
    obtain ⟨rfl, rfl⟩ := hr
    obtain ⟨s', e', e3⟩ := newEntries_retime c raw raw' _ (upd s h.nE a') (upd e h.nE b') hl rs2 h2 e2
    refine ⟨s', e', ?_⟩
    unfold newEntries
    mstep (show newEntry c a' b' l (h.retime s e) = .ok h.nE ((newEntry c a b l h).heap.retime (upd s h.nE a') (upd e h.nE b')) from rfl)
    mstep e3
    rfl

theorem newTierFrom_retime (c sc : CRef) (name : String) (raw raw' : List (Time × Time × String)) (h : Heap) (s e : Ref → Time)
    (hl : raw.map (·.2.2) = raw'.map (·.2.2)) (hci : h.ct.isSub c cPoint = false) (hs : h.ct.sup c = some sc)
    (hlab : ∀ p ∈ raw, p.2.2 ≠ "#") (hlab' : ∀ p ∈ raw', p.2.2 ≠ "#")
    (ho : raw.Pairwise fun a b => a.1 ≤ b.1) (ho' : raw'.Pairwise fun a b => a.1 ≤ b.1) :
    ∃ h1 s' e', newTierFrom raw c name h = .ok h.nT h1 ∧
      newTierFrom raw' c name (h.retime s e) = .ok h.nT (h1.retime s' e') ∧ h1.ct = h.ct ∧ h1.nT = h.nT + 1 := by
  let h1 : Heap := { h with
    nT := h.nT + 1
    tseq := upd h.tseq h.nT SL.empty
    tcont := upd h.tcont h.nT .unset
    twithin := upd h.twithin h.nT none }
  obtain ⟨rs, h2, e2, hrs, -, hmap, hnew, -, hfr⟩ := newEntries_ok c raw h1
  obtain ⟨s', e', e2'⟩ := newEntries_retime c raw raw' h1 s e hl rs h2 e2
  obtain ⟨rs', h2', e3, hrs', -, hmap', -⟩ := newEntries_ok c raw' (h1.retime s e)
  rw [e2'] at e3
  simp only [Res.ok.injEq] at e3
  obtain ⟨rfl, rfl⟩ := e3
  have hct : h2.ct = h.ct := by rw [hfr]
  have hnd : rs.Nodup := by rw [hrs]; exact List.nodup_range'
  have key : ∀ (k : Heap) (r : List (Time × Time × String)), k.ct = h.ct → k.tcont = h2.tcont → (∀ x ∈ rs, k.cls x = c) →
      rs.map (fun r => (k.start r, k.stop r, k.label r)) = r → (∀ p ∈ r, p.2.2 ≠ "#") → (r.Pairwise fun a b => a.1 ≤ b.1) →
      tierInit h.nT rs c name k = .ok () (tierBuilt k h.nT rs c sc name) := by
    intro k r hk hkt hkc hkm hkl hko
    have e3 := tierInit_ok h.nT rs c sc name k (by rw [hkt, hfr]; exact upd_same _ _ _) (by rw [hk]; exact hci) (by rw [hk]; exact hs)
      (by intro x hx; simp [Heap.isPoint, hkc x hx, hk, hci]) hnd (by
        intro x hx
        have := List.mem_map_of_mem (f := fun r => (k.start r, k.stop r, k.label r)) hx
        rw [hkm] at this
        exact hkl _ this)
    rw [slSort_of_sorted] at e3
    · exact e3
    · have : (rs.map fun r => (k.start r, k.stop r, k.label r)).Pairwise fun a b => a.1 ≤ b.1 := by
        rw [hkm]; exact hko
      rw [List.pairwise_map] at this
      exact this
  refine ⟨tierBuilt h2 h.nT rs c sc name, s', e', ?_, ?_, ?_, ?_⟩
  · unfold newTierFrom
    mstep (show newTierObj h = .ok h.nT h1 from rfl)
    mstep e2
    mstep key h2 raw hct rfl (fun x hx => (hnew x hx).1) hmap hlab ho
    rfl
  · unfold newTierFrom
    mstep (show newTierObj (h.retime s e) = .ok h.nT (h1.retime s e) from rfl)
    mstep e2'
    mstep key (h2.retime s' e') raw' hct rfl (fun x hx => (hnew x hx).1) hmap' hlab' ho'
    rfl
  · exact hct
  · show h2.nT = _
    rw [hfr]

/-- what is needed to make interval tiers of the given kind -/
def Makeable (ct : ClassTab) (q : PTier × CRef) : Prop :=
  ct.isSub q.2 cPoint = false ∧ (∃ s, ct.sup q.2 = some s) ∧ q.1.2 ≠ [] ∧
      (∀ p ∈ q.1.2, p.2.2 ≠ "#") ∧ (q.1.2.Pairwise fun a b => a.1 ≤ b.1) ∧ ∀ p ∈ q.1.2, p.1 < p.2.1

theorem buildTiers_retime : ∀ (l l' : List (PTier × CRef)) (h : Heap) (s e : Ref → Time),
    l.map (fun q => (q.1.1, q.2, q.1.2.map (·.2.2))) = l'.map (fun q => (q.1.1, q.2, q.1.2.map (·.2.2))) →
    (∀ q ∈ l, Makeable h.ct q) → (∀ q ∈ l', Makeable h.ct q) →
    ∃ h1 s' e' r, buildTiers l h = .ok r h1 ∧ buildTiers l' (h.retime s e) = .ok r (h1.retime s' e')
  | [], [], h, s, e, _, _, _ => ⟨h, s, e, ([], []), rfl, rfl⟩
  | [], _ :: _, _, _, _, hl, _, _ => by cases hl
  | _ :: _, [], _, _, _, hl, _, _ => by cases hl
  | ((name, raw), c) :: l, ((name', raw'), c') :: l', h, s, e, hl, hm, hm' => by
    simp only [List.map_cons, List.cons.injEq, Prod.mk.injEq] at hl
    obtain ⟨⟨rfl, rfl, hl0⟩, hl⟩ := hl
    obtain ⟨hp, ⟨sc, hs⟩, -, hlab, hsort, hlen⟩ := hm _ List.mem_cons_self
    obtain ⟨-, -, -, hlab', hsort', hlen'⟩ := hm' _ List.mem_cons_self
    obtain ⟨h1, s1, e1, r1, r2, hct, -⟩ := newTierFrom_retime c sc name raw raw' h s e hl0 hp hs hlab hlab' hsort hsort'
    obtain ⟨h2, s2, e2, r, q1, q2⟩ := buildTiers_retime l l' h1 s1 e1 hl (by rw [hct]; exact fun q hq => hm q (by simp [hq]))
      (by rw [hct]; exact fun q hq => hm' q (by simp [hq]))
    have hk : ∀ raw : List (Time × Time × String), (∀ p ∈ raw, p.1 < p.2.1) → ofKind false raw = true := by
      intro raw hlen
      unfold ofKind
      apply List.all_eq_true.mpr
      intro p hq
      have : p.1 ≠ p.2.1 := fun q => by have := hlen p hq; rw [q] at this; exact absurd this (Rat.lt_irrefl)
      simp [this]
    refine ⟨h2, s2, e2, (h.nT :: r.1, r.2), ?_, ?_⟩
    · unfold buildTiers
      mstep M.get_apply h
      rw [if_neg (by rw [hp]; simp), if_pos (hk raw hlen)]
      mstep r1
      mstep q1
      rfl
    · unfold buildTiers
      mstep M.get_apply _
      rw [if_neg (by show ¬ h.ct.isSub c cPoint = true; rw [hp]; simp), if_pos (hk raw' hlen')]
      mstep r2
      mstep q2
      rfl

end ATG
