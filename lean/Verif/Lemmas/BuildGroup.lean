import Verif.Lemmas.BuildTiers
import Verif.Lemmas.Homely
import Verif.Props.Custom
/-!
# The groups of an imported textgrid
-/
namespace ATG

theorem isSub_root {ct : ClassTab} {c : CRef} (d : CRef) (hp : ct.parent c = none) : ct.isSub c d = (c == d) := by
  unfold ClassTab.isSub
  cases c <;> simp [ClassTab.isSubN, hp]

theorem not_interval_point {ct : ClassTab} (w : WFC ct) : ∀ (n : Nat) (c : CRef), c ≤ n → c < ct.next →
    ct.isSub c cInterval = true → ct.isSub c cPoint = false := by
  intro n
  induction n with
  | zero =>
    intro c hc hl h
    have : c = 0 := Nat.le_zero.mp hc
    subst this
    rw [isSub_root _ w.p0]
    rfl
  | succ n ih =>
    intro c hc hl h
    cases hp : ct.parent c with
    | none =>
      rw [isSub_root _ hp] at h ⊢
      have : c = cInterval := by simpa using h
      subst this
      rfl
    | some p =>
      have hlt := w.down c p hl hp
      rw [isSub_parent w _ hl hp] at h ⊢
      by_cases h3 : c = cInterval
      · subst h3
        have : p = 0 := by
          have := w.p3
          rw [show (3 : CRef) = cInterval from rfl, hp] at this
          exact Option.some.inj this
        subst this
        rw [isSub_root _ w.p0]
        rfl
      · have h4 : c ≠ cPoint := by
          intro e
          subst e
          have := w.p4
          rw [show (4 : CRef) = cPoint from rfl, hp] at this
          cases this
        have h' : ct.isSub p cInterval = true := by simpa [h3] using h
        rw [ih p (by unfold CRef at *; omega) (Nat.lt_trans hlt hl) h']
        simpa using h4

theorem IsHierarchy.not_point {ct : ClassTab} {l : List CRef} (hl : IsHierarchy ct l) (w : WFC ct) {c : CRef} (hc : c ∈ l) :
    ct.isSub c cPoint = false :=
  not_interval_point w c c (Nat.le_refl _) (hl.mem c hc).1 (hl.mem c hc).2.1

theorem IsHierarchy.sup_some {ct : ClassTab} {l : List CRef} (hl : IsHierarchy ct l) {c : CRef} (hc : c ∈ l) :
    ∃ s, ct.sup c = some s := by
  obtain ⟨i, hi⟩ := List.mem_iff_getElem?.mp hc
  cases i with
  | zero =>
    obtain ⟨t, ht, -⟩ := hl.top c (by rw [List.head?_eq_getElem?]; exact hi)
    exact ⟨t, ht⟩
  | succ i =>
    obtain ⟨hlt, -⟩ := List.getElem?_eq_some_iff.mp hi
    exact ⟨_, (hl.links i _ c (List.getElem?_eq_getElem (by omega)) hi).2⟩

theorem IsHierarchy.topPart {ct : ClassTab} {l : List CRef} (hl : IsHierarchy ct l) : TopPart ct l :=
  ⟨hl.ne, [], by rw [List.append_nil]; exact hl⟩

section topPart
variable {ct : ClassTab} {cs : List CRef} (tp : TopPart ct cs)
include tp

theorem TopPart.mem {c : CRef} (hc : c ∈ cs) : c < ct.next ∧ ct.isSub c cInterval = true ∧ ct.isSub c cTop = false ∧
    ct.isSub c cBottom = false := by
  obtain ⟨-, low, hl⟩ := tp
  exact hl.mem c (by simp [hc])

theorem TopPart.not_point (w : WFC ct) {c : CRef} (hc : c ∈ cs) : ct.isSub c cPoint = false := by
  obtain ⟨-, low, hl⟩ := tp
  exact hl.not_point w (by simp [hc])

theorem TopPart.sup_some {c : CRef} (hc : c ∈ cs) : ∃ s, ct.sup c = some s := by
  obtain ⟨-, low, hl⟩ := tp
  exact hl.sup_some (by simp [hc])

theorem TopPart.nodup : cs.Nodup := by
  obtain ⟨-, low, hl⟩ := tp
  exact (List.nodup_append.mp hl.nodup).1

theorem TopPart.top {c : CRef} (hc : cs.head? = some c) : ∃ t, ct.sup c = some t ∧ ct.isSub t cTop = true := by
  obtain ⟨-, low, hl⟩ := tp
  refine hl.top c ?_
  rw [List.head?_append, hc]; rfl

theorem TopPart.links {i : Nat} {a b : CRef} (h1 : cs[i]? = some a) (h2 : cs[i + 1]? = some b) :
    ct.sub a = some b ∧ ct.sup b = some a := by
  obtain ⟨-, low, hl⟩ := tp
  refine hl.links i a b ?_ ?_
  · rw [List.getElem?_append_left (List.getElem?_eq_some_iff.mp h1).1]; exact h1
  · rw [List.getElem?_append_left (List.getElem?_eq_some_iff.mp h2).1]; exact h2

/-- what follows below the lowest class -/
theorem TopPart.next {c : CRef} (hc : cs.getLast? = some c) :
    ∃ d, ct.sub c = some d ∧ (ct.isSub d cBottom = true ∨ d ∉ cs) := by
  obtain ⟨-, low, hl⟩ := tp
  cases low with
  | nil =>
    rw [List.append_nil] at hl
    obtain ⟨b, h1, h2⟩ := hl.bottom c hc
    exact ⟨b, h1, Or.inl h2⟩
  | cons d low =>
    have hlt : 0 < cs.length := List.length_pos_iff.mpr (by intro e; rw [e] at hc; cases hc)
    refine ⟨d, (hl.links (cs.length - 1) c d ?_ ?_).1, Or.inr ?_⟩
    · rw [List.getElem?_append_left (by omega), ← List.getLast?_eq_getElem?]; exact hc
    · rw [show cs.length - 1 + 1 = cs.length by omega, List.getElem?_append_right (Nat.le_refl _), Nat.sub_self]; rfl
    · exact fun q => (List.nodup_append.mp hl.nodup).2.2 d q d (by simp) rfl

end topPart

theorem rawSpans_sorted {raw : List (Time × Time × String)} (hl : Laid (rawSpans raw)) :
    raw.Pairwise fun a b => a.1 ≤ b.1 := by
  have h2 := hl.2
  unfold rawSpans at h2
  rw [List.pairwise_map] at h2
  have h1 : ∀ p ∈ raw, p.1 < p.2.1 := fun p hp => hl.1 _ (List.mem_map_of_mem hp)
  refine h2.imp_of_mem ?_
  intro a b ha hb hab
  have := h1 a ha
  have hab : a.2.1 ≤ b.1 := hab
  grind

/-- what a tier looks like as a tier of a Praat textgrid -/
theorem Built.spans {h h' : Heap} {l : List (PTier × CRef)} (b : Built h h' l) {i : Nat} {name raw c}
    (hi : l[i]? = some ((name, raw), c)) : (h'.tseq (h.nT + i)).vals.map h'.span = rawSpans raw := by
  obtain ⟨-, -, -, -, -, q, -⟩ := b.tier i name raw c hi
  unfold rawSpans
  rw [← q, List.map_map]
  rfl

/-- the groups already there, and room for more -/
structure Room (h : Heap) (gs : List GRef) : Prop where
  grid : GapGrid h gs
  groups : ∀ g ∈ gs, g < h.nG
  tiers : ∀ g ∈ gs, ∀ t ∈ h.gtiers g, t < h.nT
  homely : ∀ g ∈ gs, Homely h (h.gtiers g)
  rooted : ∀ g ∈ gs, Rooted h (h.gtiers g)

/-- a group that exists, with its tiers and their entries -/
def Settled (h : Heap) (g : GRef) : Prop :=
  g < h.nG ∧ ∀ t ∈ h.gtiers g, t < h.nT ∧ ∀ x ∈ (h.tseq t).vals, x < h.nE

/-- the group, its tiers and their entries are as they were -/
structure Stays (h h' : Heap) (g : GRef) : Prop where
  gtiers : h'.gtiers g = h.gtiers g
  gpoint : h'.gpoint g = h.gpoint g
  unmoved : Unmoved h h' (h.gtiers g)
  twithin : ∀ t ∈ h.gtiers g, h'.twithin t = h.twithin t
  settled : Settled h' g
  intier : ∀ t ∈ h.gtiers g, ∀ x ∈ (h.tseq t).vals, h'.intier x = h.intier x

theorem buildGroup_run {h : Heap} {gs : List GRef} (rm : Room h gs) (w : WFC h.ct) {ts : List PTier} {cs : List CRef}
    (hlen : ts.length = cs.length) (good : GoodTiers ts) (hier : TopPart h.ct cs) :
    ∃ h', buildGroup ts cs h = .ok [h.nG] h' ∧ Room h' (gs ++ [h.nG]) ∧ h'.ct = h.ct ∧ h'.nG = h.nG + 1 ∧
      h'.nA = h.nA ∧ h'.agroups = h.agroups ∧ h'.acont = h.acont ∧ h'.acloned = h.acloned ∧
      (h'.gtiers h.nG).map h'.ptier = ts ∧ (h'.gtiers h.nG).map h'.tcls = cs ∧
      (∀ g ∈ gs, h'.gtiers g = h.gtiers g ∧ ∀ t ∈ h.gtiers g, h'.ptier t = h.ptier t ∧ h'.tcls t = h.tcls t) ∧
      ∀ g, Settled h g → Stays h h' g := by
  have hll : (ts.zip cs).length = ts.length := by rw [List.length_zip, ← hlen, Nat.min_self]
  have hz : ∀ (i : Nat) (q : PTier × CRef), (ts.zip cs)[i]? = some q → ts[i]? = some q.1 ∧ cs[i]? = some q.2 :=
    fun i q hq => List.getElem?_zip_eq_some.mp hq
  have hzm : ∀ q ∈ ts.zip cs, q.1 ∈ ts ∧ q.2 ∈ cs := by
    intro q hq
    obtain ⟨i, hi⟩ := List.mem_iff_getElem?.mp hq
    exact ⟨List.mem_of_getElem? (hz i q hi).1, List.mem_of_getElem? (hz i q hi).2⟩
  obtain ⟨h1, e1, b⟩ := buildTiers_run (ts.zip cs) h (by
    intro q hq
    obtain ⟨m1, m2⟩ := hzm q hq
    exact ⟨hier.not_point w m2, hier.sup_some m2, good.ne _ m1, good.label _ m1, rawSpans_sorted (good.laid _ m1),
      fun p hp => (good.laid _ m1).1 (p.1, p.2.1) (List.mem_map_of_mem hp)⟩)
  have hct : h1.ct = h.ct := by rw [b.frame]
  have gr1 := b.grid rm.grid rm.tiers
  have hgt1 : h1.gtiers = h.gtiers := by rw [b.frame]
  have hnG1 : h1.nG = h.nG := by rw [b.frame]
  have hnT1 : h1.nT = h.nT + ts.length := by rw [b.frame, ← hll]
  rw [hll] at e1
  have bflat := b.flat
  rw [hll] at bflat
  generalize hus : List.range' h.nT ts.length = us at *
  have hidx : ∀ (i : Nat) t, us[i]? = some t → t = h.nT + i ∧ ∃ p c, ts[i]? = some p ∧ cs[i]? = some c ∧
      (ts.zip cs)[i]? = some ((p.1, p.2), c) := by
    intro i t hi
    rw [← hus] at hi
    obtain ⟨hlt, he⟩ := List.getElem?_eq_some_iff.mp hi
    rw [List.length_range'] at hlt
    rw [List.getElem_range', Nat.one_mul] at he
    have a1 : ts[i]? = some ts[i] := List.getElem?_eq_getElem hlt
    have a2 : cs[i]? = some cs[i] := List.getElem?_eq_getElem (by omega)
    exact ⟨he.symm, _, _, a1, a2, List.getElem?_zip_eq_some.mpr ⟨a1, a2⟩⟩
  have hfact : ∀ (i : Nat) t, us[i]? = some t → ∃ p c, ts[i]? = some p ∧ cs[i]? = some c ∧ h1.tname t = p.1 ∧
      h1.tcls t = c ∧ h1.tsup t = h.ct.sup c ∧ h1.tsub t = h.ct.sub c ∧ (h1.tseq t).ecls = some c ∧
      (h1.tseq t).vals.map (fun r => (h1.start r, h1.stop r, h1.label r)) = p.2 ∧
      (∀ x ∈ (h1.tseq t).vals, h1.cls x = c) ∧ (h1.tseq t).vals.map h1.span = rawSpans p.2 := by
    intro i t hi
    obtain ⟨rfl, p, c, a1, a2, a3⟩ := hidx i t hi
    obtain ⟨b1, b2, b3, b4, b5, b6, b7⟩ := b.tier i p.1 p.2 c a3
    exact ⟨p, c, a1, a2, b1, b2, b3, b4, b5, b6, b7, b.spans a3⟩
  have hmem : ∀ t ∈ us, ∃ i : Nat, us[i]? = some t := fun t ht => List.mem_iff_getElem?.mp ht
  have husl : us.length = ts.length := by rw [← hus, List.length_range']
  have hunion : ∀ x, OnTiers h1 us x → h.nE ≤ x ∧ x < h1.nE := by
    rintro x ⟨t, ht, hx⟩
    have : x ∈ (us.map fun t => (h1.tseq t).vals).flatten :=
      List.mem_flatten.mpr ⟨_, List.mem_map_of_mem ht, hx⟩
    rw [bflat, List.mem_range'_1] at this
    have := b.nE
    romega
  have hbound : ∀ t ∈ us, h.nT ≤ t ∧ t < h1.nT := by
    intro t ht
    rw [← hus, List.mem_range'_1] at ht
    rw [hnT1]; exact ht
  have hcls : us.map h1.tcls = cs := by
    apply List.ext_getElem?
    intro i
    rw [List.getElem?_map]
    cases hi : us[i]? with
    | none =>
      rw [List.getElem?_eq_none_iff] at hi
      exact (List.getElem?_eq_none (by omega)).symm
    | some t =>
      obtain ⟨p, c, a1, a2, -, a4, -⟩ := hfact i t hi
      rw [a2, Option.map_some, a4]
  have hpt : us.map h1.ptier = ts := by
    apply List.ext_getElem?
    intro i
    rw [List.getElem?_map]
    cases hi : us[i]? with
    | none =>
      rw [List.getElem?_eq_none_iff] at hi
      exact (List.getElem?_eq_none (by omega)).symm
    | some t =>
      obtain ⟨p, c, a1, a2, a3, a4, a5, a6, a7, a8, -⟩ := hfact i t hi
      rw [a1, Option.map_some]
      unfold Heap.ptier
      rw [a3, a8]
  have hne : us ≠ [] := by
    intro e
    rw [e] at hcls
    exact hier.1 hcls.symm
  have hlinks : ∀ (i : Nat) t t', us[i]? = some t → us[i + 1]? = some t' → h.ct.sub (h1.tcls t) = some (h1.tcls t') ∧
      h.ct.sup (h1.tcls t') = some (h1.tcls t) := by
    intro i t t' q1 q2
    obtain ⟨p, c, a1, a2, -, a4, -⟩ := hfact i t q1
    obtain ⟨p', c', b1, b2, -, b4, -⟩ := hfact (i + 1) t' q2
    rw [a4, b4]
    exact hier.links a2 b2
  have al : AlignedTiers h1 us := by
    refine ⟨by rw [bflat]; exact List.nodup_range', ?_, ?_, ?_, ?_⟩
    · intro t ht x hx
      obtain ⟨i, hi⟩ := hmem t ht
      obtain ⟨p, c, a1, a2, a3, a4, a5, a6, a7, a8, a9, -⟩ := hfact i t hi
      rw [a4]; exact a9 x hx
    · intro t ht x hx
      obtain ⟨i, hi⟩ := hmem t ht
      obtain ⟨p, c, a1, a2, a3, a4, a5, a6, a7, a8, -⟩ := hfact i t hi
      have := List.mem_map_of_mem (f := fun r => (h1.start r, h1.stop r, h1.label r)) hx
      rw [a8] at this
      exact good.label p (List.mem_of_getElem? a1) _ this
    · intro i t t' q1 q2
      rw [hct]
      exact (hlinks i t t' q1 q2).1
    · intro i t t' q1 q2
      obtain ⟨p, c, a1, -, -, -, -, -, -, -, -, a⟩ := hfact i t q1
      obtain ⟨p', c', b1, -, -, -, -, -, -, -, -, b⟩ := hfact (i + 1) t' q2
      rw [aligned_spans, a, b]
      exact good.aligned i p p' a1 b1
  have ch : ClassChain h1 us := by
    refine ⟨by rw [hcls]; exact hier.nodup, ?_, ?_, ?_, ?_⟩
    · intro i t t' q1 q2
      obtain ⟨p, c, a1, a2, a3, a4, a5, a6, -⟩ := hfact i t q1
      obtain ⟨p', c', b1, b2, b3, b4, b5, b6, -⟩ := hfact (i + 1) t' q2
      have := hier.links a2 b2
      rw [a6, b5, a4, b4]
      exact this
    · intro i t t' q1 q2
      obtain ⟨p, c, a1, a2, a3, a4, -⟩ := hfact i t q1
      obtain ⟨p', c', b1, b2, b3, b4, -⟩ := hfact (i + 1) t' q2
      rw [hct, a4, b4]
      exact ⟨(hier.mem (List.mem_of_getElem? a2)).2.2.1, (hier.mem (List.mem_of_getElem? b2)).2.2.2⟩
    · intro t q
      obtain ⟨p, c, a1, a2, a3, a4, a5, -⟩ := hfact 0 t q
      obtain ⟨d, k1, k2⟩ := hier.top (c := c) (by rw [List.head?_eq_getElem?]; exact a2)
      exact ⟨d, a5.trans k1, Or.inl (by rw [hct]; exact k2)⟩
    · intro t q
      obtain ⟨p, c, a1, a2, a3, a4, a5, a6, -⟩ := hfact _ t q
      obtain ⟨d, k1, k2⟩ := hier.next (c := c) (by
        rw [List.getLast?_eq_getElem?, ← hlen, ← husl]; exact a2)
      refine ⟨d, a6.trans k1, k2.imp (fun k => by rw [hct]; exact k) fun k t' ht' e => k ?_⟩
      rw [← hcls, ← e]
      exact List.mem_map_of_mem ht'
  obtain ⟨h2, e2, gr2, hn2, s, m, hum, -⟩ := gr1.add (fun g hg => by rw [hnG1]; exact rm.groups g hg) us ch hne
    (by
      intro t q
      obtain ⟨p, c, a1, a2, a3, a4, -⟩ := hfact 0 t q
      rw [hct, a4]
      exact hier.top (by rw [List.head?_eq_getElem?]; exact a2))
    (by
      intro _ t ht
      obtain ⟨i, hi⟩ := hmem t ht
      obtain ⟨rfl, p, c, a1, -, -⟩ := hidx i t hi
      exact b.free i (by rw [hll]; exact (List.getElem?_eq_some_iff.mp a1).1))
    al
    (by
      intro t ht
      obtain ⟨i, hi⟩ := hmem t ht
      obtain ⟨p, c, a1, a2, a3, a4, a5, a6, a7, a8, a9, a10⟩ := hfact i t hi
      have hp := List.mem_of_getElem? a1
      refine ⟨fun x hx => (hunion x ⟨t, ht, hx⟩).2, by rw [a7, a4], by rw [a10]; exact good.laid p hp, ?_⟩
      rw [a10]
      intro hg x hx
      have := List.mem_map_of_mem (f := fun r => (h1.start r, h1.stop r, h1.label r)) hx
      rw [a8] at this
      exact good.pos p hp hg _ this)
    (by
      intro t ht
      obtain ⟨i, hi⟩ := hmem t ht
      obtain ⟨p, c, a1, a2, a3, a4, -⟩ := hfact i t hi
      rw [hct, a4]
      exact hier.not_point w (List.mem_of_getElem? a2))
    (by
      intro v x hs
      have hx := (gr1.tidy.agree v x).mpr hs
      constructor
      · intro q
        have := hunion v q
        rw [(b.fresh v this.1 this.2).1] at hx
        cases hx
      · intro q
        have := hunion x q
        rw [(b.fresh x this.1 this.2).2] at hs
        cases hs)
    (by
      intro t ht g hg
      rw [hgt1]
      intro q
      have q1 := rm.tiers g hg t q
      have q2 := (hbound t ht).1
      unfold TRef at *
      omega)
    (by
      intro x hx g hg
      rw [hgt1]
      rintro ⟨t, ht, hxt⟩
      rw [(b.other t (rm.tiers g hg t ht)).1] at hxt
      have q1 := ((rm.grid.groups g hg).tiers t ht).old x hxt
      have q2 := (hunion x hx).1
      romega)
  obtain ⟨h2', e2', kd1, kd2, kd3, -, -⟩ := newGroup_kinds us h1 ch hne al (gr1.tidy.on fun _ => True) (fun _ _ => trivial)
  have hkd : h2' = h2 := by
    rw [e2] at e2'
    injection e2' with _ q
    exact q.symm
  subst hkd
  rw [hnG1] at e2 gr2 hn2
  have hgn : h2'.gtiers h.nG = us := by
    rw [m.frame, ← hnG1]; exact upd_same _ _ _
  have hpteq : ∀ t, h2'.ptier t = h1.ptier t := by
    intro t
    unfold Heap.ptier
    rw [s.tname, s.tseq, s.start, s.stop, s.label]
  have hgo : ∀ g ∈ gs, h2'.gtiers g = h.gtiers g := by
    intro g hg
    rw [m.frame]
    show upd h1.gtiers h1.nG us g = _
    rw [upd_ne _ _ _ _ (by intro e; rw [e, hnG1] at hg; exact Nat.lt_irrefl _ (rm.groups _ hg)), hgt1]
  have hnT2 : h2'.nT = h1.nT := by rw [m.frame]
  refine ⟨h2', ?_, ⟨gr2, ?_, ?_, ?_, ?_⟩, s.ct.trans hct, hn2, ?_, ?_, ?_, ?_, ?_, ?_, ?_, ?_⟩
  · unfold buildGroup
    mstep e1
    dsimp only
    rw [if_pos (List.length_pos_iff.mpr hne)]
    have : (do let g ← newGroup us; pure [g] : M (List GRef)) h1 = .ok [h.nG] h2' := by
      mstep e2
      rfl
    mstep this
    rfl
  · intro g hg
    rw [hn2]
    rcases List.mem_append.mp hg with hg | hg
    · exact Nat.lt_succ_of_lt (rm.groups g hg)
    · have : g = h.nG := by simpa using hg
      subst this
      exact Nat.lt_succ_self _
  · intro g hg t ht
    rw [hnT2]
    rcases List.mem_append.mp hg with hg | hg
    · rw [hgo g hg] at ht
      rw [hnT1]
      exact Nat.lt_of_lt_of_le (rm.tiers g hg t ht) (Nat.le_add_right _ _)
    · have : g = h.nG := by simpa using hg
      subst this
      rw [hgn] at ht
      exact (hbound t ht).2
  · intro g hg
    rcases List.mem_append.mp hg with hg | hg
    · have hap : ∀ x, OnTiers h1 us x → ¬ OnTiers h1 (h.gtiers g) x := by
        rintro x hx ⟨t, ht, hxt⟩
        rw [(b.other t (rm.tiers g hg t ht)).1] at hxt
        have q1 := ((rm.grid.groups g hg).tiers t ht).old x hxt
        have q2 := (hunion x hx).1
        romega
      have h1m : Homely h1 (h.gtiers g) := by
        refine (rm.homely g hg).unmoved (b.unmoved (rm.tiers g hg) fun t ht => ((rm.grid.groups g hg).tiers t ht).old)
          (fun t ht => (b.other t (rm.tiers g hg t ht)).2.2.2.1) ?_ ((rm.homely g hg).fresh.congr hct fun t ht => by
            have o := b.other t (rm.tiers g hg t ht)
            exact ⟨o.2.2.1, o.2.2.2.1, o.2.2.2.2.1⟩)
        rintro x ⟨t, ht, hx⟩
        have q := ((rm.grid.groups g hg).tiers t ht).old x hx
        exact ⟨b.intier x q, by rw [(b.old x (Or.inl q)).2.2.2.2.2.2.1]⟩
      rw [hgo g hg]
      exact h1m.unmoved (hum _ hap) (fun t _ => by rw [m.frame])
        (fun x hx => ⟨by rw [m.frame], kd1 x fun q => hap x q hx⟩)
        (h1m.fresh.congr s.ct fun t _ => ⟨by rw [s.tcls], by rw [m.frame], by rw [m.frame]⟩)
    · have : g = h.nG := by simpa using hg
      subst this
      rw [hgn]
      have hlt : ∀ (i : Nat) t, us[i]? = some t → t = h.nT + i ∧ i < (ts.zip cs).length := by
        intro i t hi
        obtain ⟨q, p, c, -, -, q'⟩ := hidx i t hi
        exact ⟨q, (List.getElem?_eq_some_iff.mp q').1⟩
      refine ⟨?_, ?_, ?_, ?_, ?_, ?_⟩
      rotate_left 5
      · intro t ht i u hu
        rw [s.tseq] at hu ⊢
        have hum' := List.mem_of_getElem? hu
        obtain ⟨rfl, q⟩ := hlt 0 t ht
        have hx := hunion u ⟨_, List.mem_of_getElem? ht, hum'⟩
        rw [(kd3 _ ht u hum' (b.fresh u hx.1 hx.2).2).2.2]
        exact (b.linked 0 q).left hu
      rotate_left 4
      · intro t ht
        obtain ⟨i, hi⟩ := hmem t ht
        obtain ⟨-, c, -, -, -, q1, q2, q3, -⟩ := hfact i t hi
        rw [show h2'.tsup = h1.tsup by rw [m.frame], show h2'.tsub = h1.tsub by rw [m.frame], s.tcls, s.ct, hct, q1, q2, q3]
        exact ⟨rfl, rfl⟩
      · intro t ht x hx
        obtain ⟨i, hi⟩ := hmem t ht
        obtain ⟨rfl, q⟩ := hlt i t hi
        rw [s.tseq] at hx
        rw [show h2'.intier = h1.intier by rw [m.frame]]
        exact b.home i q x hx
      · intro i t t' q1 q2
        rw [show h2'.tsup = h1.tsup by rw [m.frame], s.tcls]
        exact (ch.down i t t' q1 q2).2
      · intro i t t' q1 q2 u hu
        rw [s.tseq] at hu
        rw [s.tcls]
        exact kd2 i t t' q1 q2 u hu
      · intro t ht i u hu
        rw [s.tseq] at hu ⊢
        have hum' := List.mem_of_getElem? hu
        obtain ⟨rfl, q⟩ := hlt 0 t ht
        have hx := hunion u ⟨_, List.mem_of_getElem? ht, hum'⟩
        rw [(kd3 _ ht u hum' (b.fresh u hx.1 hx.2).2).1]
        exact (b.linked 0 q).right hu
  · intro g hg
    rcases List.mem_append.mp hg with hg | hg
    · have u1 := b.unmoved (rm.tiers g hg) fun t ht => ((rm.grid.groups g hg).tiers t ht).old
      rw [hgo g hg]
      refine ((rm.rooted g hg).unmoved u1).unmoved (hum _ ?_)
      rintro x hx ⟨t, ht, hxt⟩
      rw [(b.other t (rm.tiers g hg t ht)).1] at hxt
      have q1 := ((rm.grid.groups g hg).tiers t ht).old x hxt
      have q2 := (hunion x hx).1
      romega
    · have : g = h.nG := by simpa using hg
      subst this
      rw [hgn]
      intro t ht x hx
      rw [s.tseq] at hx
      have hxu := hunion x ⟨_, List.mem_of_getElem? ht, hx⟩
      rw [(kd3 t ht x hx (b.fresh x hxu.1 hxu.2).2).2.1]
      obtain ⟨rfl, p, c, -, a2, a3⟩ := hidx 0 t ht
      obtain ⟨d, k1, k2⟩ := hier.top (c := c) (by rw [List.head?_eq_getElem?]; exact a2)
      exact b.rooted 0 _ d a3 k1 k2 x hx
  · rw [m.frame, b.frame]
  · rw [m.frame, b.frame]
  · rw [m.frame, b.frame]
  · rw [m.frame, b.frame]
  · rw [hgn, ← hpt]
    exact List.map_congr_left fun t _ => hpteq t
  · rw [hgn, s.tcls]; exact hcls
  · intro g hg
    refine ⟨hgo g hg, fun t ht => ?_⟩
    obtain ⟨o1, o2, o3, -⟩ := b.other t (rm.tiers g hg t ht)
    refine ⟨?_, by rw [s.tcls]; exact o3⟩
    rw [hpteq]
    unfold Heap.ptier
    rw [o1, o2]
    congr 1
    apply List.map_congr_left
    intro x hx
    obtain ⟨-, q1, q2, q3, -⟩ := b.old x (Or.inl (((rm.grid.groups g hg).tiers t ht).old x hx))
    rw [q1, q2, q3]
  · rintro g ⟨hg, hgt⟩
    have hgne : g ≠ h1.nG := by rw [hnG1]; exact Nat.ne_of_lt hg
    have hg2 : h2'.gtiers g = h.gtiers g := by
      rw [m.frame]
      exact (upd_ne _ _ _ _ hgne).trans (by rw [hgt1])
    have u1 : Unmoved h h1 (h.gtiers g) := b.unmoved (fun t ht => (hgt t ht).1) fun t ht => (hgt t ht).2
    have u2 : Unmoved h1 h2' (h.gtiers g) := by
      refine hum _ ?_
      rintro x hx ⟨t, ht, hxt⟩
      rw [u1.tseq t ht] at hxt
      have q1 := (hgt t ht).2 x hxt
      have q2 := (hunion x hx).1
      romega
    refine ⟨hg2, ?_, u1.trans u2, ?_, ⟨?_, ?_⟩,
      fun t ht x hx => by rw [m.frame]; exact b.intier x ((hgt t ht).2 x hx)⟩
    · rw [m.frame]
      exact (upd_ne _ _ _ _ hgne).trans (by rw [b.frame])
    · intro t ht
      rw [m.twithin, (b.other t (hgt t ht).1).2.2.2.2.2]
      intro q
      exact absurd (hgt t ht).1 (Nat.not_lt.mpr (hbound t q).1)
    · rw [hn2]; exact Nat.lt_succ_of_lt hg
    · rw [hg2]
      intro t ht
      obtain ⟨q1, q2⟩ := hgt t ht
      rw [hnT2, hnT1, s.tseq, u1.tseq t ht, show h2'.nE = h1.nE by rw [m.frame]]
      exact ⟨Nat.lt_of_lt_of_le q1 (Nat.le_add_right _ _), fun x hx => Nat.lt_of_lt_of_le (q2 x hx) b.nE⟩

theorem buildGroups_run : ∀ (l : List (List PTier × List CRef)) {h : Heap} {gs : List GRef}, Room h gs → WFC h.ct →
    (∀ q ∈ l, q.1.length = q.2.length ∧ GoodTiers q.1 ∧ TopPart h.ct q.2) →
    ∃ h', buildGroups l h = .ok (List.range' h.nG l.length) h' ∧ Room h' (gs ++ List.range' h.nG l.length) ∧
      h'.ct = h.ct ∧ h'.nA = h.nA ∧ h'.agroups = h.agroups ∧ h'.acont = h.acont ∧ h'.acloned = h.acloned ∧
      (List.range' h.nG l.length).map (fun g => ((h'.gtiers g).map h'.ptier, (h'.gtiers g).map h'.tcls)) = l ∧
      ∀ g ∈ gs, h'.gtiers g = h.gtiers g ∧ ∀ t ∈ h.gtiers g, h'.ptier t = h.ptier t ∧ h'.tcls t = h.tcls t
  | [], h, gs, rm, w, _ => ⟨h, rfl, by simpa using rm, rfl, rfl, rfl, rfl, rfl, rfl, fun _ _ => ⟨rfl, fun _ _ => ⟨rfl, rfl⟩⟩⟩
  | (ts, cs) :: l, h, gs, rm, w, hl => by
    obtain ⟨q1, q2, q3⟩ := hl (ts, cs) (by simp)
    obtain ⟨h1, e1, rm1, hct, hn, a1, a2, a3, a4, v1, v2, v3, -⟩ := buildGroup_run rm w q1 q2 q3
    obtain ⟨h2, e2, rm2, hct2, b1, b2, b3, b4, u2, u3⟩ := buildGroups_run l rm1 (by rw [hct]; exact w) (by
      rw [hct]; exact fun q hq => hl q (by simp [hq]))
    rw [hn] at e2 rm2 u2
    obtain ⟨g1, g2⟩ := u3 h.nG (by simp)
    refine ⟨h2, ?_, ?_, hct2.trans hct, b1.trans a1, b2.trans a2, b3.trans a3, b4.trans a4, ?_, ?_⟩
    · unfold buildGroups
      mstep e1
      mstep e2
      rw [List.length_cons, List.range'_succ]
      rfl
    · rw [List.length_cons, List.range'_succ]
      rw [List.append_assoc] at rm2
      exact rm2
    · rw [List.length_cons, List.range'_succ, List.map_cons, u2, g1]
      congr 2
      · exact (List.map_congr_left fun t ht => (g2 t ht).1).trans v1
      · exact (List.map_congr_left fun t ht => (g2 t ht).2).trans v2
    · intro g hg
      obtain ⟨c1, c2⟩ := v3 g hg
      obtain ⟨d1, d2⟩ := u3 g (by simp [hg])
      refine ⟨d1.trans c1, fun t ht => ?_⟩
      obtain ⟨x1, x2⟩ := d2 t (by rw [c1]; exact ht)
      obtain ⟨y1, y2⟩ := c2 t ht
      exact ⟨x1.trans y1, x2.trans y2⟩

end ATG
