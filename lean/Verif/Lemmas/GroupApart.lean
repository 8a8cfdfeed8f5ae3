import Verif.Lemmas.GroupAligned
import Verif.Lemmas.TierInit
import Verif.Spec.Interleave
/-!
# Building a group leaves other entries alone
-/
namespace ATG

/-- nothing but the relations of entries in `A` differs -/
structure Apart (h h' : Heap) (A : Ref → Prop) : Prop where
  subs : ∀ v, ¬ A v → (h'.subs v).vals = (h.subs v).vals
  sup : ∀ x, ¬ A x → h'.sup x = h.sup x
  within : ∀ x, ¬ A x → h'.within x = h.within x
  cont : ∀ x, ¬ A x → h'.cont x = h.cont x
  fol : ∀ x, ¬ A x → h'.fol x = h.fol x
  prev : ∀ x, ¬ A x → h'.prev x = h.prev x

/-- the superset of an entry of the tiers is an entry of the tiers -/
def UpClosed (h : Heap) (ts : List TRef) : Prop := ∀ v x, h.sup x = some v → OnTiers h ts x → OnTiers h ts v

/-- an entry of the tiers, or one that names an entry beneath the tiers as its superset: with those left over from
    popped tiers -/
inductive Beneath (h : Heap) (ts : List TRef) : Ref → Prop
  | on {x : Ref} : OnTiers h ts x → Beneath h ts x
  | up {v x : Ref} : h.sup x = some v → Beneath h ts v → Beneath h ts x

theorem UpClosed.beneath {h : Heap} {ts : List TRef} (u : UpClosed h ts) {v x : Ref} (e : h.sup x = some v) :
    Beneath h ts v ↔ Beneath h ts x := by
  refine ⟨fun q => .up e q, fun q => ?_⟩
  cases q with
  | on q => exact .on (u v x e q)
  | up e' q =>
    rw [e, Option.some.injEq] at e'
    exact e' ▸ q

/-- what is on tiers closed upwards is not beneath tiers with other entries -/
theorem UpClosed.notBeneath {h : Heap} {ts us : List TRef} (u : UpClosed h us)
    (hd : ∀ x, OnTiers h us x → ¬ OnTiers h ts x) {x : Ref} (hx : OnTiers h us x) : ¬ Beneath h ts x := by
  intro q
  induction q with
  | on q => exact hd _ hx q
  | up e _ ih => exact ih (u _ _ e hx)

theorem Beneath.onTiers {h : Heap} {ts : List TRef} (hc : ∀ v x, h.sup x = some v → (OnTiers h ts v ↔ OnTiers h ts x))
    {x : Ref} (q : Beneath h ts x) : OnTiers h ts x := by
  induction q with
  | on q => exact q
  | up e _ ih => exact (hc _ _ e).mp ih

/-- an entry is on the tiers exactly if its superset is -/
def SupClosed (h : Heap) (ts : List TRef) : Prop := ∀ v x, h.sup x = some v → (OnTiers h ts v ↔ OnTiers h ts x)

/-- The tiers of the group are closed upwards, and no entry of another one of the groups is beneath them. -/
def Far (h : Heap) (gs : List GRef) (g : GRef) : Prop :=
  UpClosed h (h.gtiers g) ∧ ∀ g' ∈ gs, g' ≠ g → ∀ x, OnTiers h (h.gtiers g') x → ¬ Beneath h (h.gtiers g) x

theorem SupClosed.far {h : Heap} {gs : List GRef} {g : GRef} (s : SupClosed h (h.gtiers g)) (hg : g ∈ gs)
    (sep : Separate h gs) : Far h gs g := by
  refine ⟨fun v x e hx => (s v x e).mpr hx, ?_⟩
  rintro g' hg' hne x ⟨t, ht, hx⟩ q
  obtain ⟨t', ht', hx'⟩ := q.onTiers s
  exact sep g' hg' g hg hne t ht x hx t' ht' hx'

theorem Separate.far {h : Heap} {gs : List GRef} (sep : Separate h gs)
    (uc : ∀ g ∈ gs, UpClosed h (h.gtiers g)) {g : GRef} (hg : g ∈ gs) : Far h gs g := by
  refine ⟨uc g hg, ?_⟩
  intro g' hg' hne x hx
  refine (uc g' hg').notBeneath ?_ hx
  rintro y ⟨t, ht, hy⟩ ⟨t', ht', hy'⟩
  exact sep g' hg' g hg hne t ht y hy t' ht' hy'

/-- What is beneath other tiers in a heap in which only supersets among `T` have changed -/
theorem Beneath.back {h h1 : Heap} {us : List TRef} {T : Ref → Prop} (hseq : ∀ t ∈ us, h1.tseq t = h.tseq t)
    (hsup : ∀ v x, h1.sup x = some v → h.sup x = some v ∨ T v ∧ T x)
    (hd : ∀ x, T x → ¬ Beneath h us x) {x : Ref} (q : Beneath h1 us x) : Beneath h us x := by
  induction q with
  | on q =>
    obtain ⟨t, ht, hx⟩ := q
    exact .on ⟨t, ht, by rw [← hseq t ht]; exact hx⟩
  | up e _ ih =>
    rcases hsup _ _ e with q | ⟨q, -⟩
    · exact .up q ih
    · exact absurd ih (hd _ q)

/-- every entry with a superset exists, and so does the superset -/
def AllocatedUp (h : Heap) : Prop := ∀ v x, h.sup x = some v → v < h.nE ∧ x < h.nE

theorem Tidy.allocatedUp {h : Heap} (td : Tidy h) (ac : Allocated h) : AllocatedUp h :=
  fun v x e => ac v x ((td.agree v x).mpr e)

/-- what is beneath existing tiers exists -/
theorem Beneath.lt {h : Heap} {ts : List TRef} (au : AllocatedUp h) (old : ∀ x, OnTiers h ts x → x < h.nE) {x : Ref}
    (q : Beneath h ts x) : x < h.nE := by
  cases q with
  | on q => exact old x q
  | up e _ => exact (au _ _ e).2

/-- Building a group of tiers whose entries are in `A`, which is closed under supersets, changes nothing outside
    `A`. -/
theorem newGroup_among (ts : List TRef) (h : Heap) (ch : ClassChain h ts) (hne : ts ≠ [])
    (al : AlignedTiers h ts) {L A : Ref → Prop} (td : TidyOn L h) (hL : ∀ x ∈ entriesOf h ts, L x)
    (hA : ∀ x ∈ entriesOf h ts, A x) (hcl : ∀ v x, h.sup x = some v → (A v ↔ A x)) :
    ∃ h', newGroup ts h = .ok h.nG h' ∧ h'.gtiers = upd h.gtiers h.nG ts ∧ h'.nG = h.nG + 1 ∧
      RelatedByContainment h' ts ∧ SameContents h h' ∧
      ((∀ v ∈ entriesOf h ts, ∀ x ∈ (h.subs v).vals, L x → x ∈ entriesOf h ts) → TidyOn L h') ∧ Apart h h' A ∧
      h'.nT = h.nT ∧ h'.tsup = h.tsup ∧ h'.tsub = h.tsub ∧ h'.agroups = h.agroups ∧
      (∀ v x, x ∈ (h'.subs v).vals → x ∈ (h.subs v).vals ∧ x ∉ entriesOf h ts ∨
        v ∈ entriesOf h ts ∧ x ∈ entriesOf h ts) ∧
      (∀ v x, h'.sup x = some v → h.sup x = some v ∧ x ∉ entriesOf h ts ∨ v ∈ entriesOf h ts ∧ x ∈ entriesOf h ts) ∧
      (∀ x, x ∉ entriesOf h ts → h'.sup x = h.sup x) ∧
      ∀ g, g ≠ h.nG → h'.gpoint g = h.gpoint g := by
  obtain ⟨h0, e0⟩ : ∃ h0, newGroupObj false h = .ok h.nG h0 := ⟨_, rfl⟩
  have f0 : h0 = { h with nG := h.nG + 1, gtiers := upd h.gtiers h.nG [], gcont := h0.gcont,
                          gpoint := upd h.gpoint h.nG false, gwithin := h0.gwithin } := by
    unfold newGroupObj at e0
    simp only [Res.ok.injEq] at e0
    rw [← e0.2]
  obtain ⟨b, hb⟩ := (ch.congr (h' := h0) (by rw [f0]) (by rw [f0]) (by rw [f0]) (by rw [f0])).arrange
    (List.Perm.refl ts) hne
  have al0 : AlignedTiers h0 ts :=
    al.congr (by rw [f0]) (by rw [f0]) (by rw [f0]) (by rw [f0]) (by rw [f0]) (by rw [f0]) (by rw [f0])
  have td0 : TidyOn L h0 :=
    td.congr (by rw [f0]) (by rw [f0]) (by rw [f0]) (by rw [f0]) (by rw [f0]) (by rw [f0]) (by rw [f0])
  have hE : entriesOf h0 ts = entriesOf h ts := by rw [f0]; rfl
  have hC : chainPairs h0 ts = chainPairs h ts := chainPairs_congr (by rw [f0]) (by rw [f0]) (by rw [f0]) ts
  obtain ⟨h1, h', e, f, r⟩ := groupInit_run h.nG ts ts false b h0 hb (fun _ ht => ht) al0 td0 (by rw [hE]; exact hL)
  obtain ⟨h2, e', g1, s, r', -, htd⟩ := groupInit_related h.nG ts ts false b h0 hb (fun _ ht => ht) al0 td0 (by rw [hE]; exact hL)
  have hh : h2 = h' := by
    rw [e] at e'
    injection e' with _ q
    exact q.symm
  subst hh
  rw [hE] at f
  rw [hC] at r
  have q0 := seated_frame h0 h.nG ts b
  have hup : ∀ p ∈ chainPairs h ts, p.1 ∈ entriesOf h ts := by
    intro p hp
    obtain ⟨i, t, t', g1, g2, g3, g4⟩ := mem_chainPairs hp
    exact mem_entriesOf.mpr ⟨t, List.mem_of_getElem? g1, g3⟩
  have hlo : ∀ p ∈ chainPairs h ts, ∀ x ∈ p.2, x ∈ entriesOf h ts := by
    intro p hp x hx
    obtain ⟨i, t, t', g1, g2, g3, g4⟩ := mem_chainPairs hp
    rw [g4] at hx
    exact mem_entriesOf.mpr ⟨t', List.mem_of_getElem? g2, (List.mem_filter.mp hx).1⟩
  have hsub0 : (seated h0 h.nG ts b).subs = h.subs := by rw [q0, f0]
  have hsup0 : (seated h0 h.nG ts b).sup = h.sup := by rw [q0, f0]
  have hoU : ∀ v, ¬ A v → h2.subs v = h1.subs v ∧ h2.cont v = h1.cont v := fun v hv =>
    r.otherUpper v fun p hp e => hv (hA v (e ▸ hup p hp))
  have hoL0 := fun x (hx : x ∉ entriesOf h ts) => r.otherLower x fun p hp e => hx (hlo p hp x e)
  have hoL := fun x (hx : ¬ A x) => hoL0 x fun e => hx (hA x e)
  have hlinks : ∀ x, ¬ A x → h1.fol x = h.fol x ∧ h1.prev x = h.prev x := by
    intro x hx
    have := f.links x (by
      intro v hv y hy hyE
      rw [hsub0] at hy
      rw [hsup0] at hv
      exact hx ((hcl v x hv).mp ((hcl v y (td.down v y hy)).mpr (hA y hyE))))
    rw [this.1, this.2, q0, f0]
    exact ⟨rfl, rfl⟩
  refine ⟨h2, ?_, ?_, ?_, r', ?_, ?_, ⟨?_, ?_, ?_, ?_, ?_, ?_⟩, ?_, ?_, ?_, ?_, ?_, ?_, ?_, ?_⟩
  · unfold newGroup
    mstep e0
    mstep e
    rfl
  · rw [g1, f0]
    exact upd_upd _ _ _ _
  · rw [r.frame, f.frame, q0, f0]
  · constructor
    · rw [s.start, f0]
    · rw [s.stop, f0]
    · rw [s.label, f0]
    · rw [s.cls, f0]
    · rw [s.nE, f0]
    · rw [s.tseq, f0]
    · rw [s.tcls, f0]
    · rw [s.tname, f0]
    · rw [s.ct, f0]
  · intro q
    apply htd
    rw [hC, hE]
    intro p hp x hx
    rw [show h0.subs = h.subs by rw [f0]] at hx
    exact q p.1 (hup p hp) x hx
  · intro v hv
    rw [(hoU v hv).1, f.subs, hsub0]
    simp only
    rw [List.filter_eq_self]
    intro y hy
    have : y ∉ entriesOf h ts := fun hy' => hv ((hcl v y (td.down v y hy)).mpr (hA y hy'))
    simpa using this
  · intro x hx
    rw [(hoL x hx).1, f.sup, if_neg (fun e => hx (hA x e)), hsup0]
  · intro x hx
    rw [(hoL x hx).2.1, f.within, if_neg (fun q => hx (hA x q.1)), q0, f0]
  · intro x hx
    rw [(hoU x hx).2, f.frame, q0, f0]
  · intro x hx
    rw [(hoL x hx).2.2.1, (hlinks x hx).1]
  · intro x hx
    rw [(hoL x hx).2.2.2, (hlinks x hx).2]
  · rw [r.frame, f.frame, q0, f0]
  · rw [r.frame, f.frame, q0, f0]
  · rw [r.frame, f.frame, q0, f0]
  · rw [r.frame, f.frame, q0, f0]
  · intro v x hx
    by_cases hv : ∃ p ∈ chainPairs h ts, p.1 = v
    · obtain ⟨p, hp, rfl⟩ := hv
      rw [r.subs p hp] at hx
      exact Or.inr ⟨hup p hp, hlo p hp x hx⟩
    · rw [(r.otherUpper v (fun p hp e => hv ⟨p, hp, e⟩)).1, f.subs, hsub0] at hx
      have := List.mem_filter.mp hx
      exact Or.inl ⟨this.1, by simpa using this.2⟩
  · intro v x hx
    by_cases hl : ∃ p ∈ chainPairs h ts, x ∈ p.2
    · obtain ⟨p, hp, hxp⟩ := hl
      rw [(r.sup p hp x hxp).1] at hx
      cases hx
      exact Or.inr ⟨hup p hp, hlo p hp x hxp⟩
    · rw [(r.otherLower x (fun p hp hh => hl ⟨p, hp, hh⟩)).1, f.sup] at hx
      by_cases hE' : x ∈ entriesOf h ts
      · rw [if_pos hE'] at hx; cases hx
      · rw [if_neg hE', hsup0] at hx
        exact Or.inl ⟨hx, hE'⟩
  · intro x hx
    rw [(hoL0 x hx).1, f.sup, if_neg hx, hsup0]
  · intro g hg
    rw [r.frame, f.frame, q0, f0]
    exact upd_ne _ _ _ _ hg

theorem newGroup_apart (ts : List TRef) (h : Heap) (ch : ClassChain h ts) (hne : ts ≠ [])
    (al : AlignedTiers h ts) (td : Tidy h)
    (hcl : ∀ v x, x ∈ (h.subs v).vals → (v ∈ entriesOf h ts ↔ x ∈ entriesOf h ts)) :
    ∃ h', newGroup ts h = .ok h.nG h' ∧ h'.gtiers = upd h.gtiers h.nG ts ∧ h'.nG = h.nG + 1 ∧
      RelatedByContainment h' ts ∧ SameContents h h' ∧ Tidy h' ∧ Apart h h' (· ∈ entriesOf h ts) ∧
      h'.nT = h.nT ∧ h'.tsup = h.tsup ∧ h'.tsub = h.tsub ∧ h'.agroups = h.agroups ∧
      (∀ v x, x ∈ (h'.subs v).vals → x ∈ (h.subs v).vals ∨ v ∈ entriesOf h ts ∧ x ∈ entriesOf h ts) ∧
      ∀ g, g ≠ h.nG → h'.gpoint g = h.gpoint g := by
  obtain ⟨h', e, c1, c2, c3, c4, c5, c6, c7, c8, c9, c10, c11, -, -, c12⟩ := newGroup_among ts h ch hne al
    (td.on fun _ => True) (fun _ _ => trivial) (fun _ hx => hx) (fun v x hx => hcl v x ((td.agree v x).mpr hx))
  exact ⟨h', e, c1, c2, c3, c4, (c5 fun v hv x hx _ => (hcl v x hx).mp hv).tidy fun _ => trivial, c6, c7, c8, c9, c10,
    fun v x hx => (c11 v x hx).imp And.left id, c12⟩

end ATG
