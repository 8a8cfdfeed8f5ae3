import Verif.Lemmas.WorkInv
/-!
# Fusing two intervals of a textgrid keeps it workable
-/
namespace ATG

theorem flatten_sublist {α β} {f g : α → List β} : ∀ {l : List α}, (∀ t ∈ l, (f t).Sublist (g t)) →
    (l.map f).flatten.Sublist (l.map g).flatten
  | [], _ => List.Sublist.refl _
  | a :: l, h => by
    rw [List.map_cons, List.map_cons, List.flatten_cons, List.flatten_cons]
    exact (h a (by simp)).append (flatten_sublist fun t ht => h t (by simp [ht]))

theorem joined_get {α} (A B : List α) (a b : α) (i : Nat) :
    (A ++ a :: B)[i]? = (A ++ a :: b :: B)[if i ≤ A.length then i else i + 1]? := by
  by_cases q : i < A.length
  · rw [if_pos (by omega), List.getElem?_append_left q, List.getElem?_append_left q]
  · by_cases q' : i = A.length
    · subst q'; simp
    · rw [if_neg (by omega), List.getElem?_append_right (by omega), List.getElem?_append_right (by omega)]
      obtain ⟨m, rfl⟩ : ∃ m, i = A.length + (m + 1) := ⟨i - A.length - 1, by omega⟩
      rw [show A.length + (m + 1) - A.length = m + 1 by omega, show A.length + (m + 1) + 1 - A.length = m + 2 by omega]
      simp

/-- what fusing the neighbours `c` and `d`, of which `a` stays and `b` goes, does to the entries, the tiers and the rest -/
structure FuseStep (L : Ref → Prop) (h h3 : Heap) (t : TRef) (A : List Ref) (a b c d : Ref) (B : List Ref) (lab : String) : Prop where
  role : Role a b c d
  fused : Fused L h h3 a b c d lab
  after : TierAfter h h3 a b t A B (upd h.fol a (h.fol d)) (upd h.prev a (h.prev c))

theorem FuseSpot.mem {h : Heap} {g : GRef} {j : Nat} {t : TRef} {A B : List Ref} {a b c d : Ref} (fs : FuseSpot h g j t A c d B)
    (hr : Role a b c d) : a ∈ (h.tseq t).vals ∧ b ∈ (h.tseq t).vals := by
  rw [fs.list]
  rcases hr with ⟨rfl, rfl⟩ | ⟨rfl, rfl⟩ <;> simp

theorem FuseSpot.stays {h : Heap} {g : GRef} {j : Nat} {t : TRef} {A B : List Ref} {a b c d : Ref} (fs : FuseSpot h g j t A c d B)
    (hr : Role a b c d) {x : Ref} (hx : x ∈ A ++ a :: B) : x ∈ (h.tseq t).vals := by
  rw [fs.list]
  simp only [List.mem_append, List.mem_cons] at hx ⊢
  rcases hr with ⟨rfl, rfl⟩ | ⟨rfl, rfl⟩ <;> grind

theorem FuseSpot.sups {h : Heap} {g : GRef} {j : Nat} {t : TRef} {A B : List Ref} {a b c d : Ref} (fs : FuseSpot h g j t A c d B)
    (hr : Role a b c d) (r : RelatedByContainment h (h.gtiers g)) : h.sup a = h.sup b := by
  have := fs.sup r
  rcases hr with ⟨rfl, rfl⟩ | ⟨rfl, rfl⟩
  · exact this
  · exact this.symm

theorem FuseStep.joined {L : Ref → Prop} {h h3 : Heap} {t : TRef} {A B : List Ref} {a b c d : Ref} {lab : String}
    (s : FuseStep L h h3 t A a b c d B lab) : JoinedAt h h3 a c d := by
  exact ⟨s.fused.start, s.fused.stop, fun r hr => (s.fused.values r hr).1, fun r hr => (s.fused.values r hr).2.1⟩

theorem FuseStep.mem_new {L : Ref → Prop} {h h3 : Heap} {t : TRef} {A B : List Ref} {a b c d : Ref} {lab : String}
    (s : FuseStep L h h3 t A a b c d B lab) (z : Ref) :
    z ∈ (h3.subs a).vals ↔ z ∈ (h.subs a).vals ∨ z ∈ (h.subs b).vals := by
  rw [s.fused.subs, List.mem_append]
  rcases s.role with ⟨rfl, rfl⟩ | ⟨rfl, rfl⟩
  · exact Iff.rfl
  · exact Or.comm

theorem FuseStep.new_sup {L : Ref → Prop} {h h3 : Heap} {t : TRef} {A B : List Ref} {a b c d : Ref} {lab : String}
    (s : FuseStep L h h3 t A a b c d B lab) (td : TidyOn L h) {z : Ref} (hz : z ∈ (h3.subs a).vals) :
    h.sup z = some a ∨ h.sup z = some b :=
  ((s.mem_new z).mp hz).imp (td.down a z) (td.down b z)

/-- the subset lists afterwards -/
theorem FuseStep.mem {L : Ref → Prop} {h h3 : Heap} {t : TRef} {A B : List Ref} {a b c d : Ref} {lab : String}
    (s : FuseStep L h h3 t A a b c d B lab) (td : TidyOn L h) (hs : h.sup a = h.sup b) (v x : Ref) :
    x ∈ (h3.subs v).vals ↔ v = a ∧ (x ∈ (h.subs a).vals ∨ x ∈ (h.subs b).vals) ∨
      v ≠ a ∧ v ≠ b ∧ x ≠ b ∧ x ∈ (h.subs v).vals := by
  by_cases ha : v = a
  · subst ha; rw [s.mem_new]; simp
  · by_cases hb : v = b
    · subst hb; rw [s.fused.emptied]; simp [ha]
    · by_cases hv : h.sup a = some v
      · rw [s.fused.super v hv, (td.nodup v).mem_erase_iff]; simp [ha, hb]
      · rw [s.fused.others v ha hb hv]
        simp only [ha, hb, false_and, false_or, ne_eq, not_false_iff, true_and]
        refine ⟨fun q => ⟨?_, q⟩, And.right⟩
        rintro rfl
        exact hv (hs.trans (td.down v x q))

/-- the superset of an entry afterwards -/
theorem FuseStep.sup {L : Ref → Prop} {h h3 : Heap} {t : TRef} {A B : List Ref} {a b c d : Ref} {lab : String}
    (s : FuseStep L h h3 t A a b c d B lab) (td : TidyOn L h) (z v : Ref) (hL : L z) : h3.sup z = some v ↔
      z ≠ b ∧ (v = a ∧ (h.sup z = some a ∨ h.sup z = some b) ∨ v ≠ b ∧ v ≠ a ∧ h.sup z = some v) := by
  by_cases hb : z = b
  · subst hb; rw [s.fused.out]; simp
  · by_cases hz : z ∈ (h3.subs a).vals
    · have hz' := s.new_sup td hz
      rw [s.fused.sup z hz]
      constructor
      · intro e; cases e; exact ⟨hb, Or.inl ⟨rfl, hz'⟩⟩
      · rintro ⟨-, ⟨rfl, -⟩ | ⟨h1, h2, h3⟩⟩
        · rfl
        · rcases hz' with q | q <;> rw [q] at h3 <;> cases h3
          · exact absurd rfl h2
          · exact absurd rfl h1
    · have hz' : ¬ (h.sup z = some a ∨ h.sup z = some b) := fun q =>
        hz ((s.mem_new z).mpr (q.imp (td.up a z hL) (td.up b z hL)))
      rw [s.fused.sups z hb hz]
      constructor
      · intro e
        refine ⟨hb, Or.inr ⟨?_, ?_, e⟩⟩
        · rintro rfl; exact hz' (Or.inr e)
        · rintro rfl; exact hz' (Or.inl e)
      · rintro ⟨-, ⟨-, q⟩ | ⟨-, -, q⟩⟩
        · exact absurd q hz'
        · exact q

variable {R : ClassTab → List (List CRef) → Prop} [LinkedRows R]

theorem WorkableFor.fuseStep {h : Heap} {gs : List GRef} (wk : WorkableFor R h gs) {g : GRef} (hg : g ∈ gs) {j : Nat} {t : TRef}
    {A B : List Ref} {a b : Ref} (fs : FuseSpot h g j t A a b B) (hc : j = 0 → Strung h (h.gtiers g)) (J : String → String → String)
    (hl : J (h.label a) (h.label b) ≠ "#") :
    ∃ h3, fuseRight J a h = .ok () h3 ∧ FuseStep (OnGroups h gs) h h3 t A a b a b B (J (h.label a) (h.label b)) := by
  obtain ⟨d, n, tn, hf, -⟩ := wk.neighbours hg fs
  have hr : Role a b a b := Or.inl ⟨rfl, rfl⟩
  obtain ⟨-, h2, e2, m⟩ := fuse_merge n hr _ hl (upd h.fol a (h.fol b)) h.prev
  obtain ⟨h3, e3, F, T⟩ := fuse_tier n hr hl tn m
  refine ⟨h3, fuseRight_run J (hf hc) ((wk.fit g hg).label t (List.mem_of_getElem? fs.tier) b (by rw [fs.list]; simp)) e2 e3, hr, F, ?_⟩
  rw [upd_eq_self h.prev a (h.prev a) rfl]; exact T

theorem WorkableFor.fuseStepLeft {h : Heap} {gs : List GRef} (wk : WorkableFor R h gs) {g : GRef} (hg : g ∈ gs) {j : Nat} {t : TRef}
    {A B : List Ref} {a b : Ref} (fs : FuseSpot h g j t A a b B) (hj : j = 0 → Backed h (h.gtiers g)) (J : String → String → String)
    (hl : J (h.label a) (h.label b) ≠ "#") :
    ∃ h3, fuseLeft J b h = .ok () h3 ∧ FuseStep (OnGroups h gs) h h3 t A b a a b B (J (h.label a) (h.label b)) := by
  obtain ⟨d, n, tn, -, -⟩ := wk.neighbours hg fs
  have hp := wk.previous hg fs hj
  have hr : Role b a a b := Or.inr ⟨rfl, rfl⟩
  obtain ⟨-, h2, e2, m⟩ := fuse_merge n hr _ hl h.fol (upd h.prev b (h.prev a))
  obtain ⟨h3, e3, F, T⟩ := fuse_tier n hr hl tn m
  refine ⟨h3, fuseLeft_run J hp ((wk.fit g hg).label t (List.mem_of_getElem? fs.tier) a (by rw [fs.list]; simp)) e2 e3, hr, F, ?_⟩
  rw [upd_eq_self h.fol b (h.fol b) rfl]; exact T

section
variable {L : Ref → Prop} {h h3 : Heap} {gs : List GRef} {g : GRef} {j : Nat} {t : TRef} {A B : List Ref} {a b c d : Ref} {lab : String}

theorem FuseStep.tseqs (s : FuseStep L h h3 t A a b c d B lab) (f : FitGroup h (h.gtiers g)) (fs : FuseSpot h g j t A c d B)
    {i : Nat} {u : TRef} (hi : (h.gtiers g)[i]? = some u) :
    (i = j ∧ u = t ∧ (h.tseq u).vals = A ++ c :: d :: B ∧ (h3.tseq u).vals = A ++ a :: B) ∨
    (i ≠ j ∧ u ≠ t ∧ h3.tseq u = h.tseq u ∧ a ∉ (h.tseq u).vals ∧ b ∉ (h.tseq u).vals) := by
  by_cases q : i = j
  · subst q
    rw [fs.tier] at hi; cases hi
    exact Or.inl ⟨rfl, rfl, fs.list, by rw [s.after.list]⟩
  · have ha := (fs.mem s.role).1
    have hb := (fs.mem s.role).2
    have ne : u ≠ t := by rintro rfl; exact q (f.index hi fs.tier ha ha)
    exact Or.inr ⟨q, ne, s.after.tiers u ne, fun x => q (f.index hi fs.tier x ha), fun x => q (f.index hi fs.tier x hb)⟩

theorem FuseStep.on (s : FuseStep L h h3 t A a b c d B lab) (f : FitGroup h (h.gtiers g)) (fs : FuseSpot h g j t A c d B)
    {i : Nat} {u : TRef} (hi : (h.gtiers g)[i]? = some u) (x : Ref) :
    x ∈ (h3.tseq u).vals ↔ x ∈ (h.tseq u).vals ∧ x ≠ b := by
  obtain ⟨ne, aA, aB, bA, bB⟩ := (fs.sideBySide f).survivor s.role
  rcases s.tseqs f fs hi with ⟨-, -, e1, e2⟩ | ⟨-, -, e, -, hb⟩
  · rw [e1, e2]
    simp only [List.mem_append, List.mem_cons]
    rcases s.role with ⟨rfl, rfl⟩ | ⟨rfl, rfl⟩ <;> grind
  · rw [e]
    exact ⟨fun q => ⟨q, fun e => hb (e ▸ q)⟩, fun q => q.1⟩

theorem FuseStep.onTiers (s : FuseStep L h h3 t A a b c d B lab) (f : FitGroup h (h.gtiers g)) (fs : FuseSpot h g j t A c d B)
    (x : Ref) : OnTiers h3 (h.gtiers g) x ↔ OnTiers h (h.gtiers g) x ∧ x ≠ b := by
  constructor
  · rintro ⟨u, hu, hx⟩
    obtain ⟨i, hi⟩ := List.mem_iff_getElem?.mp hu
    have := (s.on f fs hi x).mp hx
    exact ⟨⟨u, hu, this.1⟩, this.2⟩
  · rintro ⟨⟨u, hu, hx⟩, q⟩
    obtain ⟨i, hi⟩ := List.mem_iff_getElem?.mp hu
    exact ⟨u, hu, (s.on f fs hi x).mpr ⟨hx, q⟩⟩

theorem FuseSpot.inside (fs : FuseSpot h g j t A c d B) (hr : Role a b c d) (r : RelatedByContainment h (h.gtiers g))
    (td : TidyOn L h) (hL : ∀ x, OnTiers h (h.gtiers g) x → L x) {i : Nat}
    {u : TRef} (hi : (h.gtiers g)[i]? = some u) (e : i + 1 = j) {v : Ref} (hv : v ∈ (h.tseq u).vals) :
    (Inside h v c ↔ h.sup a = some v) ∧ (Inside h v d ↔ h.sup a = some v) := by
  subst e
  have es := (r.subs i u t hi fs.tier v hv).1
  have key : ∀ x ∈ (h.tseq t).vals, (Inside h v x ↔ h.sup x = some v) := by
    intro x hx
    have : h.sup x = some v ↔ x ∈ (h.subs v).vals :=
      ⟨td.up v x (hL x ⟨t, List.mem_of_getElem? fs.tier, hx⟩), td.down v x⟩
    rw [this, es, List.mem_filter]
    simp [hx]
  have kc := key c (by rw [fs.list]; simp)
  have kd := key d (by rw [fs.list]; simp)
  have e := fs.sup r
  rcases hr with ⟨rfl, rfl⟩ | ⟨rfl, rfl⟩
  · exact ⟨kc, by rw [e]; exact kd⟩
  · exact ⟨by rw [← e]; exact kc, kd⟩

theorem FuseStep.fit (s : FuseStep L h h3 t A a b c d B lab) (hl : lab ≠ "#") (f : FitGroup h (h.gtiers g))
    (r : RelatedByContainment h (h.gtiers g)) (td : TidyOn L h)
    (hL : ∀ x, OnTiers h (h.gtiers g) x → L x) (fs : FuseSpot h g j t A c d B) : FitGroup h3 (h.gtiers g) := by
  have sb := fs.sideBySide f
  have jd := s.joined
  obtain ⟨ne, aA, aB, bA, bB⟩ := sb.survivor s.role
  have ht := List.mem_of_getElem? fs.tier
  have ec : h3.cls = h.cls := s.fused.classes.1
  have sub : ∀ u ∈ h.gtiers g, (h3.tseq u).vals.Sublist (h.tseq u).vals := by
    intro u hu
    obtain ⟨i, hi⟩ := List.mem_iff_getElem?.mp hu
    rcases s.tseqs f fs hi with ⟨-, -, e1, e2⟩ | ⟨-, -, e, -⟩
    · rw [e1, e2]
      refine (List.Sublist.refl A).append ?_
      rcases s.role with ⟨rfl, rfl⟩ | ⟨rfl, rfl⟩
      · exact List.Sublist.cons₂ _ (List.sublist_cons_self _ _)
      · exact List.sublist_cons_self _ _
    · rw [e]; exact List.Sublist.refl _
  refine ⟨f.once.sublist (flatten_sublist sub), ?_, ?_, ?_, ?_, ?_, ?_, ?_⟩
  · intro u hu x hx
    rw [ec, s.after.frame.1]
    exact f.cls u hu x ((sub u hu).subset hx)
  · intro u hu x hx
    by_cases q : x = a
    · subst q; rw [s.fused.label]; exact hl
    · rw [(s.fused.values x q).2.2]; exact f.label u hu x ((sub u hu).subset hx)
  · intro u hu
    obtain ⟨i, hi⟩ := List.mem_iff_getElem?.mp hu
    rcases s.tseqs f fs hi with ⟨-, -, -, e2⟩ | ⟨-, -, e, ha, -⟩
    · rw [e2]; exact (sb.disjoint' s.role jd).1
    · rw [e]
      refine (f.disjoint u hu).imp_of_mem ?_
      intro x y hx hy q
      rw [jd.others x (fun e => ha (e ▸ hx)), jd.starts y (fun e => ha (e ▸ hy))]; exact q
  · intro u hu
    obtain ⟨i, hi⟩ := List.mem_iff_getElem?.mp hu
    rcases s.tseqs f fs hi with ⟨-, -, -, e2⟩ | ⟨-, -, e, ha, -⟩
    · rw [e2]; exact (sb.disjoint' s.role jd).2
    · rw [e]
      intro x hx
      rw [jd.others x (fun e => ha (e ▸ hx)), jd.starts x (fun e => ha (e ▸ hx))]; exact f.positive u hu x hx
  · intro i u u' hi hi'
    have al := f.aligned i u u' hi hi'
    rcases s.tseqs f fs hi with ⟨q, -, e1, e2⟩ | ⟨q, -, e, ha, -⟩ <;>
    rcases s.tseqs f fs hi' with ⟨q', -, e1', e2'⟩ | ⟨q', -, e', ha', -⟩
    · omega
    · rw [e2, e']
      rw [e1] at al
      exact al.joinUpper sb s.role jd ha' (f.positive u' (List.mem_of_getElem? hi'))
    · rw [e, e2']
      rw [e1'] at al
      exact al.joinLower sb s.role jd ha fun v hv => by
        have := fs.inside s.role r td hL hi q' hv
        exact this.1.trans this.2.symm
    · rw [e, e']
      exact (al.away jd ha ha').1
  · intro v x hx
    have key := f.closed
    show OnTiers h3 _ v ↔ OnTiers h3 _ x
    rw [s.onTiers f fs, s.onTiers f fs]
    have hon : ∀ z, z ∈ (h.tseq t).vals → OnTiers h (h.gtiers g) z := fun z hz => ⟨t, ht, hz⟩
    have ona := hon a (fs.mem s.role).1
    have onb := hon b (fs.mem s.role).2
    have nt : ∀ w, OnTiers h (h.gtiers g) w → h.sup b = some w → w ≠ b := by
      rintro w ⟨u, hu, hw⟩ e rfl
      obtain ⟨i, s', ej, hi, hv, -⟩ := r.above fs.tier (fs.mem s.role).2 e
      have := f.index hi fs.tier hv (fs.mem s.role).2
      omega
    rcases (s.mem td (fs.sups s.role r) v x).mp hx with ⟨rfl, q | q⟩ | ⟨h1, h2, nb, q⟩
    · refine iff_of_true ⟨ona, ne⟩ ⟨(key _ x q).mp ona, ?_⟩
      rintro rfl
      have e := td.down _ _ q
      obtain ⟨i, s', ej, hi, hv, -⟩ := r.above fs.tier (fs.mem s.role).2 e
      have := f.index hi fs.tier hv (fs.mem s.role).1
      omega
    · refine iff_of_true ⟨ona, ne⟩ ⟨(key _ x q).mp onb, ?_⟩
      rintro rfl
      exact nt _ onb (td.down _ _ q) rfl
    · have := key v x q
      constructor
      · rintro ⟨p, -⟩; exact ⟨this.mp p, nb⟩
      · rintro ⟨p, -⟩; exact ⟨this.mpr p, h2⟩
  · intro u hu
    have e1 : h3.nT = h.nT := by rw [s.after.rest]
    have e2 : h3.nE = h.nE := by rw [s.after.rest]
    rw [e1, e2]
    exact ⟨(f.old u hu).1, fun x hx => (f.old u hu).2 x ((sub u hu).subset hx)⟩

theorem FuseStep.up (s : FuseStep L h h3 t A a b c d B lab) (f : FitGroup h (h.gtiers g)) (uc : UpClosed h (h.gtiers g))
    (td : TidyOn L h) (hL : ∀ x, OnTiers h (h.gtiers g) x → L x) (fs : FuseSpot h g j t A c d B) : UpClosed h3 (h.gtiers g) := by
  intro v x e hx
  have ne := ((fs.sideBySide f).survivor s.role).1
  rw [s.onTiers f fs] at hx ⊢
  obtain ⟨nb, q⟩ := (s.sup td x v (hL x hx.1)).mp e
  rcases q with ⟨rfl, -⟩ | ⟨h1, -, q⟩
  · exact ⟨⟨t, List.mem_of_getElem? fs.tier, (fs.mem s.role).1⟩, ne⟩
  · exact ⟨uc v x q hx.1, h1⟩

theorem FuseStep.related (s : FuseStep (OnGroups h gs) h h3 t A a b c d B lab) (wk : WorkableFor R h gs) (hg : g ∈ gs)
    (fs : FuseSpot h g j t A c d B) : RelatedByContainment h3 (h.gtiers g) := by
  have f := wk.fit g hg
  have r := wk.rel g hg
  have td := wk.tidy
  have td3 := s.fused.tidy
  have hL : ∀ x, OnTiers h (h.gtiers g) x → OnGroups h gs x := fun x hx => ⟨g, hg, hx⟩
  have sb := fs.sideBySide f
  have jd := s.joined
  obtain ⟨ne, aA, aB, bA, bB⟩ := sb.survivor s.role
  have hat := (fs.mem s.role).1
  have hbt := (fs.mem s.role).2
  -- an entry of the tier `i` that is the superset of `a`
  have supAt : ∀ {i : Nat} {u : TRef} {v : Ref}, (h.gtiers g)[i]? = some u → v ∈ (h.tseq u).vals → h.sup a = some v → i + 1 = j := by
    intro i u v hi hv e
    obtain ⟨i', u', q, hi', hv', -⟩ := r.above fs.tier hat e
    rw [q, f.index hi hi' hv hv']
  -- an entry of a subset list
  have below : ∀ {i : Nat} {u u' : TRef} {v z : Ref}, (h.gtiers g)[i]? = some u → (h.gtiers g)[i + 1]? = some u' →
      v ∈ (h.tseq u).vals → z ∈ (h.subs v).vals → z ∈ (h.tseq u').vals := by
    intro i u u' v z hi hi' hv this
    rw [(r.subs i u u' hi hi' v hv).1] at this
    exact (List.mem_filter.mp this).1
  have notTop : ∀ {i : Nat} {u' : TRef} {z : Ref}, (h.gtiers g)[i + 1]? = some u' → z ∈ (h.tseq u').vals →
      h.tsup t = some cTop → z ∉ A ++ a :: B := by
    intro i u' z hi' hz e hm
    have hzt : z ∈ (h.tseq t).vals := fs.stays s.role hm
    have := f.index hi' fs.tier hz hzt
    subst this
    exact (wk.homed g hg).below i t fs.tier (List.ne_nil_of_mem hat) e
  refine ⟨?_, ?_, ?_, ?_, ?_, ?_⟩
  · intro i u u' hi hi' v hv
    obtain ⟨hv, nb⟩ := (s.on f fs hi v).mp hv
    obtain ⟨eq, nn⟩ := r.subs i u u' hi hi' v hv
    have al := f.aligned i u u' hi hi'
    rcases s.tseqs f fs hi with ⟨q, -, e1, e2⟩ | ⟨q, -, e, ha, -⟩ <;>
    rcases s.tseqs f fs hi' with ⟨q', -, e1', e2'⟩ | ⟨q', -, e', ha', -⟩
    · omega
    · rw [e']
      by_cases hva : v = a
      · subst hva
        obtain ⟨eqc, nc⟩ := r.subs i u u' hi hi' c (by rw [e1]; simp)
        obtain ⟨eqd, -⟩ := r.subs i u u' hi hi' d (by rw [e1]; simp)
        rw [e1] at al
        refine ⟨?_, ?_⟩
        · rw [s.fused.subs, eqc, eqd, filter_upper al sb jd ha' (f.positive u' (List.mem_of_getElem? hi'))]
        · rw [s.fused.subs]; simp [nc]
      · have hs : h.sup a ≠ some v := fun e => by have := supAt hi hv e; omega
        rw [s.fused.others v hva nb hs]
        refine ⟨?_, nn⟩
        rw [eq]
        apply List.filter_congr
        intro x hx
        simp only [jd.inside hva (fun e : x = a => ha' (e ▸ hx))]
    · have hva : v ≠ a := fun e => ha (e ▸ hv)
      obtain ⟨i1, i2⟩ := fs.inside s.role r td hL hi q' hv
      obtain ⟨fe, -, fn⟩ := filter_lower sb s.role jd hva (i1.trans i2.symm)
      rw [e1'] at eq
      rw [e2']
      by_cases hs : h.sup a = some v
      · have es := s.fused.super v hs
        rw [es]
        refine ⟨by rw [fe, eq], ?_⟩
        have : a ∈ (h.subs v).vals.erase b := (List.mem_erase_of_ne ne).mpr (td.up v a (hL a ⟨t, List.mem_of_getElem? fs.tier, hat⟩) hs)
        exact List.ne_nil_of_mem this
      · rw [s.fused.others v hva nb hs]
        exact ⟨by rw [fn (fun q => hs (i1.mp q)), eq], nn⟩
    · have hva : v ≠ a := fun e => ha (e ▸ hv)
      have hs : h.sup a ≠ some v := fun e => by have := supAt hi hv e; omega
      rw [s.fused.others v hva nb hs, e', (al.away jd ha ha').2 v hv]
      exact ⟨eq, nn⟩
  · intro i u u' hi hi' v hv
    obtain ⟨hv, nb⟩ := (s.on f fs hi v).mp hv
    by_cases hva : v = a
    · subst hva; exact s.fused.linked
    · by_cases hs : h.sup a = some v
      · refine s.after.super v ?_ hs
        have := supAt hi hv hs
        subst this
        exact (wk.homed g hg).below i t fs.tier (List.ne_nil_of_mem hat)
      · rw [s.fused.others v hva nb hs]
        have l := r.linked i u u' hi hi' v hv
        have key : ∀ z ∈ (h.subs v).vals, h3.fol z = h.fol z ∧ h3.prev z = h.prev z := by
          intro z hz
          have ez := td.down v z hz
          have nza : z ≠ a := by rintro rfl; exact hs ez
          have := s.after.links z
            (by
              intro q
              rcases s.new_sup td q with q | q <;> rw [ez] at q
              · exact hva (Option.some.inj q)
              · exact nb (Option.some.inj q))
            (notTop hi' (below hi hi' hv hz))
            (by
              intro v' hv' hm
              rcases (s.mem td (fs.sups s.role r) v' z).mp hm with ⟨-, q | q⟩ | ⟨-, -, -, q⟩ <;> have q := td.down _ z q <;> rw [ez] at q
              · exact hva (Option.some.inj q)
              · exact nb (Option.some.inj q)
              · exact hs (hv'.trans q.symm))
          rw [this.1, this.2, upd_ne _ _ _ _ nza, upd_ne _ _ _ _ nza]
          exact ⟨rfl, rfl⟩
        refine ⟨?_, ?_, ?_⟩
        · intro k x y hx hy
          rw [(key x (List.mem_of_getElem? hx)).1, (key y (List.mem_of_getElem? hy)).2]
          exact l.next k x y hx hy
        · intro x hx
          rw [(key x (List.mem_of_mem_head? hx)).2]; exact l.first x hx
        · intro x hx
          rw [(key x (List.mem_of_getLast? hx)).1]; exact l.last x hx
  · intro i u u' hi hi' v hv x hx
    refine ⟨td3.down v x hx, ?_⟩
    obtain ⟨hv, nb⟩ := (s.on f fs hi v).mp hv
    by_cases hva : v = a
    · subst hva; exact s.fused.within x hx
    · have e3 := td3.down v x hx
      obtain ⟨nxb, hs⟩ : x ≠ b ∧ x ∈ (h.subs v).vals := by
        rcases (s.mem td (fs.sups s.role r) v x).mp hx with ⟨q, -⟩ | ⟨-, -, q⟩
        · exact absurd q hva
        · exact q
      rw [s.after.within x nxb (by
          intro hm
          rw [s.fused.sup x hm] at e3
          exact hva (Option.some.inj e3).symm) (notTop hi' (below hi hi' hv hs))]
      exact (r.sup i u u' hi hi' v hv x hs).2
  · intro i u u' hi hi' x hx
    obtain ⟨hx, nxb⟩ := (s.on f fs hi' x).mp hx
    obtain ⟨v, hv, hm⟩ := r.covered i u u' hi hi' x hx
    by_cases hvab : v = a ∨ v = b
    · have hi2 : i = j := by
        rcases hvab with rfl | rfl
        · exact f.index hi fs.tier hv hat
        · exact f.index hi fs.tier hv hbt
      subst hi2
      rw [fs.tier] at hi; cases hi
      refine ⟨a, (s.on f fs fs.tier a).mpr ⟨hat, ne⟩, (s.mem_new x).mpr ?_⟩
      rcases hvab with rfl | rfl
      · exact Or.inl hm
      · exact Or.inr hm
    · have h1 : v ≠ a := fun q => hvab (Or.inl q)
      have h2 : v ≠ b := fun q => hvab (Or.inr q)
      exact ⟨v, (s.on f fs hi v).mpr ⟨hv, h2⟩, (s.mem td (fs.sups s.role r) v x).mpr (Or.inr ⟨h1, h2, nxb, hm⟩)⟩
  · intro u hi x hx
    obtain ⟨hx, nxb⟩ := (s.on f fs hi x).mp hx
    have e := r.top u hi x hx
    rw [s.fused.sups x nxb (fun q => by rcases s.new_sup td q with q | q <;> rw [e] at q <;> cases q)]
    exact e
  · intro i u u' hi hi' v hv
    obtain ⟨hv, nb⟩ := (s.on f fs hi v).mp hv
    rw [s.after.cont]
    by_cases hva : v = a
    · subst hva; rw [upd_same]
    · rw [upd_ne _ _ _ _ hva]; exact r.contains i u u' hi hi' v hv

theorem FuseStep.homed (s : FuseStep (OnGroups h gs) h h3 t A a b c d B lab) (wk : WorkableFor R h gs) (hg : g ∈ gs)
    (fs : FuseSpot h g j t A c d B) : Homed h3 (h.gtiers g) := by
  have f := wk.fit g hg
  have hm := wk.homed g hg
  have hat := (fs.mem s.role).1
  refine ⟨?_, ?_, ?_, hm.fresh.congr (by rw [s.after.rest]) fun u _ => ⟨by rw [s.after.rest], by rw [s.after.rest], by rw [s.after.rest]⟩⟩
  · intro u hu x hx
    obtain ⟨i, hi⟩ := List.mem_iff_getElem?.mp hu
    obtain ⟨hx, nxb⟩ := (s.on f fs hi x).mp hx
    rcases s.tseqs f fs hi with ⟨-, rfl, -, -⟩ | ⟨q, -, e, ha, -⟩
    · exact s.after.intier x (hm.home _ hu x hx)
    · rw [s.after.intierElse x, hm.home u hu x hx]
      intro hxA
      refine q (f.index hi fs.tier hx ?_)
      exact fs.stays s.role hxA
  · intro i u hi hn
    rw [s.after.frame.2]
    refine hm.below i u hi ?_
    rcases s.tseqs f fs hi with ⟨-, -, e1, -⟩ | ⟨-, -, e, -, -⟩
    · rw [e1]; simp
    · rw [← e]; exact hn
  · intro i u u' hi hi' v hv
    rw [s.after.frame.1]
    obtain ⟨hv', nb⟩ := (s.on f fs hi v).mp hv
    by_cases hva : v = a
    · subst hva
      have nn := ((s.related wk hg fs).subs i u u' hi hi' v hv).2
      rcases s.fused.ecls with e | e
      · exact absurd (by rw [e]; rfl) nn
      · have hij := f.index hi fs.tier hv' hat
        subst hij
        rw [fs.tier] at hi; cases hi
        rw [e, f.cls t (List.mem_of_getElem? fs.tier) c (by rw [fs.list]; simp)]
        have hi := fs.tier
        exact ((wk.toEditableFor.links hg).down i _ _ (by rw [List.getElem?_map, hi]; rfl) (by rw [List.getElem?_map, hi']; rfl)).1
    · rw [s.after.ecls v hva nb]; exact hm.typed i u u' hi hi' v hv'

theorem FuseStep.chained (s : FuseStep (OnGroups h gs) h h3 t A a b c d B lab) (wk : WorkableFor R h gs) (hg : g ∈ gs)
    (fs : FuseSpot h g j t A c d B) (hj : j = 0 → a = c ∧ b = d) (hc : Strung h (h.gtiers g)) : Strung h3 (h.gtiers g) := by
  have f := wk.fit g hg
  have r := wk.rel g hg
  have td := wk.tidy
  obtain ⟨ne, aA, aB, bA, bB⟩ := (fs.sideBySide f).survivor s.role
  have hat := (fs.mem s.role).1
  intro u hu i x hx
  rcases s.tseqs f fs hu with ⟨q, rfl, e1, e2⟩ | ⟨q, nut, e, ha, -⟩
  · subst q
    obtain ⟨rfl, rfl⟩ := hj rfl
    by_cases ht : h.tsup u = some cTop
    · have := s.after.top ht
      rw [e2] at hx ⊢
      exact ⟨this.right hx, s.after.rooted ht x (List.mem_of_getElem? hx)⟩
    · have e0 : h.sup a = none := r.top u hu a hat
      have hxm : x ∈ (h3.tseq u).vals := List.mem_of_getElem? hx
      have hx0 := r.top u hu x ((s.on f fs hu x).mp hxm).1
      have hns : x ∉ (h3.subs a).vals := fun q => by rcases s.new_sup td q with q | q <;> rw [hx0] at q <;> cases q
      have hxt := (s.on f fs hu x).mp hxm
      refine ⟨?_, Eq.trans (s.after.within x hxt.2 hns fun q => absurd q ht) (hc.rooted u hu x hxt.1)⟩
      rw [(s.after.plain ht e0 x hns).1]
      rw [e2, joined_get A B a b] at hx ⊢
      have ch := hc u hu
      rw [e1] at ch
      by_cases h1 : i < A.length
      · rw [if_pos (by omega)] at hx
        rw [if_pos (by omega)]
        rw [upd_ne _ _ _ _ (by
          rintro rfl
          rw [List.getElem?_append_left h1] at hx
          exact aA (List.mem_of_getElem? hx))]
        exact (ch i x hx).1
      · rw [if_neg (by omega)]
        by_cases h2 : i = A.length
        · subst h2
          rw [if_pos (by omega)] at hx
          have : x = a := by simpa using hx.symm
          subst this
          rw [upd_same]
          exact (ch (A.length + 1) b (by simp)).1
        · rw [if_neg (by omega)] at hx
          rw [upd_ne _ _ _ _ (by
            rintro rfl
            rw [List.getElem?_append_right (by omega)] at hx
            obtain ⟨m, rfl⟩ : ∃ m, i = A.length + (m + 1) := ⟨i - A.length - 1, by omega⟩
            rw [show A.length + (m + 1) + 1 - A.length = m + 2 by omega] at hx
            exact aB (List.mem_of_getElem? (by simpa using hx)))]
          exact (ch (i + 1) x hx).1
  · rw [e] at hx ⊢
    have hxm := List.mem_of_getElem? hx
    have hx0 := r.top u hu x hxm
    have hns : x ∉ (h3.subs a).vals := fun q => by rcases s.new_sup td q with q | q <;> rw [hx0] at q <;> cases q
    have hnA : x ∉ A ++ a :: B := fun hxA => q (f.index hu fs.tier hxm (fs.stays s.role hxA))
    have := s.after.links x hns (fun _ => hnA)
      (by
        intro v hv hmv
        rcases (s.mem td (fs.sups s.role r) v x).mp hmv with ⟨-, q | q⟩ | ⟨-, -, -, q⟩ <;> have q := td.down _ x q <;> rw [hx0] at q <;>
          cases q)
    rw [this.1, upd_ne _ _ _ _ (fun q : x = a => ha (q ▸ hxm)), s.after.within x (fun e => q (f.index hu fs.tier hxm (by
      rw [e]; exact (fs.mem s.role).2))) hns (fun _ => hnA)]
    exact hc u hu i x hx

theorem joined_get' (A B : List Ref) (a b : Ref) (i : Nat) :
    (A ++ a :: B)[i]? = (A ++ b :: a :: B)[if i < A.length then i else i + 1]? := by
  by_cases q : i < A.length
  · rw [if_pos q, List.getElem?_append_left q, List.getElem?_append_left q]
  · rw [if_neg q, List.getElem?_append_right (by omega), List.getElem?_append_right (by omega)]
    obtain ⟨m, rfl⟩ : ∃ m, i = A.length + m := ⟨i - A.length, by omega⟩
    rw [show A.length + m - A.length = m by omega, show A.length + m + 1 - A.length = m + 1 by omega]
    rfl

theorem FuseStep.backed (s : FuseStep (OnGroups h gs) h h3 t A a b c d B lab) (wk : WorkableFor R h gs) (hg : g ∈ gs)
    (fs : FuseSpot h g j t A c d B) (hj : j = 0 → a = d ∧ b = c) (hc : Backed h (h.gtiers g)) : Backed h3 (h.gtiers g) := by
  have f := wk.fit g hg
  have r := wk.rel g hg
  have td := wk.tidy
  obtain ⟨ne, aA, aB, bA, bB⟩ := (fs.sideBySide f).survivor s.role
  have hat := (fs.mem s.role).1
  intro u hu i x hx
  rcases s.tseqs f fs hu with ⟨q, rfl, e1, e2⟩ | ⟨q, nut, e, ha, -⟩
  · subst q
    obtain ⟨rfl, rfl⟩ := hj rfl
    by_cases ht : h.tsup u = some cTop
    · have := s.after.top ht
      rw [e2] at hx ⊢
      exact this.left hx
    · have e0 : h.sup a = none := r.top u hu a hat
      have hxm : x ∈ (h3.tseq u).vals := List.mem_of_getElem? hx
      have hx0 := r.top u hu x ((s.on f fs hu x).mp hxm).1
      have hns : x ∉ (h3.subs a).vals := fun q => by rcases s.new_sup td q with q | q <;> rw [hx0] at q <;> cases q
      rw [(s.after.plain ht e0 x hns).2]
      have ch := hc u hu
      rw [e1] at ch
      rw [e2] at hx ⊢
      have old := hx
      rw [joined_get' A B a b] at old
      by_cases h1 : i < A.length
      · rw [if_pos h1] at old
        rw [upd_ne _ _ _ _ (by
          rintro rfl
          rw [List.getElem?_append_left h1] at old
          exact aA (List.mem_of_getElem? old)), ch i x old]
        match i, h1 with
        | 0, _ => rfl
        | i + 1, h1 =>
          show some ((A ++ b :: a :: B)[i]?.elim Link.bumper Link.obj) = some ((A ++ a :: B)[i]?.elim Link.bumper Link.obj)
          rw [List.getElem?_append_left (by omega), List.getElem?_append_left (by omega)]
      · rw [if_neg h1] at old
        by_cases h2 : i = A.length
        · subst h2
          have : x = a := by simpa using hx.symm
          subst this
          rw [upd_same, ch A.length b (by simp)]
          cases hA : A.length with
          | zero => rfl
          | succ m =>
            show some ((A ++ b :: x :: B)[m]?.elim Link.bumper Link.obj) = some ((A ++ x :: B)[m]?.elim Link.bumper Link.obj)
            rw [List.getElem?_append_left (by omega), List.getElem?_append_left (by omega)]
        · obtain ⟨m, rfl⟩ : ∃ m, i = A.length + m + 1 := ⟨i - A.length - 1, by omega⟩
          rw [upd_ne _ _ _ _ (by
            rintro rfl
            rw [List.getElem?_append_right (by omega), show A.length + m + 1 + 1 - A.length = m + 2 by omega] at old
            exact aB (List.mem_of_getElem? (by simpa using old))), ch _ x old]
          show some ((A ++ b :: a :: B)[A.length + m + 1]?.elim Link.bumper Link.obj) =
            some ((A ++ a :: B)[A.length + m]?.elim Link.bumper Link.obj)
          rw [joined_get' A B a b (A.length + m), if_neg (by omega)]
  · rw [e] at hx ⊢
    have hxm := List.mem_of_getElem? hx
    have hx0 := r.top u hu x hxm
    have hns : x ∉ (h3.subs a).vals := fun q => by rcases s.new_sup td q with q | q <;> rw [hx0] at q <;> cases q
    have hnA : x ∉ A ++ a :: B := fun hxA => q (f.index hu fs.tier hxm (fs.stays s.role hxA))
    have := s.after.links x hns (fun _ => hnA)
      (by
        intro v hv hmv
        rcases (s.mem td (fs.sups s.role r) v x).mp hmv with ⟨-, q | q⟩ | ⟨-, -, -, q⟩ <;> have q := td.down _ x q <;> rw [hx0] at q <;>
          cases q)
    rw [this.2, upd_ne _ _ _ _ (fun q : x = a => ha (q ▸ hxm))]
    exact hc u hu i x hx

/-- the other groups -/
theorem FuseStep.unmoved (s : FuseStep (OnGroups h gs) h h3 t A a b c d B lab) (wk : WorkableFor R h gs) (hg : g ∈ gs)
    (fs : FuseSpot h g j t A c d B) {g' : GRef} (hg' : g' ∈ gs) (hne : g' ≠ g) :
    Unmoved h h3 (h.gtiers g') ∧ (∀ x, OnTiers h (h.gtiers g') x → h3.intier x = h.intier x ∧ (h3.subs x).ecls = (h.subs x).ecls) ∧
    FitGroup h3 (h.gtiers g') ∧ UpClosed h3 (h.gtiers g') ∧ RelatedByContainment h3 (h.gtiers g') := by
  have f := wk.fit g hg
  have r := wk.rel g hg
  have td := wk.tidy
  have ht := List.mem_of_getElem? fs.tier
  have hat := (fs.mem s.role).1
  have hbt := (fs.mem s.role).2
  have far : ∀ x, OnTiers h (h.gtiers g') x → ¬ OnTiers h (h.gtiers g) x := fun x hx => wk.toEditableFor.apart hg' hg hne hx
  have nt : ∀ u ∈ h.gtiers g', u ≠ t := by
    rintro u hu rfl
    exact far a ⟨u, hu, hat⟩ ⟨u, ht, hat⟩
  have na : ∀ x, OnTiers h (h.gtiers g') x → x ≠ a := fun x hx e => far x hx ⟨t, ht, e ▸ hat⟩
  have nb : ∀ x, OnTiers h (h.gtiers g') x → x ≠ b := fun x hx e => far x hx ⟨t, ht, e ▸ hbt⟩
  have nsup : ∀ x, OnTiers h (h.gtiers g') x → h.sup x ≠ some a ∧ h.sup x ≠ some b := by
    intro x hx
    constructor <;> intro e
    · exact far x hx ((f.closed a x (td.up a x ⟨g', hg', hx⟩ e)).mp ⟨t, ht, hat⟩)
    · exact far x hx ((f.closed b x (td.up b x ⟨g', hg', hx⟩ e)).mp ⟨t, ht, hbt⟩)
  have nsub : ∀ x, OnTiers h (h.gtiers g') x → x ∉ (h3.subs a).vals := by
    intro x hx hm
    have := nsup x hx
    rcases s.new_sup td hm with q | q
    · exact this.1 q
    · exact this.2 q
  have supa : ∀ x, OnTiers h (h.gtiers g') x → h.sup a ≠ some x := by
    intro x hx e
    exact far x hx (wk.up g hg x a e ⟨t, ht, hat⟩)
  have nA : ∀ x, OnTiers h (h.gtiers g') x → x ∉ A ++ a :: B := by
    intro x hx hxA
    refine far x hx ⟨t, ht, ?_⟩
    exact fs.stays s.role hxA
  have esup : ∀ x, OnTiers h (h.gtiers g') x → h3.sup x = h.sup x := fun x hx => s.fused.sups x (nb x hx) (nsub x hx)
  have m : Unmoved h h3 (h.gtiers g') := by
    refine ⟨fun u hu => s.after.tiers u (nt u hu), fun u _ => by rw [s.after.frame.1], fun u _ => by rw [s.after.rest], ?_, ?_⟩
    · intro u hu x hx
      obtain ⟨v1, v2, v3⟩ := s.fused.values x (na x ⟨u, hu, hx⟩)
      exact ⟨v1, v2, v3, by rw [s.fused.classes.1]⟩
    · intro u hu x hx
      have hx' : OnTiers h (h.gtiers g') x := ⟨u, hu, hx⟩
      obtain ⟨l1, l2⟩ := s.after.links x (nsub x hx') (fun _ => nA x hx') (by
        intro v hv hm
        have q : x ∈ (h.subs v).vals := by
          rcases (s.mem td (fs.sups s.role r) v x).mp hm with ⟨-, q | q⟩ | ⟨-, -, -, q⟩
          · exact absurd (td.down _ x q) (nsup x hx').1
          · exact absurd (td.down _ x q) (nsup x hx').2
          · exact q
        exact far x hx' ((f.closed v x q).mp (wk.up g hg v a hv ⟨t, ht, hat⟩)))
      refine ⟨s.fused.others x (na x hx') (nb x hx') (supa x hx'), esup x hx', s.after.within x (nb x hx') (nsub x hx') (fun _ => nA x hx'),
        by rw [s.after.cont, upd_ne _ _ _ _ (na x hx')], by rw [l1, upd_ne _ _ _ _ (na x hx')],
        by rw [l2, upd_ne _ _ _ _ (na x hx')]⟩
  refine ⟨m, fun x hx => ⟨s.after.intierElse x (nA x hx), s.after.ecls x (na x hx) (nb x hx)⟩, ?_⟩
  refine wk.toEditableFor.kept hg' m (by rw [s.after.rest]; exact Nat.le_refl _) (by rw [s.after.rest]; exact Nat.le_refl _) ?_ ?_
  · intro v x hx
    rcases (s.mem td (fs.sups s.role r) v x).mp hx with ⟨rfl, q⟩ | ⟨-, -, -, q⟩
    · refine Or.inr ⟨fun p => na _ p rfl, fun p => ?_⟩
      rcases q with q | q
      · exact (nsup x p).1 (td.down _ x q)
      · exact (nsup x p).2 (td.down _ x q)
    · exact Or.inl q
  · intro v x hx
    by_cases q : OnTiers h (h.gtiers g') x
    · rw [esup x q] at hx; exact Or.inl hx
    · exact Or.inr q

theorem FuseStep.workable (s : FuseStep (OnGroups h gs) h h3 t A a b c d B lab) (hl : lab ≠ "#") (wk : WorkableFor R h gs) (hg : g ∈ gs)
    (fs : FuseSpot h g j t A c d B) : WorkableFor R h3 gs := by
  have f := wk.fit g hg
  have td := wk.tidy
  have td3 := s.fused.tidy
  have eg : h3.gtiers = h.gtiers := by rw [s.after.rest]
  have enT : h3.nT = h.nT := by rw [s.after.rest]
  have enE : h3.nE = h.nE := by rw [s.after.rest]
  have enG : h3.nG = h.nG := by rw [s.after.rest]
  have ect : h3.ct = h.ct := s.fused.classes.2
  have etc : h3.tcls = h.tcls := s.after.frame.1
  have hat := (fs.mem s.role).1
  have ht := List.mem_of_getElem? fs.tier
  have hsub : ∀ g' ∈ gs, ∀ u ∈ h.gtiers g', ∀ x ∈ (h3.tseq u).vals, x ∈ (h.tseq u).vals := by
    intro g' hg' u hu x hx
    by_cases q : g' = g
    · subst q
      obtain ⟨i, hi⟩ := List.mem_iff_getElem?.mp hu
      exact ((s.on f fs hi x).mp hx).1
    · rw [((s.unmoved wk hg fs hg' q).1).tseq u hu] at hx; exact hx
  have subOld : ∀ v x, h3.sup x = some v → v < h.nE ∧ x < h.nE := by
    intro v x e
    by_cases hx : x ∈ (h3.subs a).vals
    · rw [s.fused.sup x hx] at e
      cases e
      refine ⟨(f.old t ht).2 _ hat, ?_⟩
      rcases s.new_sup td hx with q | q
      · exact (wk.allocUp _ x q).2
      · exact (wk.allocUp _ x q).2
    · by_cases hb : x = b
      · subst hb; rw [s.fused.out] at e; cases e
      · rw [s.fused.sups x hb hx] at e
        exact wk.allocUp v x e
  refine ⟨⟨by rw [ect]; exact wk.wfc, wk.nodup, ?_, ?_, ?_, ?_, ?_, ?_, ?_, ?_, ?_⟩, ?_, ?_,
    by rw [s.after.rest]; exact wk.gpoint⟩
  · intro g' hg'
    rw [eg, enG, enT, enE]
    refine ⟨(wk.old g' hg').1, fun u hu => ⟨((wk.old g' hg').2 u hu).1, fun x hx => ((wk.old g' hg').2 u hu).2 x (hsub g' hg' u hu x hx)⟩⟩
  · intro g1 h1 g2 h2 hn u hu x hx u' hu' hx'
    rw [eg] at hu hu'
    exact wk.sep g1 h1 g2 h2 hn u hu x (hsub g1 h1 u hu x hx) u' hu' (hsub g2 h2 u' hu' x hx')
  · refine td3.mono ?_
    rintro x ⟨g', hg', u, hu, hx⟩
    rw [eg] at hu
    exact ⟨g', hg', u, hu, hsub g' hg' u hu x hx⟩
  · intro v x hx
    rw [enE]; exact subOld v x (td3.down v x hx)
  · intro v x e
    rw [enE]; exact subOld v x e
  · intro g' hg'
    rw [eg]
    by_cases q : g' = g
    · subst q; exact s.fit hl f (wk.rel g' hg) td (fun x hx => ⟨g', hg, hx⟩) fs
    · exact (s.unmoved wk hg fs hg' q).2.2.1
  · intro g' hg'
    rw [eg]
    by_cases q : g' = g
    · subst q; exact s.up f (wk.up g' hg) td (fun x hx => ⟨g', hg, hx⟩) fs
    · exact (s.unmoved wk hg fs hg' q).2.2.2.1
  · intro g' hg'
    rw [eg]
    by_cases q : g' = g
    · subst q; exact s.related wk hg fs
    · exact (s.unmoved wk hg fs hg' q).2.2.2.2
  · rw [eg, ect, etc]; exact wk.rows
  · intro g' hg'
    rw [eg]
    by_cases q : g' = g
    · subst q; exact s.homed wk hg fs
    · have := s.unmoved wk hg fs hg' q
      exact (wk.homed g' hg').unmoved this.1 (fun _ _ _ => by rw [s.after.frame.2]) this.2.1
        ((wk.homed g' hg').fresh.congr (by rw [s.after.rest]) fun u _ => ⟨by rw [s.after.rest], by rw [s.after.rest], by rw [s.after.rest]⟩)
  · intro g' hg'
    rw [eg, ect, etc]; exact wk.interval g' hg'

end

end ATG
