import Verif.Lemmas.GroupFill
/-!
# Cleaning up a group
-/
namespace ATG

theorem nodup_flatten_map {α β} (f : α → List β) : ∀ (l : List α), l.Nodup → (∀ a ∈ l, (f a).Nodup) →
    (∀ a ∈ l, ∀ b ∈ l, a ≠ b → ∀ x ∈ f a, x ∉ f b) → (l.map f).flatten.Nodup := by
  intro l
  induction l with
  | nil => intro _ _ _; simp
  | cons a l ih =>
    intro hn h1 h2
    obtain ⟨ha, hn⟩ := List.nodup_cons.mp hn
    rw [List.map_cons, List.flatten_cons, List.nodup_append]
    refine ⟨h1 a (by simp), ih hn (fun b hb => h1 b (by simp [hb])) (fun b hb c hc => h2 b (by simp [hb]) c (by simp [hc])), ?_⟩
    intro x hx y hy e
    subst e
    obtain ⟨L, hL, hxL⟩ := List.mem_flatten.mp hy
    obtain ⟨b, hb, rfl⟩ := List.mem_map.mp hL
    exact h2 a (by simp) b (by simp [hb]) (fun e => ha (e ▸ hb)) x hx hxL

theorem flatten_map_apart {α β} (f : α → List β) : ∀ (l : List α), (l.map f).flatten.Nodup → l.Nodup →
    ∀ a ∈ l, ∀ b ∈ l, a ≠ b → ∀ x ∈ f a, x ∉ f b := by
  intro l
  induction l with
  | nil => intro _ _ a ha; exact (nomatch ha)
  | cons c l ih =>
    intro hf hn a ha b hb hne x hx hxb
    obtain ⟨hc, hn⟩ := List.nodup_cons.mp hn
    rw [List.map_cons, List.flatten_cons, List.nodup_append] at hf
    obtain ⟨f1, f2, f3⟩ := hf
    rcases List.mem_cons.mp ha with ha' | ha' <;> rcases List.mem_cons.mp hb with hb' | hb'
    · exact hne (ha'.trans hb'.symm)
    · subst ha'
      exact f3 x hx x (List.mem_flatten.mpr ⟨_, List.mem_map_of_mem hb', hxb⟩) rfl
    · subst hb'
      exact f3 x hxb x (List.mem_flatten.mpr ⟨_, List.mem_map_of_mem ha', hx⟩) rfl
    · exact ih f2 hn a ha' b hb' hne x hx hxb

theorem ClassChain.nodup {h : Heap} {ts : List TRef} (c : ClassChain h ts) : ts.Nodup :=
  List.Pairwise.of_map h.tcls (fun _ _ hne e => hne (congrArg _ e)) c.distinct

section
variable {h h' : Heap} {ts : List TRef} {new : TRef → List Ref}

theorem Fills.gap (f : Fills h h' ts new) {t : TRef} (ht : t ∈ ts) (hf : Fillable h t) (g : Time × Time) :
    (∃ x ∈ new t, h'.span x = g) ↔ Gap ((h.tseq t).vals.map h.span) g := by
  rw [← mem_gapsOf_iff hf.laid, ← f.spans t ht, List.mem_map]

theorem Fills.aligned (f : Fills h h' ts new) (hn : ts.Nodup) (hf : ∀ t ∈ ts, Fillable h t) (al : AlignedTiers h ts) :
    AlignedTiers h' ts := by
  have htc : h'.tcls = h.tcls := by rw [f.frame]
  have hct : h'.ct = h.ct := by rw [f.frame]
  have hap := flatten_map_apart _ ts al.once hn
  refine ⟨?_, ?_, ?_, ?_, ?_⟩
  · apply nodup_flatten_map _ _ hn
    · intro t ht
      rw [(f.perm t ht).nodup_iff, List.nodup_append]
      refine ⟨al.nodup t ht, f.nodup t ht, ?_⟩
      intro x hx y hy e
      subst e
      have := (hf t ht).old x hx
      have := (f.range t ht x hy).1
      romega
    · intro t ht u hu hne x hx hxu
      rcases List.mem_append.mp ((f.perm t ht).mem_iff.mp hx) with a | a <;>
        rcases List.mem_append.mp ((f.perm u hu).mem_iff.mp hxu) with b | b
      · exact hap t ht u hu hne x a b
      · have := (hf t ht).old x a
        have := (f.range u hu x b).1
        romega
      · have := (hf u hu).old x b
        have := (f.range t ht x a).1
        romega
      · exact f.apart t ht u hu hne x a b
  · intro t ht x hx
    rw [htc]
    rcases List.mem_append.mp ((f.perm t ht).mem_iff.mp hx) with a | a
    · rw [(f.away x (Or.inl ((hf t ht).old x a))).1.cls]; exact al.cls t ht x a
    · obtain ⟨s, e, q⟩ := f.blank t ht x a; exact q.cls
  · intro t ht x hx
    rcases List.mem_append.mp ((f.perm t ht).mem_iff.mp hx) with a | a
    · rw [(f.away x (Or.inl ((hf t ht).old x a))).1.label]; exact al.label t ht x a
    · obtain ⟨s, e, q⟩ := f.blank t ht x a; rw [q.label]; decide
  · rw [htc, hct]; exact al.chain
  · intro i t t' g1 g2
    have ht := List.mem_of_getElem? g1
    have ht' := List.mem_of_getElem? g2
    exact (al.aligned i t t' g1 g2).filled (fun x hx => f.span ((hf t ht).old x hx))
      (fun x hx => f.span ((hf t' ht').old x hx)) (f.perm t ht) (f.perm t' ht') (f.sub t' ht') (f.laid t ht) (f.laid t' ht')
      (f.gap ht (hf t ht)) (f.gap ht' (hf t' ht'))

theorem Fills.fillable (f : Fills h h' ts new) {t : TRef} (ht : t ∈ ts) (hf : Fillable h t) : Fillable h' t := by
  have htc : h'.tcls = h.tcls := by rw [f.frame]
  refine ⟨?_, by rw [htc]; exact f.ecls t ht, f.laid t ht, ?_⟩
  · intro x hx
    rcases List.mem_append.mp ((f.perm t ht).mem_iff.mp hx) with a | a
    · have := hf.old x a; have := f.nE; romega
    · exact (f.range t ht x a).2
  · intro hg
    exact absurd (f.gapless t ht) hg

/-- an entry made while filling -/
def Made (h h' : Heap) (x : Ref) : Prop := h.nE ≤ x ∧ x < h'.nE

theorem Fills.subs (f : Fills h h' ts new) (ac : Allocated h) (v x : Ref) (hx : x ∈ (h'.subs v).vals) :
    x ∈ (h.subs v).vals ∧ v < h.nE ∧ x < h.nE := by
  by_cases hv : Made h h' v
  · exfalso
    obtain ⟨t, ht, hvt⟩ := f.made v hv.1 hv.2
    obtain ⟨s, e, q⟩ := f.blank t ht v hvt
    rw [q.subs] at hx
    exact (nomatch hx)
  · rw [(f.away v (by unfold Made at hv; romega)).1.subs] at hx
    exact ⟨hx, ac v x hx⟩

theorem Fills.sup (f : Fills h h' ts new) (v x : Ref) (hx : h'.sup x = some v) : h.sup x = some v ∧ ¬ Made h h' x := by
  by_cases hv : Made h h' x
  · exfalso
    obtain ⟨t, ht, hvt⟩ := f.made x hv.1 hv.2
    obtain ⟨s, e, q⟩ := f.blank t ht x hvt
    rw [q.sup] at hx
    cases hx
  · rw [(f.away x (by unfold Made at hv; romega)).1.sup] at hx
    exact ⟨hx, hv⟩

theorem Fills.tidy (f : Fills h h' ts new) {L : Ref → Prop} (td : TidyOn L h) (ac : Allocated h) :
    TidyOn (fun x => L x ∨ Made h h' x) h' := by
  have hold : ∀ x, x < h.nE → SameEntry h h' x := fun x hx => (f.away x (Or.inl hx)).1
  have hnd : ∀ v, (h'.subs v).vals.Sublist (h.subs v).vals := by
    intro v
    by_cases hv : Made h h' v
    · obtain ⟨t, ht, hvt⟩ := f.made v hv.1 hv.2
      obtain ⟨s, e, q⟩ := f.blank t ht v hvt
      rw [q.subs]
      exact List.nil_sublist _
    · rw [(f.away v (by unfold Made at hv; romega)).1.subs]
      exact List.Sublist.refl _
  refine ⟨?_, ?_, fun v => (td.nodup v).sublist (hnd v), ?_, ?_, ?_⟩
  · intro v x hx
    obtain ⟨a, -, b⟩ := f.subs ac v x hx
    rw [(hold x b).sup]
    exact td.down v x a
  · intro v x hL hx
    obtain ⟨a, b⟩ := f.sup v x hx
    have hm := td.up v x (hL.resolve_right b) a
    rw [(hold v (ac v x hm).1).subs]
    exact hm
  · intro v x hx y hy hs
    obtain ⟨a, -, b⟩ := f.subs ac v x hx
    obtain ⟨c, -, d⟩ := f.subs ac v y hy
    refine td.distinct v x a y c ?_
    unfold SameValue Heap.isPoint at hs ⊢
    rw [(hold x b).cls, (hold x b).start, (hold x b).stop, (hold x b).label,
      (hold y d).cls, (hold y d).start, (hold y d).stop, (hold y d).label, show h'.ct = h.ct by rw [f.frame]] at hs
    exact hs
  · intro v x hx y hy
    obtain ⟨a, -, b⟩ := f.subs ac v x hx
    obtain ⟨c, -, d⟩ := f.subs ac v y hy
    rw [(hold x b).cls, (hold y d).cls]
    exact td.cls v x a y c
  · intro v x hx
    obtain ⟨a, -, b⟩ := f.subs ac v x hx
    rw [(hold x b).label]
    exact td.label v x a

theorem Fills.stack (f : Fills h h' ts new) {g : GRef} (st : TierStack h g ts) : TierStack h' g ts := by
  have hn := st.chain.nodup
  have hlow : ToBottom h' ts ↔ ToBottom h ts := ToBottom.congr (by rw [f.frame]) fun t _ => by rw [f.frame]
  refine ⟨by rw [f.frame]; exact st.gtiers, ?_, by rw [f.frame]; exact st.gpoint, st.ne,
    st.chain.congr (by rw [f.frame]) (by rw [f.frame]) (by rw [f.frame]) (by rw [f.frame]), ?_,
    f.aligned hn st.tiers st.aligned, fun t ht => f.fillable ht (st.tiers t ht), ?_, ?_⟩
  · rw [hlow, f.frame]; exact st.gcont
  · rw [show h'.ct = h.ct by rw [f.frame], show h'.tcls = h.tcls by rw [f.frame]]; exact st.top
  · rw [hlow, show h'.twithin = h.twithin by rw [f.frame]]; exact st.twithin
  · rw [hlow, show h'.twithin = h.twithin by rw [f.frame]]; exact st.loose

end
end ATG
