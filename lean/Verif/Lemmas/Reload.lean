import Verif.Lemmas.TouchBook
import Verif.Lemmas.ClipBuild
import Verif.Lemmas.Fill
import Verif.Spec.Import
/-!
# Helper lemmas for C91
-/
namespace ATG

/-- rows following one another without gaps from `lo` to `hi` -/
def Seamless : Time → List Span3 → Time → Prop
  | lo, [], hi => lo = hi
  | lo, r :: rs, hi => r.1 = lo ∧ Seamless r.2.1 rs hi

theorem Seamless.append (B : List Span3) (hi : Time) : ∀ (A : List Span3) (lo : Time),
    Seamless lo (A ++ B) hi ↔ ∃ m, Seamless lo A m ∧ Seamless m B hi
  | [], lo => by simp [Seamless]
  | r :: A, lo => by
    simp only [List.cons_append, Seamless, Seamless.append B hi A]
    grind

theorem Seamless.fuse {A B : List Span3} {r r' : Span3} {l : String} {lo hi : Time} (s : Seamless lo (A ++ r :: r' :: B) hi) :
    Seamless lo (A ++ (r.1, r'.2.1, l) :: B) hi := by
  obtain ⟨m, h1, h2, h3, h4⟩ := (Seamless.append _ _ _ _).mp s
  exact (Seamless.append _ _ _ _).mpr ⟨m, h1, h2, h4⟩

theorem Seamless.map {f : Span3 → Span3} (hf : ∀ r, (f r).1 = r.1 ∧ (f r).2.1 = r.2.1) {hi : Time} : ∀ {rs : List Span3} {lo : Time},
    Seamless lo rs hi → Seamless lo (rs.map f) hi
  | [], _, s => s
  | r :: rs, lo, s => ⟨(hf r).1.trans s.1, by rw [(hf r).2]; exact Seamless.map hf s.2⟩

theorem Seamless.shift (d : Time) {hi : Time} : ∀ {rs : List Span3} {lo : Time},
    Seamless lo rs hi → Seamless (lo + d) (rs.map fun r => (r.1 + d, r.2.1 + d, r.2.2)) (hi + d)
  | [], _, s => congrArg (· + d) s
  | r :: rs, lo, s => ⟨congrArg (· + d) s.1, Seamless.shift d s.2⟩

theorem Seamless.relabel {lab : String} {hi : Time} : ∀ {rs : List Span3} {k : Nat} {r : Span3} {lo : Time}, rs[k]? = some r →
    Seamless lo rs hi → Seamless lo (rs.set k (r.1, r.2.1, lab)) hi
  | [], _, _, _, h, _ => by simp at h
  | q :: rs, 0, r, lo, h, s => by
    obtain rfl : q = r := by simpa using h
    exact s
  | q :: rs, k + 1, r, lo, h, s => ⟨s.1, Seamless.relabel (by simpa using h) s.2⟩

theorem Seamless.noGap {hi : Time} : ∀ {rs : List Span3} {lo : Time}, Seamless lo rs hi → gapsOf (rawSpans rs) = []
  | [], _, _ => rfl
  | [_], _, _ => rfl
  | r :: q :: rs, lo, s => by
    show gapsOf ((r.1, r.2.1) :: (q.1, q.2.1) :: rawSpans rs) = []
    unfold gapsOf
    rw [if_pos s.2.1.symm]
    exact Seamless.noGap s.2

theorem Seamless.bounds {hi : Time} : ∀ {rs : List Span3} {lo : Time}, rs ≠ [] → Laid (rawSpans rs) → Seamless lo rs hi →
    ((∃ p ∈ rs, p.1 = lo) ∧ ∀ p ∈ rs, lo ≤ p.1) ∧ (∃ p ∈ rs, p.2.1 = hi) ∧ ∀ p ∈ rs, p.2.1 ≤ hi
  | [], _, h, _, _ => absurd rfl h
  | [r], lo, _, l, s => by
    have := s.1; have := s.2
    simp only [Seamless] at this
    grind
  | r :: q :: rs, lo, _, l, s => by
    have l' : Laid (rawSpans (q :: rs)) :=
      ⟨fun p hp => l.1 p (List.mem_cons_of_mem _ hp), (List.pairwise_cons.mp l.2).2⟩
    obtain ⟨⟨-, b2⟩, ⟨p, hp, b3⟩, b4⟩ := Seamless.bounds (by simp) l' s.2
    have hr : r.1 < r.2.1 := l.1 (r.1, r.2.1) (List.mem_cons_self)
    have hq : q.1 < q.2.1 := l'.1 (q.1, q.2.1) (List.mem_cons_self)
    have h1 := s.1
    have h2 := s.2.1
    have h4 := b4 q List.mem_cons_self
    refine ⟨⟨⟨r, List.mem_cons_self, h1⟩, ?_⟩, ⟨p, List.mem_cons_of_mem _ hp, b3⟩, ?_⟩
    · intro p hp
      rcases List.mem_cons.mp hp with rfl | hp
      · grind
      · have := b2 p hp; grind
    · intro p hp
      rcases List.mem_cons.mp hp with rfl | hp
      · grind
      · exact b4 p hp

theorem seamless_of {hi : Time} : ∀ {rs : List Span3} {lo : Time}, gapsOf (rawSpans rs) = [] → Laid (rawSpans rs) →
    ((∃ p ∈ rs, p.1 = lo) ∧ ∀ p ∈ rs, lo ≤ p.1) → ((∃ p ∈ rs, p.2.1 = hi) ∧ ∀ p ∈ rs, p.2.1 ≤ hi) → Seamless lo rs hi
  | [], _, _, _, ⟨⟨_, h, _⟩, _⟩, _ => by cases h
  | [r], lo, _, l, h1, h2 => by
    simp only [Seamless]; grind
  | r :: q :: rs, lo, g, l, h1, h2 => by
    have l' : Laid (rawSpans (q :: rs)) :=
      ⟨fun p hp => l.1 p (List.mem_cons_of_mem _ hp), (List.pairwise_cons.mp l.2).2⟩
    have hr : r.1 < r.2.1 := l.1 (r.1, r.2.1) (List.mem_cons_self)
    have hle : ∀ p ∈ q :: rs, r.2.1 ≤ p.1 := fun p hp =>
      (List.pairwise_cons.mp l.2).1 (p.1, p.2.1) (List.mem_map.mpr ⟨p, hp, rfl⟩)
    have hlt : ∀ p ∈ q :: rs, p.1 < p.2.1 := fun p hp => l'.1 (p.1, p.2.1) (List.mem_map.mpr ⟨p, hp, rfl⟩)
    have hg : r.2.1 = q.1 ∧ gapsOf (rawSpans (q :: rs)) = [] := by
      change gapsOf ((r.1, r.2.1) :: (q.1, q.2.1) :: rawSpans rs) = [] at g
      unfold gapsOf at g
      split at g
      · exact ⟨by assumption, g⟩
      · cases g
    refine ⟨?_, seamless_of hg.2 l' ⟨⟨q, List.mem_cons_self, hg.1.symm⟩, hle⟩ ⟨?_, fun p hp => h2.2 p (List.mem_cons_of_mem _ hp)⟩⟩
    · obtain ⟨⟨p, hp, e⟩, h⟩ := h1
      have h0 := h r List.mem_cons_self
      rcases List.mem_cons.mp hp with rfl | hp
      · exact e
      · have := hle p hp; grind
    · obtain ⟨p, hp, e⟩ := h2.1
      rcases List.mem_cons.mp hp with rfl | hp
      · have := h2.2 q (List.mem_cons_of_mem _ List.mem_cons_self)
        have := hlt q List.mem_cons_self
        grind
      · exact ⟨p, hp, e⟩

/-- no tier is empty, and all go from `lo` to `hi` without gaps -/
def Draft.Spans (d : Draft) (lo hi : Time) : Prop := ∀ q ∈ d, ∀ u ∈ q.1, u.2 ≠ [] ∧ Seamless lo u.2 hi

theorem Draft.Spans.onPage {d d' : Draft} {lo hi : Time} {i : Nat} {ok : Bool → Bool} {f : Page → Option Page} (s : d.Spans lo hi)
    (hf : ∀ p p', (∀ u ∈ p, u.2 ≠ [] ∧ Seamless lo u.2 hi) → f p = some p' → ∀ u ∈ p', u.2 ≠ [] ∧ Seamless lo u.2 hi)
    (h : d.onPage i ok f = some d') : d'.Spans lo hi ∧ (d ≠ [] → d' ≠ []) := by
  unfold Draft.onPage at h
  cases hq : d[i]? with
  | none => rw [hq] at h; cases h
  | some q =>
    rw [hq] at h
    simp only at h
    split at h
    · obtain ⟨p, hp, rfl⟩ := Option.map_eq_some_iff.mp h
      refine ⟨?_, fun hne e => hne (by simpa using e)⟩
      intro q' hq'
      rcases List.mem_or_eq_of_mem_set hq' with h1 | rfl
      · exact s q' h1
      · exact hf _ _ (s q (List.mem_of_getElem? hq)) hp
    · cases h

theorem Page.fuse_spans {J : String → String → String} {j k : Nat} {lo hi : Time} (p p' : Page)
    (s : ∀ u ∈ p, u.2 ≠ [] ∧ Seamless lo u.2 hi) (h : p.fuse J j k = some p') : ∀ u ∈ p', u.2 ≠ [] ∧ Seamless lo u.2 hi := by
  unfold Page.fuse at h
  cases hj : p[j]? with
  | none => rw [hj] at h; cases h
  | some u =>
    obtain ⟨n, rs⟩ := u
    rw [hj] at h
    simp only at h
    cases h1 : rs[k]? with
    | none => rw [h1] at h; simp at h
    | some r =>
      cases h2 : rs[k + 1]? with
      | none => rw [h1, h2] at h; simp at h
      | some r' =>
        rw [h1, h2] at h
        simp only at h
        split at h
        · cases h
          intro u hu
          rcases List.mem_or_eq_of_mem_set hu with hu | rfl
          · exact s u hu
          · have := (s _ (List.mem_of_getElem? hj)).2
            rw [split_two h1 h2] at this
            exact ⟨by simp, this.fuse⟩
        · cases h

theorem Page.relabel_spans {lab : String} {j k : Nat} {lo hi : Time} (p p' : Page)
    (s : ∀ u ∈ p, u.2 ≠ [] ∧ Seamless lo u.2 hi) (h : p.relabel lab j k = some p') : ∀ u ∈ p', u.2 ≠ [] ∧ Seamless lo u.2 hi := by
  unfold Page.relabel at h
  cases hj : p[j]? with
  | none => rw [hj] at h; cases h
  | some u =>
    obtain ⟨n, rs⟩ := u
    rw [hj] at h
    simp only at h
    cases h1 : rs[k]? with
    | none => rw [h1] at h; simp at h
    | some r =>
      rw [h1] at h
      simp only at h
      split at h
      · cases h
        intro u hu
        rcases List.mem_or_eq_of_mem_set hu with hu | rfl
        · exact s u hu
        · have := s _ (List.mem_of_getElem? hj)
          exact ⟨fun e => this.1 (by simpa using e), this.2.relabel h1⟩
      · cases h

theorem mem_of_insertIdx {α} {x y : α} : ∀ {n : Nat} {l : List α}, x ∈ l.insertIdx n y → x = y ∨ x ∈ l
  | 0, l, h => by simpa using h
  | n + 1, [], h => by simp at h
  | n + 1, z :: l, h => by
    rw [List.insertIdx_succ_cons] at h
    rcases List.mem_cons.mp h with rfl | h
    · exact .inr List.mem_cons_self
    · exact (mem_of_insertIdx h).imp id (List.mem_cons_of_mem _)

theorem Page.interleave_spans {name cname : String} {above fromBelow labels : Bool} {lo hi : Time} (p p' : Page)
    (s : ∀ u ∈ p, u.2 ≠ [] ∧ Seamless lo u.2 hi) (h : p.interleave name above cname fromBelow labels = some p') :
    ∀ u ∈ p', u.2 ≠ [] ∧ Seamless lo u.2 hi := by
  unfold Page.interleave at h
  cases hj : p.findIdx? (·.1 == cname) with
  | none => rw [hj] at h; cases h; exact s
  | some i =>
    rw [hj] at h
    simp only at h
    cases hu : (if fromBelow then p[if above then i else i + 1]? else (p.take (if above then i else i + 1)).getLast?) with
    | none => rw [hu] at h; cases h
    | some u =>
      have hm : u ∈ p := by
        split at hu
        · exact List.mem_of_getElem? hu
        · exact List.mem_of_mem_take (List.mem_of_getLast? hu)
      obtain ⟨n, rs⟩ := u
      cases rs with
      | nil => rw [hu] at h; cases h
      | cons r rs =>
        rw [hu] at h
        cases h
        intro u hu
        rcases mem_of_insertIdx hu with rfl | hu
        · exact ⟨by simp, Seamless.map (f := fun r => (r.1, r.2.1, if labels then r.2.2 else "")) (fun _ => ⟨rfl, rfl⟩) (s _ hm).2⟩
        · exact s u hu

/-- every edit keeps the tiers without gaps, all going from one time to another -/
theorem Change.act_spans {d d' : Draft} {lo hi : Time} (s : d.Spans lo hi) (hne : d ≠ []) (e : Change) (h : e.act d = some d') :
    (∃ lo' hi', d'.Spans lo' hi') ∧ d' ≠ [] := by
  cases e with
  | touch e =>
    cases e with
    | fuse J i j k =>
      obtain ⟨h1, h2⟩ := s.onPage Page.fuse_spans h
      exact ⟨⟨lo, hi, h1⟩, h2 hne⟩
    | fuseLeft J i j k =>
      change Draft.onPage i (fun _ => decide (j ≠ 0)) (Page.fuseLeft J j k) d = some d' at h
      obtain ⟨h1, h2⟩ := s.onPage (fun p p' s h => by
        match k, h with
        | k + 1, h => exact Page.fuse_spans p p' s h) h
      exact ⟨⟨lo, hi, h1⟩, h2 hne⟩
    | relabel lab i j k =>
      change Draft.onPage i (fun _ => true) (Page.relabel lab j k) d = some d' at h
      obtain ⟨h1, h2⟩ := s.onPage Page.relabel_spans h
      exact ⟨⟨lo, hi, h1⟩, h2 hne⟩
  | edit e =>
    cases e with
    | interleave name above cname fromBelow labels =>
      change d.interleave name above cname fromBelow labels = some d' at h
      unfold Draft.interleave at h
      split at h
      · have hl := mapM_some h
        refine ⟨⟨lo, hi, ?_⟩, ?_⟩
        · intro q' hq'
          obtain ⟨i, hi', e⟩ := List.mem_iff_getElem.mp hq'
          have hi : i < d.length := by omega
          have := hl.2 i _ _ (List.getElem?_eq_getElem hi) (List.getElem?_eq_getElem hi')
          obtain ⟨p, hp, e'⟩ := Option.map_eq_some_iff.mp this
          rw [e] at e'
          rw [← e']
          exact Page.interleave_spans _ _ (s _ (List.getElem_mem hi)) hp
        · intro e
          rw [e] at hl
          exact hne (List.length_eq_zero_iff.mp hl.1.symm)
      · cases h
    | pop name =>
      cases h
      unfold Draft.pop
      split
      · exact ⟨⟨lo, hi, s⟩, hne⟩
      · rename_i hn
        refine ⟨⟨lo, hi, ?_⟩, ?_⟩
        · intro q hq u hu
          obtain ⟨q0, h0, rfl⟩ := List.mem_map.mp hq
          exact s q0 (List.mem_filter.mp h0).1 u (List.mem_filter.mp hu).1
        · intro e
          refine hn fun q hq => ?_
          rw [List.map_eq_nil_iff, List.filter_eq_nil_iff] at e
          have := e q hq
          simpa using this
    | shift t =>
      cases h
      refine ⟨⟨lo + t, hi + t, ?_⟩, fun e => hne (by simpa [Draft.shift] using e)⟩
      intro q hq u hu
      obtain ⟨q0, h0, rfl⟩ := List.mem_map.mp hq
      obtain ⟨u0, h1, rfl⟩ := List.mem_map.mp hu
      have := s q0 h0 u0 h1
      exact ⟨fun e => this.1 (by simpa using e), this.2.shift t⟩

theorem Change.actAll_spans : ∀ (es : List Change) {d d' : Draft} {lo hi : Time}, d.Spans lo hi → d ≠ [] →
    Change.actAll es d = some d' → (∃ lo' hi', d'.Spans lo' hi') ∧ d' ≠ []
  | [], _, _, lo, hi, s, hne, h => by cases h; exact ⟨⟨lo, hi, s⟩, hne⟩
  | e :: es, _, _, _, _, s, hne, h => by
    obtain ⟨d1, h1, h2⟩ := Option.bind_eq_some_iff.mp h
    obtain ⟨⟨_, _, s1⟩, hne1⟩ := e.act_spans s hne h1
    exact Change.actAll_spans es s1 hne1 h2

/-! ## The exported tiers -/

theorem rawSpans_rowsOf (h : Heap) (t : TRef) : rawSpans (rowsOf h t) = (h.tseq t).vals.map h.span := by
  unfold rawSpans rowsOf
  rw [List.map_map]
  rfl

/-- a fitting group exports good tiers -/
theorem FitGroup.goodTiers {h : Heap} {ts : List TRef} (f : FitGroup h ts) {ps : List PTier} (e : ps.map (·.2) = ts.map (rowsOf h))
    {lo hi : Time} (s : ∀ t ∈ ts, rowsOf h t ≠ [] ∧ Seamless lo (rowsOf h t) hi) : GoodTiers ps ∧ Covering ps lo hi := by
  have hm : ∀ p ∈ ps, ∃ t ∈ ts, p.2 = rowsOf h t := by
    intro p hp
    have : p.2 ∈ ts.map (rowsOf h) := e ▸ List.mem_map_of_mem (f := Prod.snd) hp
    obtain ⟨t, ht, q⟩ := List.mem_map.mp this
    exact ⟨t, ht, q.symm⟩
  have hl : ∀ t ∈ ts, Laid (rawSpans (rowsOf h t)) := by
    intro t ht
    rw [rawSpans_rowsOf]
    refine ⟨?_, List.pairwise_map.mpr (f.disjoint t ht)⟩
    intro p hp
    obtain ⟨x, hx, rfl⟩ := List.mem_map.mp hp
    exact f.positive t ht x hx
  refine ⟨⟨?_, ?_, ?_, ?_, ?_⟩, ?_⟩
  · intro p hp
    obtain ⟨t, ht, q⟩ := hm p hp
    rw [q]; exact (s t ht).1
  · intro p hp r hr
    obtain ⟨t, ht, q⟩ := hm p hp
    rw [q] at hr
    obtain ⟨x, hx, rfl⟩ := List.mem_map.mp hr
    exact f.label t ht x hx
  · intro p hp
    obtain ⟨t, ht, q⟩ := hm p hp
    rw [q]; exact hl t ht
  · intro p hp hg
    obtain ⟨t, ht, q⟩ := hm p hp
    rw [q] at hg
    exact absurd (s t ht).2.noGap hg
  · intro i p q hi hj
    have h1 : (ts.map (rowsOf h))[i]? = some p.2 := by rw [← e, List.getElem?_map, hi]; rfl
    have h2 : (ts.map (rowsOf h))[i + 1]? = some q.2 := by rw [← e, List.getElem?_map, hj]; rfl
    rw [List.getElem?_map] at h1 h2
    obtain ⟨t, ht, e1⟩ := Option.map_eq_some_iff.mp h1
    obtain ⟨u, hu, e2⟩ := Option.map_eq_some_iff.mp h2
    rw [← e1, ← e2, rawSpans_rowsOf, rawSpans_rowsOf]
    exact (aligned_spans h _ _).mp (f.aligned i t u ht hu)
  · intro p hp
    obtain ⟨t, ht, q⟩ := hm p hp
    rw [q]
    exact ⟨(s t ht).2.noGap, (s t ht).2.bounds (s t ht).1 (hl t ht)⟩

/-- a list whose second components are those of a list of lists can be split accordingly -/
theorem split_snd {α β} : ∀ {L : List (List β)} {ps : List (α × β)}, ps.map (·.2) = L.flatten →
    ∃ pss : List (List (α × β)), pss.flatten = ps ∧ pss.map (List.map (·.2)) = L
  | [], ps, h => ⟨[], by simpa using h.symm, rfl⟩
  | l :: L, ps, h => by
    obtain ⟨p1, p2, rfl, e1, e2⟩ := List.map_eq_append_iff.mp (h.trans List.flatten_cons)
    obtain ⟨pss, q1, q2⟩ := split_snd e2
    exact ⟨p1 :: pss, by rw [List.flatten_cons, q1], by rw [List.map_cons, e1, q2]⟩

theorem nameStep_length (st : List String × Nat) (n : String) : (nameStep st n).1.length = st.1.length + 1 := by
  unfold nameStep
  split <;> simp

theorem exportNames_length (names : List String) : (exportNames names).length = names.length := by
  have : ∀ (l : List String) st, (l.foldl nameStep st).1.length = st.1.length + l.length := by
    intro l
    induction l with
    | nil => intro st; rfl
    | cons n l ih =>
      intro st
      rw [List.foldl_cons, ih, nameStep_length, List.length_cons]
      omega
  unfold exportNames
  rw [this]
  simp

theorem returnTextgrid_rows (h : Heap) (a : ARef) :
    (returnTextgrid h a).map (·.2) = ((h.agroups a).map fun g => (h.gtiers g).map (rowsOf h)).flatten := by
  unfold returnTextgrid
  simp only []
  rw [List.map_snd_zip (by rw [exportNames_length, List.length_map, List.length_map]; exact Nat.le_refl _), List.map_flatten,
    List.map_map]
  rfl

end ATG
