import Verif.Lemmas.Gaps
import Verif.Lemmas.SeqList
import Verif.Lemmas.Clone
import Verif.Lemmas.TierInit
/-!
# Filling the gaps of a tier
-/
namespace ATG

theorem insBy_mid (key : Ref → Time) (x : Ref) (A B : List Ref) (hA : ∀ y ∈ A, key y < key x)
    (hB : ∀ y, B.head? = some y → key x ≤ key y) : insBy key x (A ++ B) = A ++ x :: B := by
  induction A with
  | nil =>
    cases B with
    | nil => rfl
    | cons b B => simp [insBy, hB b rfl]
  | cons a A ih =>
    have := hA a (by simp)
    have hn : ¬ key x ≤ key a := by grind
    simp only [List.cons_append, insBy, if_neg hn]
    rw [ih (fun y hy => hA y (by simp [hy]))]

/-- an entry was made with the given class and span and a blank label; nothing else about entries
    (but possibly the tiers) changed -/
def blanked (h : Heap) (c : CRef) (s e : Time) : Heap :=
  { h with
    nE := h.nE + 1
    cls := upd h.cls h.nE c
    start := upd h.start h.nE s
    stop := upd h.stop h.nE e
    label := upd h.label h.nE ""
    fol := upd h.fol h.nE (some .bumper)
    prev := upd h.prev h.nE (some .bumper)
    subs := upd h.subs h.nE SL.empty
    sup := upd h.sup h.nE none
    intier := upd h.intier h.nE none
    within := upd h.within h.nE none
    cont := upd h.cont h.nE Contains.unset }

theorem newEntry_blank (c : CRef) (s e : Time) (h : Heap) :
    newEntry c s e "" h = .ok h.nE (blanked h c s e) := rfl

theorem blanked_span (h : Heap) (c : CRef) (s e : Time) (x : Ref) (hx : x < h.nE) :
    (blanked h c s e).span x = h.span x := by
  unfold Heap.span blanked
  simp only []
  rw [upd_ne _ _ _ _ (by romega), upd_ne _ _ _ _ (by romega)]

theorem map_span_blanked (h : Heap) (c : CRef) (s e : Time) (l : List Ref) (hl : ∀ x ∈ l, x < h.nE) :
    l.map (blanked h c s e).span = l.map h.span :=
  List.map_congr_left fun x hx => blanked_span h c s e x (hl x hx)

/-- `append` of a filler for the first gap puts it in the gap -/
theorem slAppend_gap (h : Heap) (c : CRef) (L : List Ref) (hL : ∀ x ∈ L, x < h.nE) (hl : Laid (L.map h.span))
    (hz : ∀ x ∈ L, 0 < h.start x) (s e : Time) (G : List (Time × Time))
    (hg : gapsOf (L.map h.span) = (s, e) :: G) :
    ∃ A B, L = A ++ B ∧ A ≠ [] ∧ B ≠ [] ∧
      slAppend ⟨L, some c⟩ h.nE (blanked h c s e) = .ok ⟨A ++ h.nE :: B, some c⟩ (blanked h c s e) ∧
      Laid ((A ++ h.nE :: B).map (blanked h c s e).span) ∧
      gapsOf ((A ++ h.nE :: B).map (blanked h c s e).span) = G ∧ 0 < s ∧ s < e := by
  obtain ⟨A0, a, b, B0, h1, h2, h3, h4, h5, h6⟩ := gapsOf_split _ s e G hg
  obtain ⟨A1, R1, rfl, eA, eR⟩ := List.map_eq_append_iff.mp h1
  obtain ⟨ra, R2, rfl, ea, eR2⟩ := List.map_eq_cons_iff.mp eR
  obtain ⟨rb, B1, rfl, eb, eB⟩ := List.map_eq_cons_iff.mp eR2
  subst ea; subst eb
  let h1 := blanked h c s e
  have hA1 : ∀ y ∈ A1 ++ [ra], y < h.nE := by
    intro y hy; apply hL; simp at hy ⊢; rcases hy with hy | hy <;> simp [hy]
  have hB1 : ∀ y ∈ rb :: B1, y < h.nE := by
    intro y hy; apply hL; simp at hy ⊢; rcases hy with hy | hy <;> simp [hy]
  have hra : 0 < h.start ra := hz ra (by simp)
  have hposa : h.start ra < h.stop ra := hl.1 (h.span ra) (List.mem_map.mpr ⟨ra, by simp, rfl⟩)
  have hsra : h.stop ra = s := h2
  have hrbe : h.start rb = e := h3
  have hpw := hl.2
  rw [List.pairwise_map] at hpw
  have hle : s ≤ e := by
    have := (List.pairwise_cons.mp (List.pairwise_append.mp hpw).2.1).1 rb (by simp)
    rw [← hsra, ← hrbe]; exact this
  have hlt : s < e := by grind
  have hAs : ∀ y ∈ A1 ++ [ra], h.start y < s ∧ h.stop y ≤ s := by
    intro y hy
    rcases List.mem_append.mp hy with hy | hy
    · have h7 := (List.pairwise_append.mp hpw).2.2 y hy ra (by simp)
      have h8 : h.start y < h.stop y := hl.1 (h.span y) (List.mem_map.mpr ⟨y, by simp [hy], rfl⟩)
      have h7' : h.stop y ≤ h.start ra := h7
      grind
    · have : y = ra := by simpa using hy
      subst this; grind
  have hBs : ∀ y ∈ rb :: B1, e ≤ h.start y := by
    intro y hy
    rcases List.mem_cons.mp hy with hy | hy
    · subst hy; grind
    · have h7 := (List.pairwise_cons.mp (List.pairwise_cons.mp (List.pairwise_append.mp hpw).2.1).2).1 y hy
      have h7' : h.stop rb ≤ h.start y := h7
      have h8 : h.start rb < h.stop rb := hl.1 (h.span rb) (List.mem_map.mpr ⟨rb, by simp, rfl⟩)
      grind
  have hst : ∀ y, y < h.nE → h1.start y = h.start y := fun y hy => congrArg (·.1) (blanked_span h c s e y hy)
  have hsp : ∀ y, y < h.nE → h1.stop y = h.stop y := fun y hy => congrArg (·.2) (blanked_span h c s e y hy)
  have hns : h1.start h.nE = s := upd_same _ _ _
  have hne : h1.stop h.nE = e := upd_same _ _ _
  have hsplit : A1 ++ ra :: rb :: B1 = (A1 ++ [ra]) ++ (rb :: B1) := by simp
  have hmap : ((A1 ++ [ra]) ++ h.nE :: rb :: B1).map h1.span =
      A1.map h.span ++ h.span ra :: (s, e) :: h.span rb :: B1.map h.span := by
    have e1 : (A1 ++ [ra]).map h1.span = (A1 ++ [ra]).map h.span :=
      map_span_blanked h c s e _ hA1
    have e2 : (rb :: B1).map h1.span = (rb :: B1).map h.span := map_span_blanked h c s e _ hB1
    have e3 : h1.span h.nE = (s, e) := by unfold Heap.span; rw [hns, hne]
    rw [List.map_append, e1, List.map_cons, e3, e2]
    simp
  refine ⟨A1 ++ [ra], rb :: B1, hsplit, by simp, by simp, ?_, ?_, ?_, by grind, hlt⟩
  · have hnl : ¬ Listed h1 (A1 ++ ra :: rb :: B1) h.nE := by
      rintro (hh | ⟨y, hy, -, s1, s2, -⟩)
      · have := hL _ hh; romega
      · have hyl := hL y hy
        rw [hsplit] at hy
        rw [hst y hyl, hns] at s1
        rw [hsp y hyl, hne] at s2
        rcases List.mem_append.mp hy with hy | hy
        · have := hAs y hy; grind
        · have := hBs y hy; grind
    have hcl : h1.cls h.nE = c := upd_same _ _ _
    rw [slAppend_ok _ _ h1 c hnl rfl (by rw [hcl]; simp [isSub_refl]) (by unfold Heap.isPoint; rw [hcl])]
    congr 1
    · congr 1
      unfold insAt
      rw [if_pos]
      · rw [insertIdx_takeWhile, hsplit]
        apply insBy_mid
        · intro y hy
          rw [hst y (hA1 y hy), hns]; exact (hAs y hy).1
        · intro y hy
          have : y = rb := by simpa using hy.symm
          subst this
          rw [hst y (hB1 y (by simp)), hns]
          have := hBs _ (by simp : y ∈ y :: B1)
          grind
      · simp only [Bool.and_eq_true, decide_eq_true_eq, List.all_eq_true]
        refine ⟨by simp only [List.length_append, List.length_cons]; omega, ?_⟩
        intro t ht
        obtain ⟨y, hy, rfl⟩ := List.mem_map.mp ht
        rw [hst y (hL y hy)]
        have := hz y hy
        simp; grind
    · rw [upd_eq_self _ _ _ hcl]
  · rw [hmap]
    refine ⟨?_, ?_⟩
    · intro p hp
      rcases List.mem_append.mp hp with hp | hp
      · exact hl.1 p (by rw [List.map_append]; exact List.mem_append.mpr (Or.inl hp))
      · rcases List.mem_cons.mp hp with hp | hp
        · subst hp; exact hposa
        · rcases List.mem_cons.mp hp with hp | hp
          · subst hp; exact hlt
          · apply hl.1 p
            rw [List.map_append]
            exact List.mem_append.mpr (Or.inr (by simp only [List.map_cons]; exact List.mem_cons_of_mem _ hp))
    · have e1 : A1.map h.span ++ h.span ra :: (s, e) :: h.span rb :: B1.map h.span =
          (A1 ++ [ra]).map h.span ++ ((s, e) :: (rb :: B1).map h.span) := by simp
      rw [e1, List.pairwise_append]
      have hpw' := hl.2
      rw [hsplit, List.map_append, List.pairwise_append] at hpw'
      refine ⟨hpw'.1, ?_, ?_⟩
      · rw [List.pairwise_cons]
        refine ⟨?_, hpw'.2.1⟩
        intro p hp
        obtain ⟨y, hy, rfl⟩ := List.mem_map.mp hp
        exact hBs y hy
      · intro p hp q hq
        rcases List.mem_cons.mp hq with hq | hq
        · subst hq
          obtain ⟨y, hy, rfl⟩ := List.mem_map.mp hp
          exact (hAs y hy).2
        · exact hpw'.2.2 p hp q hq
  · rw [hmap]
    have h5' : gapsOf (A1.map h.span ++ [h.span ra]) = [] := by rw [eA]; exact h5
    have := gapsOf_fill (A1.map h.span) (h.span ra) (h.span rb) (B1.map h.span) h5'
    rw [h2, h3] at this
    rw [this, eB]; exact h6

/-- a blank entry was made for each span -/
def blankedAll (h : Heap) (c : CRef) : List (Time × Time) → Heap
  | [] => h
  | (s, e) :: G => blankedAll (blanked h c s e) c G

theorem blankedAll_nE (c : CRef) (G : List (Time × Time)) : ∀ h, (blankedAll h c G).nE = h.nE + G.length := by
  induction G with
  | nil => intro h; rfl
  | cons g G ih =>
    intro h
    show (blankedAll (blanked h c g.1 g.2) c G).nE = _
    rw [ih]
    show h.nE + 1 + G.length = _
    simp only [List.length_cons]; omega

theorem SameEntry.trans {a b c : Heap} {x : Ref} (h1 : SameEntry a b x) (h2 : SameEntry b c x) : SameEntry a c x :=
  ⟨by rw [h2.cls, h1.cls], by rw [h2.start, h1.start], by rw [h2.stop, h1.stop], by rw [h2.label, h1.label],
   by rw [h2.fol, h1.fol], by rw [h2.prev, h1.prev], by rw [h2.subs, h1.subs], by rw [h2.sup, h1.sup],
   by rw [h2.intier, h1.intier], by rw [h2.within, h1.within]⟩

theorem blanked_same (h : Heap) (c : CRef) (s e : Time) (x : Ref) (hx : x < h.nE) : SameEntry h (blanked h c s e) x := by
  constructor <;> exact upd_ne _ _ _ _ (by romega)

theorem blankedAll_same (c : CRef) (G : List (Time × Time)) :
    ∀ (h : Heap) (x : Ref), x < h.nE → SameEntry h (blankedAll h c G) x := by
  induction G with
  | nil => intro h x _; constructor <;> rfl
  | cons g G ih =>
    intro h x hx
    refine (blanked_same h c g.1 g.2 x hx).trans (ih _ x ?_)
    show x < h.nE + 1
    romega

theorem blankedAll_new (c : CRef) (G : List (Time × Time)) :
    ∀ (h : Heap) (i : Nat) (s e : Time), G[i]? = some (s, e) → IsBlank (blankedAll h c G) c s e (h.nE + i) := by
  induction G with
  | nil => intro h i s e hi; simp at hi
  | cons g G ih =>
    intro h i s e hi
    show IsBlank (blankedAll (blanked h c g.1 g.2) c G) c s e (h.nE + i)
    cases i with
    | zero =>
      have hi' : g = (s, e) := by simpa using hi
      subst hi'
      have hs := blankedAll_same c G (blanked h c s e) h.nE (by show h.nE < h.nE + 1; omega)
      constructor
      · exact hs.cls.trans (upd_same _ _ _)
      · exact hs.start.trans (upd_same _ _ _)
      · exact hs.stop.trans (upd_same _ _ _)
      · exact hs.label.trans (upd_same _ _ _)
      · exact hs.fol.trans (upd_same _ _ _)
      · exact hs.prev.trans (upd_same _ _ _)
      · exact hs.subs.trans (upd_same _ _ _)
      · exact hs.sup.trans (upd_same _ _ _)
      · exact hs.intier.trans (upd_same _ _ _)
    | succ i =>
      have := ih (blanked h c g.1 g.2) i s e (by simpa using hi)
      have e1 : (blanked h c g.1 g.2).nE + i = h.nE + (i + 1) := by
        show h.nE + 1 + i = _; omega
      rw [e1] at this
      exact this

theorem range'_succ' (a n : Nat) : List.range' a (n + 1) = a :: List.range' (a + 1) n := rfl

theorem blankedAll_tseq (c : CRef) (G : List (Time × Time)) (q : TRef → SL) :
    ∀ h : Heap, blankedAll { h with tseq := q } c G = { blankedAll h c G with tseq := q } := by
  induction G with
  | nil => intro h; rfl
  | cons g G ih => intro h; exact ih (blanked h c g.1 g.2)

/-- `tierFill` on the gaps of a laid out tier with positive times -/
theorem tierFill_ok (t : TRef) (c : CRef) (G : List (Time × Time)) :
    ∀ (h : Heap) (L : List Ref), h.tseq t = ⟨L, some c⟩ → h.tcls t = c → (∀ x ∈ L, x < h.nE) →
      Laid (L.map h.span) → (gapsOf (L.map h.span) ≠ [] → ∀ x ∈ L, 0 < h.start x) → gapsOf (L.map h.span) = G →
      ∃ L', tierFill t G h = .ok () { blankedAll h c G with tseq := upd h.tseq t ⟨L', some c⟩ } ∧
        Laid (L'.map (blankedAll h c G).span) ∧ gapsOf (L'.map (blankedAll h c G).span) = [] ∧
        L.Sublist L' ∧ L'.Perm (L ++ List.range' h.nE G.length) := by
  induction G with
  | nil =>
    intro h L hseq hc hL hl hz hg
    refine ⟨L, ?_, hl, hg, List.Sublist.refl _, by simp⟩
    show Res.ok () h = _
    show Res.ok () h = Res.ok () { h with tseq := upd h.tseq t ⟨L, some c⟩ }
    rw [upd_eq_self _ _ _ hseq]
  | cons g G ih =>
    obtain ⟨s, e⟩ := g
    intro h L hseq hc hL hl hz hg
    have hz := hz (by rw [hg]; simp)
    obtain ⟨A, B, hAB, hA, hB, hrun, hl', hg', hs, hse⟩ := slAppend_gap h c L hL hl hz s e G hg
    let k : Heap := { blanked h c s e with tseq := upd h.tseq t ⟨A ++ h.nE :: B, some c⟩ }
    have hmem : ∀ x, x ∈ A ++ h.nE :: B → x ∈ L ∨ x = h.nE := by
      intro x hx
      rw [hAB]
      simp only [List.mem_append, List.mem_cons] at hx ⊢
      rcases hx with hx | hx | hx
      · exact Or.inl (Or.inl hx)
      · exact Or.inr hx
      · exact Or.inl (Or.inr hx)
    obtain ⟨L', hrun', hl2, hg2, hsub, hperm⟩ := ih k (A ++ h.nE :: B) (upd_same _ _ _) hc
      (by
        intro x hx
        show x < h.nE + 1
        rcases hmem x hx with hx | hx
        · have := hL x hx; romega
        · romega)
      hl'
      (by
        intro _ x hx
        rcases hmem x hx with hx | hx
        · have := (blanked_same h c s e x (hL x hx)).start
          show 0 < (blanked h c s e).start x
          rw [this]; exact hz x hx
        · subst hx
          have : (blanked h c s e).start h.nE = s := upd_same _ _ _
          show 0 < (blanked h c s e).start h.nE
          rw [this]; exact hs)
      hg'
    refine ⟨L', ?_, ?_, ?_, ?_, ?_⟩
    · unfold tierFill
      mstep rfl
      rw [hc]
      mstep (newEntry_blank c s e h)
      mstep rfl
      mstep (show slAppend ((blanked h c s e).tseq t) h.nE (blanked h c s e) = _ by
        show slAppend (h.tseq t) h.nE (blanked h c s e) = _
        rw [hseq]; exact hrun)
      mstep rfl
      refine Eq.trans hrun' ?_
      rw [blankedAll_tseq]
      show Res.ok () { blankedAll (blanked h c s e) c G with
        tseq := upd (upd h.tseq t ⟨A ++ h.nE :: B, some c⟩) t ⟨L', some c⟩ } = _
      rw [upd_upd]
      rfl
    · rw [blankedAll_tseq] at hl2; exact hl2
    · rw [blankedAll_tseq] at hg2; exact hg2
    · exact List.Sublist.trans (by rw [hAB]; exact List.Sublist.append_left (List.sublist_cons_self _ _) _) hsub
    · refine hperm.trans ?_
      rw [List.length_cons, range'_succ', hAB]
      show (A ++ h.nE :: B ++ List.range' (h.nE + 1) G.length).Perm _
      rw [List.append_assoc, List.append_assoc, List.cons_append]
      exact List.Perm.append_left A List.perm_middle.symm

theorem gapsOf_nil_iff (l : List (Time × Time)) :
    gapsOf l = [] ↔ ∀ i p q, l[i]? = some p → l[i + 1]? = some q → p.2 = q.1 := by
  match l with
  | [] => simp [gapsOf]
  | [a] => simp [gapsOf]
  | a :: b :: r =>
    have ih := gapsOf_nil_iff (b :: r)
    rw [gapsOf]
    constructor
    · intro h i p q hp hq
      split at h
      · rename_i e
        cases i with
        | zero => simp at hp hq; subst hp; subst hq; exact e
        | succ i => exact ih.mp h i p q (by simpa using hp) (by simpa using hq)
      · simp at h
    · intro h
      rw [if_pos (h 0 a b rfl rfl)]
      exact ih.mpr fun i p q hp hq => h (i + 1) p q (by simpa using hp) (by simpa using hq)

theorem gapsOf_starts (l : List (Time × Time)) (h : Laid l) :
    (∀ g ∈ gapsOf l, ∀ p ∈ l, p.1 ≠ g.1) ∧ ((gapsOf l).map (·.1)).Nodup ∧
    (∀ g ∈ gapsOf l, ∀ p, l.head? = some p → p.2 ≤ g.1) := by
  match l with
  | [] => simp [gapsOf]
  | [a] => simp [gapsOf]
  | a :: b :: r =>
    obtain ⟨h1, h2, h3⟩ := gapsOf_starts (b :: r) h.tail
    have ha := h.head
    have hb := h.tail.head
    have key : ∀ g ∈ gapsOf (b :: r), b.2 ≤ g.1 := fun g hg => h3 g hg b rfl
    have hab := (ha.2 b (by simp)).1
    rw [gapsOf]
    split
    · rename_i e
      refine ⟨?_, h2, ?_⟩
      · intro g hg p hp
        rcases List.mem_cons.mp hp with hp | hp
        · subst hp
          have := key g hg; have := ha.1; have := hb.1; grind
        · exact h1 g hg p hp
      · intro g hg p hp
        have : a = p := by simpa using hp
        subst this
        have := key g hg; have := hb.1; grind
    · rename_i e
      refine ⟨?_, ?_, ?_⟩
      · intro g hg p hp
        rcases List.mem_cons.mp hg with hg' | hg'
        · subst hg'
          rcases List.mem_cons.mp hp with hp | hp
          · subst hp; have := ha.1; grind
          · have := (ha.2 p hp).1
            rcases List.mem_cons.mp hp with hp | hp
            · subst hp; grind
            · have := (hb.2 p hp).1; have := hb.1; grind
        · rcases List.mem_cons.mp hp with hp | hp
          · subst hp
            have := key g hg'; have := ha.1; have := hb.1; grind
          · exact h1 g hg' p hp
      · rw [List.map_cons, List.nodup_cons]
        refine ⟨?_, h2⟩
        intro hm
        obtain ⟨g, hg, hge⟩ := List.mem_map.mp hm
        have := key g hg; have := hb.1
        grind
      · intro g hg p hp
        have : a = p := by simpa using hp
        subst this
        rcases List.mem_cons.mp hg with hg | hg
        · subst hg; grind
        · have := key g hg; have := hb.1; grind

/-- with a start of 0 in the list every filler goes to the end -/
theorem tierFill_end (t : TRef) (c : CRef) (G : List (Time × Time)) :
    ∀ (h : Heap) (L : List Ref), h.tseq t = ⟨L, some c⟩ → h.tcls t = c → (∀ x ∈ L, x < h.nE) →
      (∃ x ∈ L, h.start x = 0) → (∀ g ∈ G, ∀ x ∈ L, h.start x ≠ g.1) → (G.map (·.1)).Nodup →
      tierFill t G h =
        .ok () { blankedAll h c G with tseq := upd h.tseq t ⟨L ++ List.range' h.nE G.length, some c⟩ } := by
  induction G with
  | nil =>
    intro h L hseq hc hL hz hg hn
    show Res.ok () h = Res.ok () { h with tseq := upd h.tseq t ⟨L ++ [], some c⟩ }
    rw [List.append_nil, upd_eq_self _ _ _ hseq]
  | cons g G ih =>
    obtain ⟨s, e⟩ := g
    intro h L hseq hc hL hz hg hn
    let k : Heap := { blanked h c s e with tseq := upd h.tseq t ⟨L ++ [h.nE], some c⟩ }
    have hst : ∀ x ∈ L, (blanked h c s e).start x = h.start x := fun x hx =>
      (blanked_same h c s e x (hL x hx)).start
    have hns : (blanked h c s e).start h.nE = s := upd_same _ _ _
    have hrun : slAppend ⟨L, some c⟩ h.nE (blanked h c s e) = .ok ⟨L ++ [h.nE], some c⟩ (blanked h c s e) := by
      have hcl : (blanked h c s e).cls h.nE = c := upd_same _ _ _
      have hnl : ¬ Listed (blanked h c s e) L h.nE := by
        rintro (hm | ⟨y, hy, hs⟩)
        · have := hL _ hm; romega
        · have e1 := hs.2.1
          rw [hst y hy, hns] at e1
          exact hg (s, e) (by simp) y hy e1
      rw [slAppend_ok _ _ _ c hnl rfl (by rw [hcl]; simp [isSub_refl]) (by unfold Heap.isPoint; rw [hcl])]
      rw [upd_eq_self _ _ _ hcl]
      congr 2
      unfold insAt
      rw [if_neg]
      obtain ⟨x, hx, h0⟩ := hz
      simp only [Bool.and_eq_true, List.all_eq_true, not_and]
      intro _ hall
      have := hall _ (List.mem_map_of_mem hx)
      rw [hst x hx, h0] at this
      simp at this
    have hrun' := ih k (L ++ [h.nE]) (upd_same _ _ _) hc
      (by
        intro x hx
        show x < h.nE + 1
        rcases List.mem_append.mp hx with hx | hx
        · have := hL x hx; romega
        · have : x = h.nE := by simpa using hx
          romega)
      (by
        obtain ⟨x, hx, h0⟩ := hz
        exact ⟨x, by simp [hx], (hst x hx).trans h0⟩)
      (by
        intro g hgm x hx
        rcases List.mem_append.mp hx with hx | hx
        · have := hg g (by simp [hgm]) x hx
          rw [show k.start x = h.start x from hst x hx]; exact this
        · have : x = h.nE := by simpa using hx
          subst this
          rw [show k.start h.nE = s from hns]
          intro heq
          rw [List.map_cons, List.nodup_cons] at hn
          exact hn.1 (List.mem_map.mpr ⟨g, hgm, heq.symm⟩))
      (by rw [List.map_cons, List.nodup_cons] at hn; exact hn.2)
    unfold tierFill
    mstep rfl
    rw [hc]
    mstep (newEntry_blank c s e h)
    mstep rfl
    mstep (show slAppend ((blanked h c s e).tseq t) h.nE (blanked h c s e) = _ by
      show slAppend (h.tseq t) h.nE (blanked h c s e) = _
      rw [hseq]; exact hrun)
    mstep rfl
    refine Eq.trans hrun' ?_
    rw [blankedAll_tseq]
    show Res.ok () { blankedAll (blanked h c s e) c G with
      tseq := upd (upd h.tseq t ⟨L ++ [h.nE], some c⟩) t ⟨L ++ [h.nE] ++ List.range' (h.nE + 1) G.length, some c⟩ } = _
    rw [upd_upd, List.append_assoc]
    rfl

end ATG
