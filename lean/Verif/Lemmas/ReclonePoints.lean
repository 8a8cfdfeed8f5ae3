import Verif.Lemmas.Import
import Verif.Spec.ImportPoints
/-!
# Cloning classes of intervals and classes of points
-/
namespace ATG

theorem clonePoint {ct : ClassTab} (w : WFC ct) {c : CRef} (hc : c < ct.next) (hp : ct.isSub c cPoint = true) :
    ∃ ct', cloneOrReuse [] [] ct c = (ct', .ok ct.next) ∧ WFC ct' ∧ Ext ct ct' ∧ ct'.next = ct.next + 1 ∧
      ct'.name ct.next = ct.name c ∧ ct'.isSub ct.next cPoint = true ∧ ct'.isSub ct.next c = true := by
  have hni : ct.isSub c cInterval = false := by
    cases hq : ct.isSub c cInterval with
    | false => rfl
    | true =>
      rw [not_interval_point w c c (Nat.le_refl _) hc hq] at hp
      cases hp
  have hw : WFC (addClass ct (ct.name c) c (ct.ownSup c) (ct.ownSub c)) :=
    wfc_addClass w _ hc (fun s hs => w.supLt c s hc hs) (fun s hs => w.subLt c s hc hs)
  have hx := ext_addClass ct (ct.name c) c (ct.ownSup c) (ct.ownSub c)
  refine ⟨_, ?_, hw, hx, rfl, ?_, ?_, ?_⟩
  · unfold cloneOrReuse hierFuel
    simp only [List.findIdx?_nil]
    unfold cloneClassN
    rw [if_neg (by rw [hni]; simp)]
    simp only [copyClass_eq]
  · exact upd_same _ _ _
  · rw [isSub_parent hw cPoint (p := c) (Nat.lt_succ_self _) (upd_same _ _ _), isSub_ext w hx c cPoint hc, hp]
    simp
  · rw [isSub_parent hw c (p := c) (Nat.lt_succ_self _) (upd_same _ _ _), isSub_refl]
    simp

theorem clonePoints_run : ∀ (points : List CRef) {ct : ClassTab}, WFC ct →
    (∀ c ∈ points, c < ct.next ∧ ct.isSub c cPoint = true) →
    ∃ (ct' : ClassTab) (ps : List CRef), cloneAll [] [] ct points = (ct', .ok ps) ∧ WFC ct' ∧ Ext ct ct' ∧
      ps.map ct'.name = points.map ct.name ∧ (∀ c ∈ ps, ct.next ≤ c ∧ c < ct'.next ∧ ct'.isSub c cPoint = true) ∧
      ∀ d ∈ ps, ∃ c ∈ points, ct'.name d = ct.name c ∧ ct'.isSub d c = true
  | [], ct, w, _ => ⟨ct, [], rfl, w, Ext.refl ct, rfl, by simp, by simp⟩
  | c :: points, ct, w, hp => by
    obtain ⟨hc, hs⟩ := hp c (by simp)
    obtain ⟨ct1, e1, w1, x1, n1, m1, s1, p1⟩ := clonePoint w hc hs
    obtain ⟨ct2, ps, e2, w2, x2, m2, s2, p2⟩ := clonePoints_run points w1 (by
      intro d hd
      obtain ⟨q1, q2⟩ := hp d (by simp [hd])
      exact ⟨Nat.lt_of_lt_of_le q1 x1.le, by rw [isSub_ext w x1 d _ q1]; exact q2⟩)
    have hlt : ct.next < ct1.next := by rw [n1]; exact Nat.lt_succ_self _
    refine ⟨ct2, ct.next :: ps, ?_, w2, x1.trans x2, ?_, ?_, ?_⟩
    · unfold cloneAll
      rw [e1, CRes.bind_ok, e2, CRes.bind_ok]
    · rw [List.map_cons, List.map_cons, x2.name _ hlt, m1, m2]
      congr 1
      exact List.map_congr_left fun d hd => x1.name d (hp d (by simp [hd])).1
    · intro d hd
      rcases List.mem_cons.mp hd with rfl | hd
      · exact ⟨Nat.le_refl _, Nat.lt_of_lt_of_le hlt x2.le, by rw [isSub_ext w1 x2 _ _ hlt]; exact s1⟩
      · obtain ⟨q1, q2, q3⟩ := s2 d hd
        exact ⟨Nat.le_trans x1.le q1, q2, q3⟩
    · intro d hd
      rcases List.mem_cons.mp hd with rfl | hd
      · exact ⟨c, by simp, by rw [x2.name _ hlt, m1], by rw [isSub_ext w1 x2 _ _ hlt]; exact p1⟩
      · obtain ⟨o, ho, q1, q2⟩ := p2 d hd
        exact ⟨o, by simp [ho], by rw [q1, x1.name o (hp o (by simp [ho])).1], q2⟩

theorem filter_flatten_kinds {p : CRef → Bool} {q : List CRef → Bool} : ∀ (css : List (List CRef)),
    (∀ cs ∈ css, (q cs = true ∧ ∀ c ∈ cs, p c = true) ∨ (q cs = false ∧ ∀ c ∈ cs, p c = false)) →
    css.flatten.filter p = (css.filter q).flatten
  | [], _ => rfl
  | cs :: css, h => by
    rw [List.flatten_cons, List.filter_append, filter_flatten_kinds css fun K hK => h K (by simp [hK]), List.filter_cons]
    rcases h cs (by simp) with ⟨h1, h2⟩ | ⟨h1, h2⟩
    · rw [if_pos h1, List.filter_eq_self.mpr h2, List.flatten_cons]
    · rw [if_neg (by rw [h1]; simp), List.filter_eq_nil_iff.mpr fun c hc => by rw [h2 c hc]; simp]
      rfl

/-- every class has one of its name among the new ones -/
theorem swapClasses_total {ct : ClassTab} {new : List CRef} : ∀ (cs : List CRef),
    (∀ o ∈ cs, ∃ y ∈ new, ct.name y = ct.name o) →
    ∃ K, swapClasses ct cs new = .ok K ∧ K.map ct.name = cs.map ct.name ∧ ∀ y ∈ K, y ∈ new
  | [], _ => ⟨[], rfl, rfl, by simp⟩
  | o :: cs, h => by
    obtain ⟨K, e, hn, hm⟩ := swapClasses_total cs fun d hd => h d (by simp [hd])
    obtain ⟨y, hy, hyn⟩ := h o (by simp)
    cases hf : new.find? (fun c => ct.name c == ct.name o) with
    | none =>
      rw [List.find?_eq_none] at hf
      exact absurd (by rw [hyn]; simp) (hf y hy)
    | some z =>
      have hz := List.mem_of_find?_eq_some hf
      have hzn := List.find?_some hf
      refine ⟨z :: K, ?_, ?_, ?_⟩
      · unfold swapClasses at e ⊢
        rw [mapM_ok_iff] at e ⊢
        rw [List.map_cons, List.map_cons, e, hf]
      · rw [List.map_cons, List.map_cons, hn]
        congr 1
        simpa using hzn
      · intro x hx
        rcases List.mem_cons.mp hx with rfl | hx
        · exact hz
        · exact hm x hx

theorem swapClasses_front {ct : ClassTab} {cs K ps full : List CRef} (h : swapClasses ct cs ps = .ok K) :
    swapClasses ct cs (ps ++ full) = .ok K := by
  unfold swapClasses at h ⊢
  rw [mapM_ok_iff] at h ⊢
  rw [← h]
  apply List.map_congr_left
  intro o ho
  rw [List.find?_append]
  cases hf : ps.find? (fun c => ct.name c == ct.name o) with
  | some z => rfl
  | none =>
    obtain ⟨i, hi⟩ := List.mem_iff_getElem?.mp ho
    have q := congrArg (·[i]?) h
    simp only [List.getElem?_map, hi, Option.map_some, hf] at q
    obtain ⟨_, _, q⟩ := Option.map_eq_some_iff.mp q.symm
    cases q

theorem swapClasses_back {ct : ClassTab} {cs ps full : List CRef} (h : ∀ o ∈ cs, ∀ z ∈ ps, ct.name z ≠ ct.name o) :
    swapClasses ct cs (ps ++ full) = swapClasses ct cs full := by
  unfold swapClasses
  have : ∀ o ∈ cs, (ps ++ full).find? (fun c => ct.name c == ct.name o) = full.find? (fun c => ct.name c == ct.name o) := by
    intro o ho
    rw [List.find?_append, List.find?_eq_none.mpr (fun z hz => by simpa using h o ho z hz)]
    rfl
  induction cs with
  | nil => rfl
  | cons o cs ih =>
    rw [List.mapM_cons, List.mapM_cons, this o (by simp), ih (fun d hd => h d (by simp [hd])) fun d hd => this d (by simp [hd])]

theorem exists_mapM {α β} {f : α → Except Err β} {P : α → β → Prop} : ∀ (l : List α), (∀ a ∈ l, ∃ b, f a = .ok b ∧ P a b) →
    ∃ l', l.mapM f = .ok l' ∧ l'.length = l.length ∧ ∀ (i : Nat) a b, l[i]? = some a → l'[i]? = some b → P a b
  | [], _ => ⟨[], rfl, rfl, by simp⟩
  | a :: l, h => by
    obtain ⟨b, e, p⟩ := h a (by simp)
    obtain ⟨l', e', n, q⟩ := exists_mapM l fun x hx => h x (by simp [hx])
    refine ⟨b :: l', ?_, by simp [n], ?_⟩
    · rw [mapM_ok_iff] at e' ⊢
      rw [List.map_cons, List.map_cons, e, e']
    · intro i x y hx hy
      cases i with
      | zero => simp at hx hy; subst hx; subst hy; exact p
      | succ i => exact q i x y (by simpa using hx) (by simpa using hy)

/-- the clone of a list of classes -/
structure ClonedList (ct ct' : ClassTab) (new cs cs' : List CRef) : Prop where
  names : cs'.map ct'.name = cs.map ct.name
  new : ∀ c ∈ cs', ct.next ≤ c ∧ c ∈ new
  hier : IsHierarchy ct cs → IsHierarchy ct' cs'
  points : PointClasses ct cs → PointClasses ct' cs'
  sub : PointClasses ct cs → ∀ (i : Nat) d c, cs'[i]? = some d → cs[i]? = some c → ct'.isSub d c = true

theorem reclone_core {ct1 ct' : ClassTab} {tops ps full : List CRef}
    (e : ((cloneAll [] [] ct1 tops).bind fun ct ts => (ct, match hiersOf ct ts with
      | .error e => .error e
      | .ok full => .ok full)) = (ct', .ok full)) :
    ((cloneAll [] [] ct1 tops).bind fun ct ts => (ct, match hiersOf ct ts with
      | .error e => .error e
      | .ok full => .ok (ps ++ full))) = (ct', .ok (ps ++ full)) := by
  revert e
  generalize cloneAll [] [] ct1 tops = r
  obtain ⟨rt, rr⟩ := r
  cases rr with
  | error e => intro e2; cases (Prod.ext_iff.mp e2).2
  | ok ts =>
    simp only [CRes.bind_ok]
    intro e2
    obtain ⟨q1, q2⟩ := Prod.ext_iff.mp e2
    dsimp only at q1 q2
    subst q1
    cases hho : hiersOf rt ts with
    | error e => rw [hho] at q2; cases q2
    | ok f =>
      rw [hho] at q2
      have : f = full := Except.ok.inj q2
      rw [this]

theorem recloneMixed_run {ct : ClassTab} (w : WFC ct) {css : List (List CRef)} (mc : MixedClasses ct css) :
    ∃ ct' new css', reclone [] ct css.flatten = (ct', .ok new) ∧ WFC ct' ∧ Ext ct ct' ∧
      css.mapM (fun l => swapClasses ct' l new) = .ok css' ∧ css'.length = css.length ∧
      ∀ (i : Nat) cs cs', css[i]? = some cs → css'[i]? = some cs' → ClonedList ct ct' new cs cs' := by
  have hno : ∀ cs, IsHierarchy ct cs → ¬ PointClasses ct cs := by
    rintro cs hi ⟨q1, q2⟩
    obtain ⟨c, hc⟩ := List.exists_mem_of_ne_nil _ q1
    have := (q2 c hc).2
    rw [hi.not_point w hc] at this
    cases this
  have hpi : ∀ c, c < ct.next → ct.isSub c cPoint = true → ct.isSub c cInterval = false := by
    intro c hc hp
    cases hq : ct.isSub c cInterval with
    | false => rfl
    | true =>
      rw [not_interval_point w c c (Nat.le_refl _) hc hq] at hp
      cases hp
  have hlt : ∀ cs ∈ css, ∀ c ∈ cs, c < ct.next := by
    intro cs hcs c hc
    rcases mc.kind cs hcs with ⟨hi, -⟩ | hp
    · exact (hi.mem c hc).1
    · exact (hp.2 c hc).1
  let isIv : List CRef → Bool := fun cs => cs.all fun c => ct.isSub c cInterval
  have hkI : ∀ cs ∈ css, IsHierarchy ct cs → isIv cs = true := by
    intro cs _ hi
    exact List.all_eq_true.mpr fun c hc => (hi.mem c hc).2.1
  have hkP : ∀ cs ∈ css, PointClasses ct cs → isIv cs = false := by
    intro cs _ hp
    obtain ⟨c, hc⟩ := List.exists_mem_of_ne_nil _ hp.1
    exact List.all_eq_false.mpr ⟨c, hc, by rw [hpi c (hp.2 c hc).1 (hp.2 c hc).2]; simp⟩
  have hH : ∀ cs ∈ css.filter isIv, cs ∈ css ∧ IsHierarchy ct cs ∧ ∀ c ∈ cs, PlainName (ct.name c) := by
    intro cs hcs
    obtain ⟨m, q⟩ := List.mem_filter.mp hcs
    rcases mc.kind cs m with ⟨hi, hp⟩ | hp
    · exact ⟨m, hi, hp⟩
    · rw [hkP cs m hp] at q; cases q
  have hHm : ∀ cs ∈ css, IsHierarchy ct cs → cs ∈ css.filter isIv := fun cs m hi => List.mem_filter.mpr ⟨m, hkI cs m hi⟩
  have hivs : css.flatten.eraseDups.filter (fun c => ct.isSub c cInterval) = (css.filter isIv).flatten.eraseDups := by
    rw [filter_eraseDups _ _ _ (Nat.le_refl _), filter_flatten_kinds (q := isIv) css]
    intro cs hcs
    rcases mc.kind cs hcs with ⟨hi, -⟩ | hp
    · exact Or.inl ⟨hkI cs hcs hi, fun c hc => (hi.mem c hc).2.1⟩
    · exact Or.inr ⟨hkP cs hcs hp, fun c hc => hpi c (hp.2 c hc).1 (hp.2 c hc).2⟩
  generalize hpts : css.flatten.eraseDups.filter (fun c => ct.isSub c cPoint) = points
  have hpm : ∀ c, c ∈ points ↔ c ∈ css.flatten ∧ ct.isSub c cPoint = true := by
    intro c
    rw [← hpts, List.mem_filter, List.mem_eraseDups]
  have hflat : ∀ c, c ∈ css.flatten → c < ct.next := by
    intro c hc
    obtain ⟨cs, h1, h2⟩ := List.mem_flatten.mp hc
    exact hlt cs h1 c h2
  obtain ⟨ct1, ps, e1, w1, x1, n1, s1, p1⟩ := clonePoints_run points w fun c hc =>
    ⟨hflat c ((hpm c).mp hc).1, ((hpm c).mp hc).2⟩
  have hHf : ∀ c ∈ (css.filter isIv).flatten, c ∈ css.flatten ∧ ct.isSub c cPoint = false ∧ PlainName (ct.name c) ∧
      ∃ cs ∈ css.filter isIv, c ∈ cs := by
    intro c hc
    obtain ⟨cs, h1, h2⟩ := List.mem_flatten.mp hc
    obtain ⟨m, hi, hp⟩ := hH cs h1
    exact ⟨List.mem_flatten.mpr ⟨cs, m, h2⟩, hi.not_point w h2, hp c h2, cs, h1, h2⟩
  obtain ⟨ct', full, H', e2, w2, x2, e3, hh, hnm, hin⟩ := reclone_run w1 (css.filter isIv)
    (fun cs hcs => (hH cs hcs).2.1.ext w x1)
    (fun c hc => by
      obtain ⟨m, q, -⟩ := hHf c hc
      rw [isSub_ext w x1 c _ (hflat c m)]; exact q)
    (fun c hc => by
      obtain ⟨m, -, q, -⟩ := hHf c hc
      rw [x1.name c (hflat c m)]; exact q)
    (fun c hc d hd e => by
      obtain ⟨m, -⟩ := hHf c hc
      obtain ⟨m', -⟩ := hHf d hd
      rw [x1.name c (hflat c m), x1.name d (hflat d m')] at e
      exact mc.names c m d m' e)
  have x := x1.trans x2
  have hpsn : ∀ z ∈ ps, ∃ c ∈ points, ct'.name z = ct.name c := by
    intro z hz
    have := List.mem_map_of_mem (f := ct1.name) hz
    rw [n1] at this
    obtain ⟨c, hc, e⟩ := List.mem_map.mp this
    exact ⟨c, hc, (x2.name z (s1 z hz).2.1).trans e.symm⟩
  -- each list
  have each : ∀ cs ∈ css, ∃ cs', swapClasses ct' cs (ps ++ full) = .ok cs' ∧ ClonedList ct ct' (ps ++ full) cs cs' := by
    intro cs hcs
    rcases mc.kind cs hcs with ⟨hi, -⟩ | hp
    · obtain ⟨i, hx⟩ := List.mem_iff_getElem?.mp (hHm cs hcs hi)
      have q1 := congrArg (·[i]?) ((mapM_ok_iff _ _ _).mp e3)
      simp only [List.getElem?_map, hx, Option.map_some] at q1
      obtain ⟨cs', q2, q3⟩ := Option.map_eq_some_iff.mp q1.symm
      have q4 := congrArg (·[i]?) hnm
      simp only [List.getElem?_map, hx, q2, Option.map_some] at q4
      have q4 : cs'.map ct'.name = cs.map ct1.name := Option.some.inj q4
      have m' := List.mem_of_getElem? q2
      refine ⟨cs', ?_, ?_, ?_, ?_, ?_, fun q => absurd q (hno cs hi)⟩
      · rw [swapClasses_back, ← q3]
        intro o ho z hz e
        obtain ⟨c, hc, en⟩ := hpsn z hz
        rw [x.name o (hlt cs hcs o ho), en] at e
        have := mc.names c ((hpm c).mp hc).1 o (List.mem_flatten.mpr ⟨cs, hcs, ho⟩) e
        subst this
        have := ((hpm c).mp hc).2
        rw [hi.not_point w ho] at this
        cases this
      · rw [q4]
        exact List.map_congr_left fun c hc => x1.name c (hlt cs hcs c hc)
      · intro c hc
        exact ⟨Nat.le_trans x1.le ((hh cs' m').2.1 c hc), List.mem_append_right _ (hin cs' m' c hc)⟩
      · exact fun _ => (hh cs' m').1
      · exact fun q => absurd q (hno cs hi)
    · obtain ⟨K, k1, k2, k3⟩ := swapClasses_total (ct := ct') (new := ps) cs (by
        intro o ho
        have hm : o ∈ points := (hpm o).mpr ⟨List.mem_flatten.mpr ⟨cs, hcs, ho⟩, (hp.2 o ho).2⟩
        have := List.mem_map_of_mem (f := ct.name) hm
        rw [← n1] at this
        obtain ⟨y, hy, e⟩ := List.mem_map.mp this
        exact ⟨y, hy, by rw [x2.name y (s1 y hy).2.1, e, x.name o (hp.2 o ho).1]⟩)
      refine ⟨K, swapClasses_front k1, ?_, ?_, ?_, ?_, ?_⟩
      · rw [k2]
        exact List.map_congr_left fun c hc => x.name c (hp.2 c hc).1
      · intro c hc
        exact ⟨(s1 c (k3 c hc)).1, List.mem_append_left _ (k3 c hc)⟩
      · exact fun q => absurd hp (hno cs q)
      · intro _
        refine ⟨?_, ?_⟩
        · intro e
          rw [e] at k2
          exact hp.1 (List.map_eq_nil_iff.mp k2.symm)
        · intro c hc
          obtain ⟨t1, t2, t3⟩ := s1 c (k3 c hc)
          exact ⟨Nat.lt_of_lt_of_le t2 x2.le, by rw [isSub_ext w1 x2 c _ t2]; exact t3⟩
      · intro _ i d c hd hc
        have hdm := k3 d (List.mem_of_getElem? hd)
        have hcm := List.mem_of_getElem? hc
        obtain ⟨o, ho, q1, q2⟩ := p1 d hdm
        have q3 := congrArg (·[i]?) k2
        simp only [List.getElem?_map, hd, hc, Option.map_some] at q3
        have q3 : ct'.name d = ct'.name c := Option.some.inj q3
        rw [x2.name d (s1 d hdm).2.1, q1, x.name c (hp.2 c hcm).1] at q3
        have := mc.names o ((hpm o).mp ho).1 c (List.mem_flatten.mpr ⟨cs, hcs, hcm⟩) q3
        subst this
        rw [isSub_ext w1 x2 d _ (s1 d hdm).2.1]
        exact q2
  obtain ⟨css', c1, c2, c3⟩ := exists_mapM css each
  refine ⟨ct', ps ++ full, css', ?_, w2, x, c1, c2, c3⟩
  -- the program
  have hiv1 : (css.filter isIv).flatten.eraseDups.filter (fun c => ct1.isSub c cInterval) = (css.filter isIv).flatten.eraseDups := by
    rw [List.filter_eq_self]
    intro c hc
    obtain ⟨m, -, -, cs, h1, h2⟩ := hHf c (List.mem_eraseDups.mp hc)
    rw [isSub_ext w x1 c _ (hflat c m)]
    exact ((hH cs h1).2.1.mem c h2).2.1
  have hpt1 : (css.filter isIv).flatten.eraseDups.filter (fun c => ct1.isSub c cPoint) = [] := by
    rw [List.filter_eq_nil_iff]
    intro c hc
    obtain ⟨m, q, -⟩ := hHf c (List.mem_eraseDups.mp hc)
    rw [isSub_ext w x1 c _ (hflat c m), q]
    simp
  have hsup : ∀ c ∈ (css.filter isIv).flatten.eraseDups, ct1.sup c = ct.sup c := fun c hc =>
    sup_ext w x1 c (hflat c (hHf c (List.mem_eraseDups.mp hc)).1)
  have hany1 : (css.filter isIv).flatten.eraseDups.any (fun c => (ct1.sup c).isNone) =
      (css.filter isIv).flatten.eraseDups.any (fun c => (ct.sup c).isNone) := by
    rw [Bool.eq_iff_iff, List.any_eq_true, List.any_eq_true]
    constructor
    · rintro ⟨c, hc, q⟩
      exact ⟨c, hc, by rw [← hsup c hc]; exact q⟩
    · rintro ⟨c, hc, q⟩
      exact ⟨c, hc, by rw [hsup c hc]; exact q⟩
  have htop1 : (css.filter isIv).flatten.eraseDups.filter (fun c => match ct1.sup c with
        | some s => ct1.isSub s cTop
        | none => false) =
      (css.filter isIv).flatten.eraseDups.filter (fun c => match ct.sup c with
        | some s => ct.isSub s cTop
        | none => false) := by
    apply List.filter_congr
    intro c hc
    rw [hsup c hc]
    have hl := hflat c (hHf c (List.mem_eraseDups.mp hc)).1
    cases hs : ct.sup c with
    | none => rfl
    | some s => exact isSub_ext w x1 s _ (sup_lt w c c s (Nat.le_refl _) hl hs)
  unfold reclone at e2 ⊢
  simp only [hiv1, hpt1, hany1] at e2
  simp only [hivs, hpts]
  split at e2
  · cases (Prod.ext_iff.mp e2).2
  · rename_i hq
    rw [if_neg hq]
    simp only [cloneAll, List.map_nil, CRes.bind_ok, List.nil_append] at e2 ⊢
    rw [e1, CRes.bind_ok]
    exact Eq.trans (congrArg (fun t => (cloneAll [] [] ct1 t).bind fun ct ts => (ct, match hiersOf ct ts with
      | .error e => .error e
      | .ok full => .ok (ps ++ full))) htop1.symm) (reclone_core e2)

/-- the clone of a list of classes, which may lack the lowest ones of its hierarchy -/
structure ClonedPart (ct ct' : ClassTab) (new cs cs' : List CRef) : Prop where
  names : cs'.map ct'.name = cs.map ct.name
  new : ∀ c ∈ cs', ct.next ≤ c ∧ c ∈ new
  hier : TopPart ct cs → TopPart ct' cs'
  points : PointClasses ct cs → PointClasses ct' cs'
  sub : PointClasses ct cs → ∀ (i : Nat) d c, cs'[i]? = some d → cs[i]? = some c → ct'.isSub d c = true

theorem TopPart.not_points {ct : ClassTab} (w : WFC ct) {cs : List CRef} (tp : TopPart ct cs) : ¬ PointClasses ct cs := by
  rintro ⟨q1, q2⟩
  obtain ⟨c, hc⟩ := List.exists_mem_of_ne_nil _ q1
  have := (q2 c hc).2
  rw [tp.not_point w hc] at this
  cases this

theorem ImportClasses.kind {ct : ClassTab} {css : List (List CRef)} (ic : ImportClasses ct css) :
    ∀ cs ∈ css, (TopPart ct cs ∧ ∀ c ∈ cs, PlainName (ct.name c)) ∨ PointClasses ct cs := by
  obtain ⟨full, mc, tp, same⟩ := ic
  intro cs hcs
  obtain ⟨i, hi⟩ := List.mem_iff_getElem?.mp hcs
  obtain ⟨L, h1, h2, h3⟩ := tp.get hi
  rcases mc.kind L (List.mem_of_getElem? h1) with ⟨hl, hn⟩ | hp
  · exact Or.inl ⟨.of_prefix h2 h3 hl, fun c hc => hn c (h3.subset hc)⟩
  · rw [same i cs L hi h1 hp]
    exact Or.inr hp

theorem ImportClasses.names {ct : ClassTab} {css : List (List CRef)} (ic : ImportClasses ct css) :
    ∀ c ∈ css.flatten, ∀ d ∈ css.flatten, ct.name c = ct.name d → c = d := by
  obtain ⟨full, mc, tp, same⟩ := ic
  have hsub : ∀ c ∈ css.flatten, c ∈ full.flatten := by
    intro c hc
    obtain ⟨cs, h1, h2⟩ := List.mem_flatten.mp hc
    obtain ⟨L, h3, -, h4⟩ := tp.mem h1
    exact List.mem_flatten.mpr ⟨L, h3, h4.subset h2⟩
  exact fun c hc d hd => mc.names c (hsub c hc) d (hsub d hd)

theorem MixedClasses.import {ct : ClassTab} {css : List (List CRef)} (mc : MixedClasses ct css) : ImportClasses ct css := by
  refine ⟨css, mc, ⟨rfl, fun i cs L h1 h2 => ?_⟩, fun i cs L h1 h2 _ => Option.some.inj (h1.symm.trans h2)⟩
  have := Option.some.inj (h1.symm.trans h2)
  subst this
  refine ⟨?_, List.prefix_refl _⟩
  rcases mc.kind cs (List.mem_of_getElem? h1) with ⟨hl, -⟩ | hp
  · exact hl.ne
  · exact hp.1

theorem recloneImport_run {ct : ClassTab} (w : WFC ct) {css : List (List CRef)} (ic : ImportClasses ct css) :
    ∃ ct' new css', reclone [] ct css.flatten = (ct', .ok new) ∧ WFC ct' ∧ Ext ct ct' ∧
      css.mapM (fun l => swapClasses ct' l new) = .ok css' ∧ css'.length = css.length ∧
      ∀ (i : Nat) cs cs', css[i]? = some cs → css'[i]? = some cs' → ClonedPart ct ct' new cs cs' := by
  obtain ⟨full, mc, tp, same⟩ := ic
  obtain ⟨ct', new, full', e1, w', x, e2, hlen, hcl⟩ := recloneMixed_run w mc
  rw [← reclone_tops w tp fun i cs L h1 h2 => by
    rcases mc.kind L (List.mem_of_getElem? h2) with ⟨hl, -⟩ | hp
    · exact Or.inl hl
    · exact Or.inr (same i cs L h1 h2 hp)] at e1
  obtain ⟨css', e3, tp'⟩ := swapAll_prefix tp e2
  refine ⟨ct', new, css', e1, w', x, e3, by rw [tp'.1, hlen, tp.1], ?_⟩
  intro i cs cs' h1 h2
  obtain ⟨L, g1, g2, g3⟩ := tp.get h1
  obtain ⟨L', k1, k2, k3⟩ := tp'.get h2
  have cl := hcl i L L' g1 k1
  have q := congrArg (·[i]?) ((mapM_ok_iff _ _ _).mp e3)
  simp only [List.getElem?_map, h1, h2, Option.map_some] at q
  have q := swapClasses_names (Option.some.inj q)
  have hlt : ∀ c ∈ cs, c < ct.next := by
    intro c hc
    rcases mc.kind L (List.mem_of_getElem? g1) with ⟨hl, -⟩ | hp
    · exact (hl.mem c (g3.subset hc)).1
    · exact (hp.2 c (g3.subset hc)).1
  have hnames : cs'.map ct'.name = cs.map ct.name := by
    rw [q]
    exact List.map_congr_left fun c hc => x.name c (hlt c hc)
  have hpc : PointClasses ct cs → cs = L ∧ cs' = L' := by
    intro hp
    rcases mc.kind L (List.mem_of_getElem? g1) with ⟨hl, -⟩ | hq
    · exact absurd hp (TopPart.not_points w (.of_prefix g2 g3 hl))
    · have e := same i cs L h1 g1 hq
      refine ⟨e, k3.eq_of_length ?_⟩
      have n1 := congrArg List.length hnames
      have n2 := congrArg List.length cl.names
      rw [List.length_map, List.length_map] at n1 n2
      rw [n1, n2, e]
  refine ⟨hnames, fun c hc => cl.new c (k3.subset hc), ?_, ?_, ?_⟩
  · intro tq
    rcases mc.kind L (List.mem_of_getElem? g1) with ⟨hl, -⟩ | hq
    · exact .of_prefix k2 k3 (cl.hier hl)
    · exact absurd (by rw [same i cs L h1 g1 hq]; exact hq) (tq.not_points w)
  · intro hp
    obtain ⟨a1, a2⟩ := hpc hp
    rw [a2]
    exact cl.points (by rw [← a1]; exact hp)
  · intro hp
    obtain ⟨a1, a2⟩ := hpc hp
    rw [a1, a2]
    exact cl.sub (by rw [← a1]; exact hp)

end ATG
