import Verif.Props.Custom
import Verif.Model.Textgrid
import Verif.Lemmas.Extent
/-!
# Cloned class hierarchies
-/
namespace ATG

theorem IsHierarchy.ext {ct ct' : ClassTab} {l : List CRef} (hl : IsHierarchy ct l) (w : WFC ct) (x : Ext ct ct') :
    IsHierarchy ct' l := by
  have hlt : ∀ c ∈ l, c < ct.next := fun c hc => (hl.mem c hc).1
  refine ⟨hl.ne, hl.nodup, ?_, ?_, ?_, ?_⟩
  · intro c hc
    obtain ⟨h1, h2, h3, h4⟩ := hl.mem c hc
    rw [isSub_ext w x _ _ h1, isSub_ext w x _ _ h1, isSub_ext w x _ _ h1]
    exact ⟨Nat.lt_of_lt_of_le h1 x.le, h2, h3, h4⟩
  · intro c hc
    have hm := hlt c (List.mem_of_head? hc)
    obtain ⟨t, h1, h2⟩ := hl.top c hc
    exact ⟨t, by rw [sup_ext w x c hm]; exact h1, by rw [isSub_ext w x _ _ (sup_lt w c c t (Nat.le_refl _) hm h1)]; exact h2⟩
  · intro c hc
    have hm := hlt c (List.mem_of_getLast? hc)
    obtain ⟨t, h1, h2⟩ := hl.bottom c hc
    exact ⟨t, by rw [sub_ext w x c hm]; exact h1, by rw [isSub_ext w x _ _ (sub_lt w c c t (Nat.le_refl _) hm h1)]; exact h2⟩
  · intro i a b ha hb
    rw [sub_ext w x a (hlt a (List.mem_of_getElem? ha)), sup_ext w x b (hlt b (List.mem_of_getElem? hb))]
    exact hl.links i a b ha hb

theorem IsHierarchy.unique {ct : ClassTab} {l l' : List CRef} (a : IsHierarchy ct l) (b : IsHierarchy ct l') {c : CRef}
    (h1 : c ∈ l) (h2 : c ∈ l') : l = l' := by
  have e1 := C34_hierarchy a h1 (2 * (l.length + l'.length)) (by omega)
  have e2 := C34_hierarchy b h2 (2 * (l.length + l'.length)) (by omega)
  rw [e1] at e2
  injection e2

/-- the member of a hierarchy below a `Top` class is its first -/
theorem IsHierarchy.head_of_top {ct : ClassTab} {l : List CRef} (a : IsHierarchy ct l) {c t : CRef} (hc : c ∈ l)
    (hs : ct.sup c = some t) (ht : ct.isSub t cTop = true) : l.head? = some c := by
  obtain ⟨i, hi⟩ := List.mem_iff_getElem?.mp hc
  cases i with
  | zero => rw [List.head?_eq_getElem?]; exact hi
  | succ i =>
    obtain ⟨hlt, -⟩ := List.getElem?_eq_some_iff.mp hi
    have hm : l[i]? = some l[i] := List.getElem?_eq_getElem (by omega)
    have := (a.links i _ c hm hi).2
    rw [hs] at this
    have := (a.mem _ (List.mem_of_getElem? hm)).2.2.1
    rw [← Option.some.inj ‹some t = some l[i]›, ht] at this
    cases this

theorem exists_lists {α} {P : List α → Prop} : ∀ (tops : List α), (∀ c ∈ tops, ∃ L, P L ∧ L.head? = some c) →
    ∃ Ls : List (List α), Ls.map List.head? = tops.map some ∧ ∀ L ∈ Ls, P L
  | [], _ => ⟨[], rfl, by simp⟩
  | c :: tops, h => by
    obtain ⟨L, h1, h2⟩ := h c (by simp)
    obtain ⟨Ls, h3, h4⟩ := exists_lists tops fun d hd => h d (by simp [hd])
    refine ⟨L :: Ls, by rw [List.map_cons, List.map_cons, h2, h3], ?_⟩
    intro K hK
    rcases List.mem_cons.mp hK with rfl | hK
    · exact h1
    · exact h4 K hK

theorem cloneAll_run : ∀ (tops : List CRef) (Ls : List (List CRef)) {ct : ClassTab}, WFC ct →
    Ls.map List.head? = tops.map some → (∀ L ∈ Ls, IsHierarchy ct L ∧ ∀ c ∈ L, PlainName (ct.name c)) →
    ∃ (ct' : ClassTab) (tops' : List CRef) (Ls' : List (List CRef)), cloneAll [] [] ct tops = (ct', .ok tops') ∧ WFC ct' ∧ Ext ct ct' ∧
      Ls'.map List.head? = tops'.map some ∧ (∀ L ∈ Ls', IsHierarchy ct' L ∧ (∀ c ∈ L, ct.next ≤ c) ∧ OwnRow ct' L) ∧
      Ls'.map (List.map ct'.name) = Ls.map (List.map ct.name)
  | [], Ls, ct, w, hh, _ => by
    have : Ls = [] := List.map_eq_nil_iff.mp hh
    subst this
    exact ⟨ct, [], [], rfl, w, Ext.refl ct, rfl, by simp, rfl⟩
  | c :: tops, [], ct, w, hh, _ => by simp at hh
  | c :: tops, L :: Ls, ct, w, hh, hL => by
    rw [List.map_cons, List.map_cons, List.cons.injEq] at hh
    obtain ⟨hl, hp⟩ := hL L (by simp)
    obtain ⟨ct1, l', d, e1, w1, x1, hl', hd, hnm, hge, -, hown⟩ := clone_hierarchy w hl hp hh.1
    obtain ⟨ct2, tops', Ls', e2, w2, x2, hh', hL', hn'⟩ := cloneAll_run tops Ls w1 hh.2 (by
      intro K hK
      obtain ⟨q1, q2⟩ := hL K (by simp [hK])
      refine ⟨q1.ext w x1, fun y hy => ?_⟩
      rw [x1.name y (q1.mem y hy).1]
      exact q2 y hy)
    refine ⟨ct2, d :: tops', l' :: Ls', ?_, w2, x1.trans x2, ?_, ?_, ?_⟩
    · unfold cloneAll
      rw [show cloneOrReuse [] [] ct c = cloneClassN (hierFuel ct) ct c false from rfl, e1]
      simp only [CRes.bind_ok]
      rw [e2]
      rfl
    · rw [List.map_cons, List.map_cons, hd, hh']
    · intro K hK
      rcases List.mem_cons.mp hK with rfl | hK
      · exact ⟨hl'.ext w1 x2, hge, hown.ext w1 (fun y hy => (hl'.mem y hy).1) x2⟩
      · exact ⟨(hL' K hK).1, fun y hy => Nat.le_trans x1.le ((hL' K hK).2.1 y hy), (hL' K hK).2.2⟩
    · rw [List.map_cons, List.map_cons, hn']
      congr 1
      · rw [← hnm]
        exact List.map_congr_left fun y hy => x2.name y (hl'.mem y hy).1
      · apply List.map_congr_left
        intro K hK
        exact List.map_congr_left fun y hy => x1.name y ((hL K (by simp [hK])).1.mem y hy).1

/-- swapped classes are the first ones of their names -/
theorem swapClasses_first {ct : ClassTab} {orig new l : List CRef} (e : swapClasses ct orig new = .ok l) :
    ∀ c ∈ l, new.find? (fun d => ct.name d == ct.name c) = some c := by
  intro c hc
  unfold swapClasses at e
  rw [mapM_ok_iff] at e
  obtain ⟨i, hi⟩ := List.mem_iff_getElem?.mp hc
  have q := congrArg (·[i]?) e
  simp only [List.getElem?_map, hi, Option.map_some] at q
  obtain ⟨o, -, ho⟩ := Option.map_eq_some_iff.mp q
  cases hf : new.find? (fun c => ct.name c == ct.name o) with
  | none => rw [hf] at ho; cases ho
  | some d =>
    rw [hf] at ho
    have hdc : d = c := by injection ho
    have hn : ct.name d = ct.name o := by simpa using List.find?_some hf
    rw [← hdc, hn, hf]

theorem swapClasses_names {ct : ClassTab} {orig new l : List CRef} (e : swapClasses ct orig new = .ok l) :
    l.map ct.name = orig.map ct.name := by
  unfold swapClasses at e
  rw [mapM_ok_iff] at e
  apply List.ext_getElem?
  intro i
  have q := congrArg (·[i]?) e
  simp only [List.getElem?_map] at q ⊢
  cases h1 : orig[i]? with
  | none =>
    rw [h1] at q
    cases h2 : l[i]? with
    | none => rfl
    | some x => rw [h2] at q; simp at q
  | some o =>
    rw [h1] at q
    cases h2 : l[i]? with
    | none => rw [h2] at q; simp at q
    | some c =>
      rw [h2] at q
      simp only [Option.map_some, Option.some.injEq] at q ⊢
      cases hf : new.find? (fun c => ct.name c == ct.name o) with
      | none => rw [hf] at q; cases q
      | some d =>
        rw [hf] at q
        have hdc : d = c := by injection q
        rw [← hdc]
        simpa using List.find?_some hf

theorem hiersOf_run {ct : ClassTab} {tops : List CRef} {Ls : List (List CRef)} (hh : Ls.map List.head? = tops.map some)
    (hL : ∀ L ∈ Ls, IsHierarchy ct L) : hiersOf ct tops = .ok Ls.flatten := by
  have : tops.mapM (fun t => classHierN ct (hierFuel ct) t []) = .ok Ls := by
    rw [mapM_ok_iff]
    apply List.ext_getElem?
    intro i
    rw [List.getElem?_map, List.getElem?_map]
    have hi := congrArg (·[i]?) hh
    simp only [List.getElem?_map] at hi
    cases hl : Ls[i]? with
    | none =>
      rw [hl] at hi
      cases ht : tops[i]? with
      | none => rfl
      | some t => rw [ht] at hi; cases hi
    | some L =>
      rw [hl] at hi
      cases ht : tops[i]? with
      | none => rw [ht] at hi; cases hi
      | some t =>
        rw [ht] at hi
        have hi : L.head? = some t := Option.some.inj hi
        have a := hL L (List.mem_of_getElem? hl)
        simp only [Option.map_some]
        congr 1
        refine C34_hierarchy a (List.mem_of_head? hi) _ ?_
        have := hier_length a
        unfold hierFuel
        omega
  unfold hiersOf
  rw [this]

theorem find?_unique {α} {p : α → Bool} {l : List α} {a : α} (ha : a ∈ l) (hp : p a = true) (hu : ∀ b ∈ l, p b = true → b = a) :
    l.find? p = some a := by
  cases hf : l.find? p with
  | none => exact absurd hp (List.find?_eq_none.mp hf a ha)
  | some b => rw [hu b (List.mem_of_find?_eq_some hf) (List.find?_some hf)]

theorem nodup_eraseDups : ∀ (n : Nat) (l : List CRef), l.length ≤ n → l.eraseDups.Nodup
  | _, [], _ => by simp
  | n + 1, a :: l, hn => by
    rw [List.eraseDups_cons, List.nodup_cons]
    refine ⟨?_, nodup_eraseDups n _ (Nat.le_trans (List.length_filter_le _ _) (Nat.le_of_succ_le_succ hn))⟩
    rw [List.mem_eraseDups]
    intro h
    simpa using (List.mem_filter.mp h).2

theorem filter_eraseDups (p : CRef → Bool) : ∀ (n : Nat) (l : List CRef), l.length ≤ n →
    l.eraseDups.filter p = (l.filter p).eraseDups := by
  intro n
  induction n with
  | zero =>
    intro l hl
    rw [List.length_eq_zero_iff.mp (Nat.le_zero.mp hl)]
    rfl
  | succ n ih =>
    intro l hl
    cases l with
    | nil => rfl
    | cons a l =>
      rw [List.eraseDups_cons, List.filter_cons, List.filter_cons]
      have hf : ((l.filter fun b => !b == a).filter p) = (l.filter p).filter fun b => !b == a := by
        rw [List.filter_filter, List.filter_filter]
        exact List.filter_congr fun b _ => Bool.and_comm _ _
      have hi := ih (l.filter fun b => !b == a) (by
        have := List.length_filter_le (fun b => !b == a) l
        simp only [List.length_cons] at hl
        omega)
      by_cases hp : p a = true
      · rw [if_pos hp, if_pos hp, List.eraseDups_cons, hi, hf]
      · rw [if_neg hp, if_neg hp, hi, hf]
        congr 1
        rw [List.filter_eq_self]
        intro b hb
        have := (List.mem_filter.mp hb).2
        cases hq : b == a with
        | false => rfl
        | true =>
          rw [show b = a by simpa using hq] at this
          exact absurd this hp

theorem nodup_index {α} {l : List α} (hn : l.Nodup) {i j : Nat} {a : α} (h1 : l[i]? = some a) (h2 : l[j]? = some a) : i = j := by
  obtain ⟨l1, e1⟩ := List.getElem?_eq_some_iff.mp h1
  obtain ⟨l2, e2⟩ := List.getElem?_eq_some_iff.mp h2
  rw [List.Nodup, List.pairwise_iff_getElem] at hn
  rcases Nat.lt_trichotomy i j with q | q | q
  · exact absurd (e1.trans e2.symm) (hn i j l1 l2 q)
  · exact q
  · exact absurd (e2.trans e1.symm) (hn j i l2 l1 q)

/-- the classes of a new textgrid -/
theorem reclone_run {ct : ClassTab} (w : WFC ct) (css : List (List CRef)) (hier : ∀ cs ∈ css, IsHierarchy ct cs)
    (hnp : ∀ c ∈ css.flatten, ct.isSub c cPoint = false)
    (plain : ∀ c ∈ css.flatten, PlainName (ct.name c))
    (hname : ∀ c ∈ css.flatten, ∀ d ∈ css.flatten, ct.name c = ct.name d → c = d) :
    ∃ ct' new css', reclone [] ct css.flatten = (ct', .ok new) ∧ WFC ct' ∧ Ext ct ct' ∧
      css.mapM (fun l => swapClasses ct' l new) = .ok css' ∧
      (∀ cs ∈ css', IsHierarchy ct' cs ∧ (∀ c ∈ cs, ct.next ≤ c) ∧ OwnRow ct' cs) ∧
      css'.map (List.map ct'.name) = css.map (List.map ct.name) ∧ (∀ cs ∈ css', ∀ c ∈ cs, c ∈ new) := by
  have hmem : ∀ c, c ∈ css.flatten.eraseDups ↔ c ∈ css.flatten := fun c => List.mem_eraseDups
  have hiv : ∀ c ∈ css.flatten, ∃ cs ∈ css, c ∈ cs := fun c hc => by
    obtain ⟨cs, h1, h2⟩ := List.mem_flatten.mp hc
    exact ⟨cs, h1, h2⟩
  have hpoints : css.flatten.eraseDups.filter (fun c => ct.isSub c cPoint) = [] := by
    rw [List.filter_eq_nil_iff]
    intro c hc
    rw [hnp c ((hmem c).mp hc)]
    simp
  have hivs : css.flatten.eraseDups.filter (fun c => ct.isSub c cInterval) = css.flatten.eraseDups := by
    rw [List.filter_eq_self]
    intro c hc
    obtain ⟨cs, h1, h2⟩ := hiv c ((hmem c).mp hc)
    exact ((hier cs h1).mem c h2).2.1
  have hany : css.flatten.eraseDups.any (fun c => (ct.sup c).isNone) = false := by
    rw [List.any_eq_false]
    intro c hc
    obtain ⟨cs, h1, h2⟩ := hiv c ((hmem c).mp hc)
    obtain ⟨s, hs⟩ : ∃ s, ct.sup c = some s := by
      obtain ⟨i, hi⟩ := List.mem_iff_getElem?.mp h2
      cases i with
      | zero =>
        obtain ⟨t, ht, -⟩ := (hier cs h1).top c (by rw [List.head?_eq_getElem?]; exact hi)
        exact ⟨t, ht⟩
      | succ i =>
        obtain ⟨hlt, -⟩ := List.getElem?_eq_some_iff.mp hi
        exact ⟨_, ((hier cs h1).links i _ c (List.getElem?_eq_getElem (by omega)) hi).2⟩
    rw [hs]; simp
  let isTop : CRef → Bool := fun c => match ct.sup c with
      | some s => ct.isSub s cTop
      | none => false
  have hcase : ∀ c, isTop c = true ↔ ∃ s, ct.sup c = some s ∧ ct.isSub s cTop = true := by
    intro c
    show (match ct.sup c with | some s => ct.isSub s cTop | none => false) = true ↔ _
    cases ct.sup c with
    | none => simp
    | some s => simp
  generalize htops : css.flatten.eraseDups.filter isTop = tops
  have htn : tops.Nodup := by
    rw [← htops]
    exact List.Pairwise.filter _ (nodup_eraseDups _ _ (Nat.le_refl _))
  have htm : ∀ c ∈ tops, ∃ L, L ∈ css ∧ L.head? = some c := by
    intro c hc
    rw [← htops, List.mem_filter, hmem] at hc
    obtain ⟨cs, h1, h2⟩ := hiv c hc.1
    obtain ⟨s, hs, ht⟩ := (hcase c).mp hc.2
    exact ⟨cs, h1, (hier cs h1).head_of_top h2 hs ht⟩
  obtain ⟨Ls, hh, hLs⟩ := exists_lists tops htm
  obtain ⟨ct', tops', Ls', e1, w', x', hh', hL', hn'⟩ := cloneAll_run tops Ls w hh fun L hL =>
    ⟨hier L (hLs L hL), fun c hc => plain c (List.mem_flatten.mpr ⟨L, hLs L hL, hc⟩)⟩
  have e2 := hiersOf_run hh' fun L hL => (hL' L hL).1
  have hlen : Ls'.length = Ls.length := by simpa using congrArg List.length hn'
  -- the clone of each list of classes
  have hswap : ∀ cs ∈ css, ∃ cs', swapClasses ct' cs Ls'.flatten = .ok cs' ∧ cs' ∈ Ls' ∧ cs'.map ct'.name = cs.map ct.name := by
    intro cs hcs
    obtain ⟨c, rest, rfl⟩ : ∃ c rest, cs = c :: rest := by
      cases cs with
      | nil => exact absurd rfl (hier _ hcs).ne
      | cons c rest => exact ⟨c, rest, rfl⟩
    obtain ⟨t, ht1, ht2⟩ := (hier _ hcs).top c rfl
    have hct : c ∈ tops := by
      rw [← htops, List.mem_filter, hmem]
      exact ⟨List.mem_flatten.mpr ⟨_, hcs, by simp⟩, (hcase c).mpr ⟨t, ht1, ht2⟩⟩
    obtain ⟨i, hi⟩ := List.mem_iff_getElem?.mp hct
    have hi' := congrArg (·[i]?) hh
    simp only [List.getElem?_map, hi, Option.map_some] at hi'
    obtain ⟨L, hL, hLh⟩ := Option.map_eq_some_iff.mp hi'
    have hLeq : L = c :: rest := (hier L (hLs L (List.mem_of_getElem? hL))).unique (hier _ hcs) (List.mem_of_head? hLh) (by simp)
    subst hLeq
    obtain ⟨hil, -⟩ := List.getElem?_eq_some_iff.mp hL
    have hK : Ls'[i]? = some Ls'[i] := List.getElem?_eq_getElem (by omega)
    have hnames := congrArg (·[i]?) hn'
    simp only [List.getElem?_map, hL, hK, Option.map_some] at hnames
    have hnames : Ls'[i].map ct'.name = (c :: rest).map ct.name := Option.some.inj hnames
    refine ⟨Ls'[i], ?_, List.getElem_mem _, hnames⟩
    unfold swapClasses
    rw [mapM_ok_iff]
    apply List.ext_getElem?
    intro j
    rw [List.getElem?_map, List.getElem?_map]
    have hj := congrArg (·[j]?) hnames
    simp only [List.getElem?_map] at hj
    cases ho : (c :: rest)[j]? with
    | none =>
      rw [ho] at hj
      cases hy : Ls'[i][j]? with
      | none => rfl
      | some y => rw [hy] at hj; cases hj
    | some o =>
      rw [ho] at hj
      cases hy : Ls'[i][j]? with
      | none => rw [hy] at hj; cases hj
      | some y =>
        rw [hy] at hj
        have hj : ct'.name y = ct.name o := Option.some.inj hj
        have hom := List.mem_of_getElem? ho
        have hof : o ∈ css.flatten := List.mem_flatten.mpr ⟨_, hcs, hom⟩
        have hno : ct'.name o = ct.name o := x'.name o ((hier _ hcs).mem o hom).1
        have : Ls'.flatten.find? (fun c => ct'.name c == ct'.name o) = some y := by
          refine find?_unique (List.mem_flatten.mpr ⟨_, List.getElem_mem _, List.mem_of_getElem? hy⟩) (by rw [hj, hno]; simp) ?_
          intro z hz hzn
          have hzn : ct'.name z = ct.name o := by rw [← hno]; simpa using hzn
          obtain ⟨K, hKm, hzK⟩ := List.mem_flatten.mp hz
          obtain ⟨k, hk⟩ := List.mem_iff_getElem?.mp hKm
          obtain ⟨m, hm⟩ := List.mem_iff_getElem?.mp hzK
          obtain ⟨hkl, -⟩ := List.getElem?_eq_some_iff.mp hk
          have hLk : Ls[k]? = some Ls[k] := List.getElem?_eq_getElem (by omega)
          have hnk := congrArg (·[k]?) hn'
          simp only [List.getElem?_map, hk, hLk, Option.map_some] at hnk
          have hnk : K.map ct'.name = Ls[k].map ct.name := Option.some.inj hnk
          have hnm := congrArg (·[m]?) hnk
          simp only [List.getElem?_map, hm, Option.map_some] at hnm
          obtain ⟨q, hq, hqn⟩ := Option.map_eq_some_iff.mp hnm.symm
          have hkc : Ls[k] ∈ css := hLs _ (List.getElem_mem _)
          have hqm := List.mem_of_getElem? hq
          have : q = o := hname q (List.mem_flatten.mpr ⟨_, hkc, hqm⟩) o hof (hqn.trans hzn)
          subst this
          have heq := (hier _ hkc).unique (hier _ hcs) hqm hom
          have hki : k = i := by
            have h1 := congrArg (·[k]?) hh
            simp only [List.getElem?_map, hLk, Option.map_some, heq] at h1
            have h1 : some (some c) = tops[k]?.map some := h1
            obtain ⟨c', hc', hcc⟩ := Option.map_eq_some_iff.mp h1.symm
            have hcc := Option.some.inj hcc
            subst hcc
            exact nodup_index htn hc' hi
          subst hki
          rw [heq] at hq
          have hmj : m = j := nodup_index (hier _ hcs).nodup hq ho
          subst hmj
          have : K = Ls'[k] := by
            rw [hK] at hk
            exact (Option.some.inj hk).symm
          rw [this, hy] at hm
          exact (Option.some.inj hm).symm
        simp only [Option.map_some, this]
  -- all of them
  have hall : ∀ l : List (List CRef), (∀ cs ∈ l, cs ∈ css) → ∃ css', l.mapM (fun l => swapClasses ct' l Ls'.flatten) = .ok css' ∧
      (∀ cs ∈ css', cs ∈ Ls') ∧ css'.map (List.map ct'.name) = l.map (List.map ct.name) := by
    intro l
    induction l with
    | nil => intro _; exact ⟨[], rfl, by simp, rfl⟩
    | cons cs l ih =>
      intro hl
      obtain ⟨cs', a1, a2, a3⟩ := hswap cs (hl cs (by simp))
      obtain ⟨css', b1, b2, b3⟩ := ih fun K hK => hl K (by simp [hK])
      refine ⟨cs' :: css', ?_, ?_, ?_⟩
      · rw [mapM_ok_iff] at b1 ⊢
        rw [List.map_cons, List.map_cons, a1, b1]
      · intro K hK
        rcases List.mem_cons.mp hK with rfl | hK
        · exact a2
        · exact b2 K hK
      · rw [List.map_cons, List.map_cons, a3, b3]
  obtain ⟨css', c1, c2, c3⟩ := hall css fun _ h => h
  refine ⟨ct', Ls'.flatten, css', ?_, w', x', c1, fun cs hcs => hL' cs (c2 cs hcs), c3,
    fun cs hcs c hc => List.mem_flatten.mpr ⟨cs, c2 cs hcs, hc⟩⟩
  unfold reclone
  simp only [hpoints, hivs, hany]
  rw [if_neg (by simp)]
  subst htops
  show ((cloneAll [] [] ct []).bind fun ct ps => (cloneAll [] [] ct (css.flatten.eraseDups.filter isTop)).bind fun ct ts => _) = _
  simp only [cloneAll, CRes.bind_ok, List.nil_append]
  rw [e1, CRes.bind_ok, e2]

end ATG
