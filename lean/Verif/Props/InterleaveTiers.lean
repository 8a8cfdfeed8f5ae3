import Verif.Lemmas.InterleaveAll
import Verif.Props.Interleave
import Verif.Props.Group
/-!
# C69: the tiers made by `interleave_class` (`aligned_textgrid.py:528-650`)
-/
namespace ATG

theorem getElem?_weave' {α} {pre post : List α} {n : α} {i : Nat} {t t' : α}
    (e1 : (pre ++ n :: post)[i]? = some t) (e2 : (pre ++ n :: post)[i + 1]? = some t') :
    ((∃ j : Nat, j + 1 ≠ pre.length ∧ (pre ++ post)[j]? = some t ∧ (pre ++ post)[j + 1]? = some t') ∨
      (pre.getLast? = some t ∧ t' = n) ∨ (t = n ∧ post.head? = some t')) := by
  by_cases h1 : i + 1 < pre.length
  · rw [List.getElem?_append_left (by omega)] at e1 e2
    exact Or.inl ⟨i, by omega, by rw [List.getElem?_append_left (by omega)]; exact e1,
      by rw [List.getElem?_append_left (by omega)]; exact e2⟩
  · by_cases h2 : i + 1 = pre.length
    · rw [List.getElem?_append_left (by omega)] at e1
      rw [List.getElem?_append_right (by omega), h2] at e2
      simp at e2
      refine Or.inr (Or.inl ⟨?_, e2.symm⟩)
      rw [List.getLast?_eq_getElem?, ← e1]
      congr 1
      omega
    · by_cases h3 : i = pre.length
      · rw [h3, List.getElem?_append_right (by omega)] at e1 e2
        simp at e1
        refine Or.inr (Or.inr ⟨e1.symm, ?_⟩)
        rw [show pre.length + 1 - pre.length = 1 by omega] at e2
        rw [List.head?_eq_getElem?]
        simpa using e2
      · rw [List.getElem?_append_right (by omega)] at e1 e2
        refine Or.inl ⟨i - 1, by omega, ?_, ?_⟩
        · rw [List.getElem?_append_right (by omega)]
          rw [show i - pre.length = (i - 1 - pre.length) + 1 by omega] at e1
          simpa using e1
        · rw [List.getElem?_append_right (by omega)]
          rw [show i + 1 - pre.length = (i - 1 + 1 - pre.length) + 1 by omega] at e2
          simpa using e2

/-- the links of the classes of a group after a class was put between two of them -/
theorem ClassLinks.insert {ct ct' : ClassTab} {p q : List CRef} {u d new : CRef} (cl : ClassLinks ct (p ++ q))
    (w : WFC ct) (own : OwnLinks ct (p ++ q)) (hlt : ∀ c ∈ p ++ q, c < ct.next) (hnew : ct.next ≤ new) (hu : u < ct.next)
    (hd : d < ct.next)
    (hp : ∀ c, p.getLast? = some c → c = u) (hq : ∀ c, q.head? = some c → c = d) (hpd : d ∉ p) (huq : u ∉ q)
    (n1 : ct'.ownSup new = some (some u)) (n2 : ct'.ownSub u = some (some new))
    (n3 : ct'.ownSub new = some (some d)) (n4 : ct'.ownSup d = some (some new))
    (hsup : ∀ x, x < ct.next → x ≠ d → ct'.ownSup x = ct.ownSup x)
    (hsub : ∀ x, x < ct.next → x ≠ u → ct'.ownSub x = ct.ownSub x)
    (k1 : ct'.isSub new cTop = false) (k2 : ct'.isSub new cBottom = false)
    (hisSub : ∀ x y, x < ct.next → ct'.isSub x y = ct.isSub x y) : ClassLinks ct' (p ++ new :: q) := by
  have hnn : new ∉ p ++ q := fun h => by have := hlt _ h; unfold CRef at *; omega
  have sub_eq : ∀ c ∈ p ++ q, c ≠ u → ct'.sub c = ct.sub c := by
    intro c hc hcu
    obtain ⟨⟨a, b, oa, ob⟩, -⟩ := own c hc
    rw [sub_own oa, sub_own ((hsub c (hlt c hc) hcu).trans oa)]
  have sup_eq : ∀ c ∈ p ++ q, c ≠ d → ct'.sup c = ct.sup c := by
    intro c hc hcd
    obtain ⟨⟨a, b, oa, ob⟩, -⟩ := own c hc
    rw [sup_own ob, sup_own ((hsup c (hlt c hc) hcd).trans ob)]
  have idx : ∀ (j : Nat), (p ++ q)[j]? = some u → j + 1 = p.length := by
    intro j hj
    by_cases h1 : j < p.length
    · have hpl : p.getLast? = some u := by
        cases hg : p.getLast? with
        | none => rw [List.getLast?_eq_none_iff] at hg; rw [hg] at h1; simp at h1
        | some c => rw [hp c hg]
      rw [List.getLast?_eq_getElem?] at hpl
      have h2 : (p ++ q)[p.length - 1]? = some u := by rw [List.getElem?_append_left (by omega)]; exact hpl
      have hl : j < (p ++ q).length := by simp; omega
      have hl2 : p.length - 1 < (p ++ q).length := by simp; omega
      rw [List.getElem?_eq_getElem hl, Option.some.injEq] at hj
      rw [List.getElem?_eq_getElem hl2, Option.some.injEq] at h2
      have := (List.getElem_inj cl.distinct).mp (hj.trans h2.symm)
      omega
    · rw [List.getElem?_append_right (by omega)] at hj
      exact absurd (List.mem_of_getElem? hj) huq
  have idxd : ∀ (j : Nat), (p ++ q)[j]? = some d → j = p.length := by
    intro j hj
    by_cases h1 : j < p.length
    · rw [List.getElem?_append_left h1] at hj
      exact absurd (List.mem_of_getElem? hj) hpd
    · have hdq : d ∈ q := by
        rw [List.getElem?_append_right (by omega)] at hj
        exact List.mem_of_getElem? hj
      have hql : q.head? = some d := by
        cases hg : q.head? with
        | none => rw [List.head?_eq_none_iff] at hg; rw [hg] at hdq; simp at hdq
        | some c => rw [hq c hg]
      rw [List.head?_eq_getElem?] at hql
      have hq0 : 0 < q.length := List.length_pos_of_mem hdq
      have h2 : (p ++ q)[p.length]? = some d := by
        rw [List.getElem?_append_right (by omega), Nat.sub_self]; exact hql
      have hl : j < (p ++ q).length := getElem?_lt hj
      have hl2 : p.length < (p ++ q).length := by simp; omega
      rw [List.getElem?_eq_getElem hl, Option.some.injEq] at hj
      rw [List.getElem?_eq_getElem hl2, Option.some.injEq] at h2
      exact (List.getElem_inj cl.distinct).mp (hj.trans h2.symm)
  have hun : u ≠ new := by unfold CRef at *; omega
  have hdn : d ≠ new := by unfold CRef at *; omega
  have hperm : (p ++ new :: q).Perm (new :: (p ++ q)) := List.perm_middle
  refine ⟨?_, ?_, ?_, ?_, ?_⟩
  · rw [hperm.nodup_iff, List.nodup_cons]
    exact ⟨hnn, cl.distinct⟩
  · intro i c c' e1 e2
    rcases getElem?_weave' e1 e2 with ⟨j, hj, q1, q2⟩ | ⟨q1, rfl⟩ | ⟨rfl, q2⟩
    · have hcu : c ≠ u := fun e => hj (idx j (e ▸ q1))
      have hcd : c' ≠ d := fun e => hj (idxd (j + 1) (e ▸ q2))
      rw [sub_eq c (List.mem_of_getElem? q1) hcu, sup_eq c' (List.mem_of_getElem? q2) hcd]
      exact cl.down j c c' q1 q2
    · rw [hp c q1, sub_own n2, sup_own n1]
      exact ⟨rfl, rfl⟩
    · rw [hq c' q2, sub_own n3, sup_own n4]
      exact ⟨rfl, rfl⟩
  · intro i c c' e1 e2
    rcases getElem?_weave' e1 e2 with ⟨j, hj, q1, q2⟩ | ⟨q1, rfl⟩ | ⟨rfl, q2⟩
    · rw [hisSub c _ (hlt c (List.mem_of_getElem? q1)), hisSub c' _ (hlt c' (List.mem_of_getElem? q2))]
      exact cl.inner j c c' q1 q2
    · refine ⟨?_, k2⟩
      have hm : c ∈ p ++ q := by simp [List.mem_of_getLast? q1]
      rw [hisSub c _ (hlt c hm)]
      exact (own c hm).2.1
    · refine ⟨k1, ?_⟩
      have hm : c' ∈ p ++ q := by simp [List.mem_of_head? q2]
      rw [hisSub c' _ (hlt c' hm)]
      exact (own c' hm).2.2
  · intro c e
    cases p with
    | nil =>
      simp only [List.nil_append, List.getElem?_cons_zero, Option.some.injEq] at e
      subst e
      refine ⟨u, sup_own n1, Or.inr ?_⟩
      simp [hun, huq]
    | cons a p =>
      simp only [List.cons_append, List.getElem?_cons_zero, Option.some.injEq] at e
      subst e
      have hm : a ∈ (a :: p) ++ q := by simp
      rw [sup_eq a hm (fun e => hpd (by simp [e]))]
      obtain ⟨⟨x, y, -, oy⟩, -⟩ := own a hm
      have hy := w.supLt a y (hlt a hm) oy
      obtain ⟨r, r1, r2⟩ := cl.top a (by simp)
      have : y = r := by rw [sup_own oy] at r1; simpa using r1
      subst this
      refine ⟨y, r1, ?_⟩
      rw [hisSub y _ hy]
      refine r2.imp id fun hr hmem => ?_
      rcases List.mem_cons.mp (hperm.mem_iff.mp hmem) with q | q
      · unfold CRef at *; omega
      · exact hr q
  · intro c e
    rcases List.eq_nil_or_concat q with rfl | ⟨q', b, rfl⟩
    · rw [show (p ++ [new])[(p ++ [new]).length - 1]? = some new by simp] at e
      cases e
      refine ⟨d, sub_own n3, Or.inr ?_⟩
      simp [hdn, hpd]
    · simp only [List.concat_eq_append] at *
      rw [show (p ++ new :: (q' ++ [b]))[(p ++ new :: (q' ++ [b])).length - 1]? = some b by
        rw [← List.cons_append, ← List.append_assoc]; simp] at e
      cases e
      have hm : c ∈ p ++ (q' ++ [c]) := by simp
      rw [sub_eq c hm (fun e => huq (by simp [e]))]
      obtain ⟨⟨x, y, ox, -⟩, -⟩ := own c hm
      have hx := w.subLt c x (hlt c hm) ox
      obtain ⟨r, r1, r2⟩ := cl.bottom c (by rw [← List.append_assoc]; simp)
      have : x = r := by rw [sub_own ox] at r1; simpa using r1
      subst this
      refine ⟨x, r1, ?_⟩
      rw [hisSub x _ hx]
      refine r2.imp id fun hr hmem => ?_
      rcases List.mem_cons.mp (hperm.mem_iff.mp hmem) with q | q
      · unfold CRef at *; omega
      · exact hr q

theorem forL_gwithin (a : ARef) : ∀ (gs : List GRef) (h : Heap), ∃ w,
    M.forL gs (fun g => M.modify fun h => { h with gwithin := upd h.gwithin g (some a) }) h =
      .ok () { h with gwithin := w }
  | [], h => ⟨h.gwithin, rfl⟩
  | g :: gs, h => by
    obtain ⟨w, e⟩ := forL_gwithin a gs { h with gwithin := upd h.gwithin g (some a) }
    exact ⟨w, by rw [M.forL_cons]; exact e⟩

theorem setContainsA_ok (a : ARef) (h : Heap) : ∃ fc fw,
    setContainsA a h = .ok () { h with acont := fc, gwithin := fw } := by
  obtain ⟨w, e⟩ := forL_gwithin a (h.agroups a) { h with acont := upd h.acont a (h.agroups a) }
  exact ⟨_, w, e⟩

/-- storing the list of groups changes nothing else but the links between the textgrid and its groups -/
theorem storeGroups (a : ARef) (gs : List GRef) (h : Heap) (hnil : gs = [] → h.agroups a = []) :
    ∃ fg fc fw, (do setGroups a gs; setContainsA a : M Unit) h =
      .ok () { h with agroups := fg, acont := fc, gwithin := fw } ∧ fg a = gs := by
  cases gs with
  | nil =>
    obtain ⟨fc, fw, e⟩ := setContainsA_ok a h
    exact ⟨h.agroups, fc, fw, e, hnil rfl⟩
  | cons g gs =>
    obtain ⟨fc, fw, e⟩ := setContainsA_ok a { h with agroups := upd h.agroups a (g :: gs) }
    obtain ⟨fc', fw', e'⟩ := setContainsA_ok a { h with agroups := upd h.agroups a (g :: gs), acont := fc, gwithin := fw }
    refine ⟨upd h.agroups a (g :: gs), fc', fw', ?_, upd_same _ _ _⟩
    have e0 : setGroups a (g :: gs) h = .ok () { h with agroups := upd h.agroups a (g :: gs), acont := fc, gwithin := fw } := e
    exact (M.bind_ok e0).trans e'

/-- what else is known of the heap after a class has been interleaved -/
structure InterleaveRest (L : Ref → Prop) (h h' : Heap) (a : ARef) (new u d : CRef) (above fromBelow : Bool) :
    Prop where
  nodup : (h'.agroups a).Nodup
  lt : ∀ g ∈ h'.agroups a, g < h'.nG
  sep : Separate h' (h'.agroups a)
  tidy : TidyOn (fun x => L x ∨ h.nE ≤ x ∧ x < h'.nE) h'
  allocated : Allocated h'
  allocatedUp : AllocatedUp h'
  entries : OwnEntries h h' (h.agroups a) (h'.agroups a)
  up : ∀ (i : Nat) g g', (h.agroups a)[i]? = some g → (h'.agroups a)[i]? = some g' →
    (∃ t ∈ h.gtiers g, h.tcls t = if above then d else u) → UpClosed h' (h'.gtiers g')
  home : ∀ (i : Nat) g g', (h.agroups a)[i]? = some g → (h'.agroups a)[i]? = some g' →
    (∃ t ∈ h.gtiers g, h.tcls t = if above then d else u) → InterleaveHome h h' (h'.gtiers g')
  intier : ∀ x, x < h.nE → h'.intier x = h.intier x
  tsup : ∀ t, t < h.nT → h'.tsup t = h.tsup t ∧ h'.tsub t = h.tsub t ∨
    h'.tsup t = h'.ct.sup (h.tcls t) ∧ h'.tsub t = h'.ct.sub (h.tcls t)
  ecls : ∀ x, x < h.nE → (∀ g ∈ h.agroups a, (∃ t ∈ h.gtiers g, h.tcls t = if above then d else u) →
    ¬ OnTiers h (h.gtiers g) x) → (h'.subs x).ecls = (h.subs x).ecls
  gpoint : ∀ g, h'.gpoint g = true → h.gpoint g = true ∧ (g < h.nG ∨ h'.nG ≤ g)
  notPoint : h'.ct.isSub new cPoint = false
  nE : h.nE ≤ h'.nE
  nT : h.nT ≤ h'.nT
  wfc : WFC h'.ct
  newOld : h.ct.next ≤ new
  newLt : new < h'.ct.next
  newKind : h'.ct.isSub new cInterval = true ∧ h'.ct.isSub new cTop = false ∧ h'.ct.isSub new cBottom = false
  kinds : ∀ x y, x < h.ct.next → h'.ct.isSub x y = h.ct.isSub x y
  ownSup : ∀ x, x < h.ct.next → x ≠ d → h'.ct.ownSup x = h.ct.ownSup x
  ownSub : ∀ x, x < h.ct.next → x ≠ u → h'.ct.ownSub x = h.ct.ownSub x
  ownSupD : h'.ct.ownSup d = some (some new)
  ownSubU : h'.ct.ownSub u = some (some new)
  between : Between h'.ct u new d
  names : ∀ c, c < h.ct.next → h'.ct.name c = h.ct.name c
  links : ∀ g ∈ h.agroups a, ∀ pre post k, Place h g pre post k u d fromBelow →
      ClassLinks h.ct ((pre ++ post).map h.tcls) → OwnLinks h.ct ((pre ++ post).map h.tcls) →
      ClassLinks h'.ct (pre.map h.tcls ++ new :: post.map h.tcls)
  own : ∀ cs, (∀ c ∈ cs, c < h.ct.next) → OwnLinks h.ct cs → OwnLinks h'.ct cs

theorem interleave_all {L : Ref → Prop} (h : Heap) (a : ARef) (name cname : String) (above fromBelow labels : Bool)
    (u d : CRef) (hr : WFC h.ct) (hn : PlainName name) (hne : name ≠ "") (hcne : cname ≠ "")
    (hc : classByName h a cname = .ok (if above then d else u)) (adj : AdjacentAt above h.ct u d)
    (ht : ∀ g ∈ h.agroups a, ∀ t ∈ h.gtiers g, h.tcls t < h.ct.next)
    (old : ∀ g ∈ h.agroups a, g < h.nG ∧ ∀ t ∈ h.gtiers g, t < h.nT ∧ ∀ x ∈ (h.tseq t).vals, x < h.nE)
    (nd : (h.agroups a).Nodup) (sep : Separate h (h.agroups a)) (td : TidyOn L h)
    (hL : ∀ g ∈ h.agroups a, ∀ x, OnTiers h (h.gtiers g) x → L x) (ac : Allocated h) (au : AllocatedUp h)
    (spot : ∀ g ∈ h.agroups a, (∃ t ∈ h.gtiers g, h.tcls t = if above then d else u) →
      ∃ pre post k, Spot h g pre post k u d fromBelow ∧ ClassLinks h.ct ((pre ++ post).map h.tcls) ∧
        OwnLinks h.ct ((pre ++ post).map h.tcls))
    (far : ∀ g ∈ h.agroups a, (∃ t ∈ h.gtiers g, h.tcls t = if above then d else u) → Far h (h.agroups a) g) :
    ∃ new h', interleave a name above cname fromBelow labels h = .ok () h' ∧ h'.ct.name new = name ∧
      h'.ct.sub u = some new ∧ h'.ct.sub new = some d ∧ h'.ct.sup d = some new ∧ h'.ct.sup new = some u ∧
      (h'.agroups a).length = (h.agroups a).length ∧
      (∀ (i : Nat) g g', (h.agroups a)[i]? = some g → (h'.agroups a)[i]? = some g' →
        if ∃ t ∈ h.gtiers g, h.tcls t = (if above then d else u) then SpotDone h h' g g' new u d fromBelow labels
        else g' = g ∧ h'.gtiers g = h.gtiers g ∧ Unmoved h h' (h.gtiers g)) ∧
      (∀ x, x < h.nE → h'.start x = h.start x ∧ h'.stop x = h.stop x ∧ h'.label x = h.label x ∧ h'.cls x = h.cls x) ∧
      (∀ t, t < h.nT → h'.tseq t = h.tseq t ∧ h'.tcls t = h.tcls t ∧ h'.tname t = h.tname t) ∧
      InterleaveRest L h h' a new u d above fromBelow := by
  obtain ⟨new, ct', e, ⟨f1, f2, f3, f4, f5, f6, f7, f8, f9⟩, ⟨k1, k2, k3⟩, his, wf⟩ :=
    interleave_links h a name cname above fromBelow labels u d hr hn hne hcne hc adj ht
  have hcl : ∀ g ∈ h.agroups a, ∀ pre post k, Place h g pre post k u d fromBelow →
      ClassLinks h.ct ((pre ++ post).map h.tcls) → OwnLinks h.ct ((pre ++ post).map h.tcls) →
      ClassLinks ct' (pre.map h.tcls ++ new :: post.map h.tcls) := by
    intro g hg pre post k s cl ol
    rw [List.map_append] at cl ol
    refine cl.insert (w := hr) ol ?_ f1 adj.ltU adj.ltD ?_ ?_ ?_ ?_ f5 f6 f7 f8
      (fun x hx => (f9 x hx).2.2.1) (fun x hx => (f9 x hx).2.2.2) k1 k2 his
    · intro c hcm
      rw [← List.map_append] at hcm
      obtain ⟨t, htm, rfl⟩ := List.mem_map.mp hcm
      exact ht g hg t (by rw [s.eq]; exact htm)
    · intro c hcm
      rw [List.getLast?_map] at hcm
      cases hgl : pre.getLast? with
      | none => rw [hgl] at hcm; simp at hcm
      | some t => rw [hgl] at hcm; simp at hcm; rw [← hcm]; exact s.above t hgl
    · intro c hcm
      rw [List.head?_map] at hcm
      cases hgl : post.head? with
      | none => rw [hgl] at hcm; simp at hcm
      | some t => rw [hgl] at hcm; simp at hcm; rw [← hcm]; exact s.below t hgl
    · intro hm
      obtain ⟨t, htm, q⟩ := List.mem_map.mp hm
      exact s.onlyBelow t htm q
    · intro hm
      obtain ⟨t, htm, q⟩ := List.mem_map.mp hm
      exact s.onlyAbove t htm q
  let h0 : Heap := { h with ct := ct' }
  have td0 : TidyOn L h0 := by
    refine ⟨td.down, td.up, td.nodup, ?_, td.cls, td.label⟩
    intro v x hx y hy hs
    refine td.distinct v x hx y hy ⟨?_, hs.2⟩
    have := td.cls v x hx y hy
    unfold Heap.isPoint
    rw [this]
  obtain ⟨gs', h1, e1, c1, c2, c3, c4, c5, c6, c7, c8, c9, c10, c11, c12, wv, au', up', els⟩ :=
    interleaveGroups_ok (if above then d else u) new u d fromBelow labels (h.agroups a) h0 L td0 hL ac au k3 nd old sep (by
      intro g hg hex
      obtain ⟨pre, post, k, s, cl, ol⟩ := spot g hg hex
      refine ⟨pre, post, k, ⟨⟨s.eq, s.above, s.below, s.onlyAbove, s.onlyBelow, s.source⟩, s.filled,
        ⟨s.fit.once, s.fit.cls, s.fit.label, s.fit.disjoint, s.fit.positive, ?_, s.fit.closed, s.fit.old⟩⟩, ?_⟩
      · intro i t t' q1 q2
        exact (s.fit.aligned i t t' q1 q2).congr rfl rfl
      · exact hcl g hg pre post k s.toPlace cl ol)
      (fun g hg hex => ⟨(far g hg hex).1, fun g' hg' hne x hx q => (far g hg hex).2 g' hg' hne x hx (by
        refine Beneath.back (h := h) (h1 := h0) (us := h.gtiers g) (T := fun _ => False) (fun _ _ => rfl) (fun _ _ z => Or.inl z) (fun _ z => z.elim) q)⟩)
  obtain ⟨fg, fc, fw, e2, hfg⟩ := storeGroups a gs' h1 (by
    rintro rfl
    rw [c3]
    exact List.length_eq_zero_iff.mp c1.symm)
  refine ⟨new, _, e.trans ((M.bind_ok e1).trans e2), ?_, ?_, ?_, ?_, ?_, ?_, ?_, ?_, ?_, ?_⟩
  · show h1.ct.name new = name; rw [c2]; exact f3
  · show h1.ct.sub u = some new; rw [c2]; exact sub_own f6
  · show h1.ct.sub new = some d; rw [c2]; exact sub_own f7
  · show h1.ct.sup d = some new; rw [c2]; exact sup_own f8
  · show h1.ct.sup new = some u; rw [c2]; exact sup_own f5
  · show (fg a).length = _; rw [hfg]; exact c1
  · intro i g g' q1 q2
    change (fg a)[i]? = some g' at q2
    rw [hfg] at q2
    have := c6 i g g' q1 q2
    by_cases hex : ∃ t ∈ h.gtiers g, h.tcls t = (if above then d else u)
    · have hex0 : ∃ t ∈ h0.gtiers g, h0.tcls t = (if above then d else u) := hex
      rw [if_pos hex0] at this
      rw [if_pos hex]
      obtain ⟨pre, post, k, t', s1, s2, s3, s4, s5⟩ := this
      have m : ∀ ts, Unmoved h1 { h1 with agroups := fg, acont := fc, gwithin := fw } ts := fun ts =>
        ⟨fun _ _ => rfl, fun _ _ => rfl, fun _ _ => rfl, fun _ _ _ _ => ⟨rfl, rfl, rfl, rfl⟩,
          fun _ _ _ _ => ⟨rfl, rfl, rfl, rfl, rfl, rfl⟩⟩
      exact ⟨pre, post, k, t', ⟨s1.eq, s1.above, s1.below, s1.onlyAbove, s1.onlyBelow, s1.source⟩, s2,
        ⟨s3.values, s3.tcls, s3.cls, s3.new⟩, s4.unmoved (m _),
        s5.unmoved (m _) s5.closed (Nat.le_refl _) (Nat.le_refl _)⟩
    · have hex0 : ¬ ∃ t ∈ h0.gtiers g, h0.tcls t = (if above then d else u) := hex
      rw [if_neg hex0] at this
      rw [if_neg hex]
      exact ⟨this.1, this.2.1, ⟨this.2.2.tseq, this.2.2.tcls, this.2.2.tname, this.2.2.value, this.2.2.relation⟩⟩
  · exact c10
  · exact c11
  · constructor
    · show (fg a).Nodup; rw [hfg]; exact wv.nodup
    · show ∀ g ∈ fg a, _; rw [hfg]; exact fun g hg => (wv.lt g hg).1
    · show Separate _ (fg a); rw [hfg]; exact wv.sep
    · exact ⟨c8.down, c8.up, c8.nodup, c8.distinct, c8.cls, c8.label⟩
    · exact c9
    · exact au'
    · show OwnEntries h _ (h.agroups a) (fg a)
      rw [hfg]
      exact ⟨wv.nG, wv.nodup, wv.lt, wv.entries, wv.sep, wv.outside, wv.outsideUp⟩
    · show ∀ (i : Nat) g g', _ → (fg a)[i]? = some g' → _ → _
      rw [hfg]
      exact fun i g g' q1 q2 q3 => (up' i g g' q1 q2 q3).1
    · show ∀ (i : Nat) g g', _ → (fg a)[i]? = some g' → _ → _
      rw [hfg]
      intro i g g' q1 q2 q3
      obtain ⟨j1, j2, j3, j4, j5, j6⟩ := (up' i g g' q1 q2 q3).2
      exact ⟨j1, j2, j3, j4, j5, j6⟩
    · exact els.intier
    · show ∀ t, _ → h1.tsup t = _ ∧ h1.tsub t = _ ∨ h1.tsup t = h1.ct.sup _ ∧ h1.tsub t = h1.ct.sub _
      rw [c2]; exact els.tsup
    · exact els.ecls
    · exact els.gpoint
    · show h1.ct.isSub new cPoint = false
      rw [c2]; exact k3
    · exact c4
    · exact c5
    · show WFC h1.ct; rw [c2]; exact wf
    · exact f1
    · show new < h1.ct.next; rw [c2]; exact f2
    · show h1.ct.isSub new cInterval = true ∧ h1.ct.isSub new cTop = false ∧ h1.ct.isSub new cBottom = false
      rw [c2]; exact ⟨f4, k1, k2⟩
    · show ∀ x y, _ → h1.ct.isSub x y = _; rw [c2]; exact his
    · show ∀ x, _ → _ → h1.ct.ownSup x = _; rw [c2]; exact fun x hx => (f9 x hx).2.2.1
    · show ∀ x, _ → _ → h1.ct.ownSub x = _; rw [c2]; exact fun x hx => (f9 x hx).2.2.2
    · show h1.ct.ownSup d = _; rw [c2]; exact f8
    · show h1.ct.ownSub u = _; rw [c2]; exact f6
    · show Between h1.ct u new d
      rw [c2]
      refine ⟨f5, f7, fun q => Nat.lt_irrefl _ (Nat.lt_of_lt_of_le adj.ltU (q ▸ f1)),
        fun q => Nat.lt_irrefl _ (Nat.lt_of_lt_of_le adj.ltD (q ▸ f1)), adj.ne, ?_, ?_, ?_, ?_⟩
      · exact (his u _ adj.ltU).trans adj.partU
      · exact (his d _ adj.ltD).trans adj.partD
      · exact (congrArg _ (f9 u adj.ltU).1).trans adj.nameU
      · exact (congrArg _ (f9 d adj.ltD).1).trans adj.nameD
    · show ∀ c, c < h.ct.next → h1.ct.name c = _
      rw [c2]; exact fun c hc' => (f9 c hc').1
    · show ∀ g ∈ h.agroups a, ∀ pre post k, Place h g pre post k u d fromBelow → _ → _ → ClassLinks h1.ct _
      rw [c2]; exact hcl
    · show ∀ cs, _ → _ → OwnLinks h1.ct cs
      rw [c2]
      intro cs hcs ol c hcm
      obtain ⟨⟨p, q, r1, r2⟩, r3, r4⟩ := ol c hcm
      refine ⟨⟨if c = u then new else p, if c = d then new else q, ?_, ?_⟩, ?_, ?_⟩
      · by_cases hcu : c = u
        · rw [if_pos hcu, hcu]; exact f6
        · rw [if_neg hcu]; exact ((f9 c (hcs c hcm)).2.2.2 hcu).trans r1
      · by_cases hcd : c = d
        · rw [if_pos hcd, hcd]; exact f8
        · rw [if_neg hcd]; exact ((f9 c (hcs c hcm)).2.2.1 hcd).trans r2
      · exact (his c _ (hcs c hcm)).trans r3
      · exact (his c _ (hcs c hcm)).trans r4

theorem spot_far {h : Heap} {gs : List GRef} {above fromBelow : Bool} {u d : CRef} {P : List CRef → Prop}
    (sep : Separate h gs) (td : Tidy h)
    (spot : ∀ g ∈ gs, (∃ t ∈ h.gtiers g, h.tcls t = if above then d else u) →
      ∃ pre post k, Spot h g pre post k u d fromBelow ∧ P ((pre ++ post).map h.tcls)) (g : GRef) (hg : g ∈ gs)
    (hex : ∃ t ∈ h.gtiers g, h.tcls t = if above then d else u) : Far h gs g := by
  obtain ⟨pre, post, k, s, -⟩ := spot g hg hex
  refine SupClosed.far ?_ hg sep
  rw [s.eq]
  exact fun v x e => s.fit.closed v x ((td.agree v x).mpr e)

/-- **C69.** `interleave_class(name, above=…)` or `(…, below=…)`, where the named class is `d` or `u` and `u` is
    directly above `d`, succeeds and gives every group with the named class one new tier, between its tiers of
    the classes `u` and `d`: an interval for interval copy of the one taken as the source, with its labels or
    without, in the new class, related by containment to the tiers above and below. The other tiers of these
    groups keep their intervals, times and labels; the other groups are as before, in their places.

    The hypotheses: the class is found by its name; the groups share no entry; in each group with the class the
    tiers fit together (their boundaries are aligned) and the tier to be copied is there and not empty; the
    classes of its tiers are linked to each other by links of their own. `_partial`: it fails for empty tiers
    (`C69_empty_violated`) and at the edges (`C36_edge_violated`). Missing: tiers whose boundaries are not
    aligned, groups sharing entries. -/
theorem C69_interleave_partial (h : Heap) (a : ARef) (name cname : String) (above fromBelow labels : Bool)
    (u d : CRef) (hr : WFC h.ct) (hn : PlainName name) (hne : name ≠ "") (hcne : cname ≠ "")
    (hc : classByName h a cname = .ok (if above then d else u)) (adj : AdjacentAt above h.ct u d)
    (ht : ∀ g ∈ h.agroups a, ∀ t ∈ h.gtiers g, h.tcls t < h.ct.next)
    (old : ∀ g ∈ h.agroups a, g < h.nG ∧ ∀ t ∈ h.gtiers g, t < h.nT ∧ ∀ x ∈ (h.tseq t).vals, x < h.nE)
    (nd : (h.agroups a).Nodup) (sep : Separate h (h.agroups a)) (td : Tidy h) (ac : Allocated h)
    (spot : ∀ g ∈ h.agroups a, (∃ t ∈ h.gtiers g, h.tcls t = if above then d else u) →
      ∃ pre post k, Spot h g pre post k u d fromBelow ∧ ClassLinks h.ct ((pre ++ post).map h.tcls) ∧
        OwnLinks h.ct ((pre ++ post).map h.tcls)) :
    ∃ new h', interleave a name above cname fromBelow labels h = .ok () h' ∧ h'.ct.name new = name ∧
      h'.ct.sub u = some new ∧ h'.ct.sub new = some d ∧ h'.ct.sup d = some new ∧ h'.ct.sup new = some u ∧
      (h'.agroups a).length = (h.agroups a).length ∧
      (∀ (i : Nat) g g', (h.agroups a)[i]? = some g → (h'.agroups a)[i]? = some g' →
        if ∃ t ∈ h.gtiers g, h.tcls t = (if above then d else u) then SpotDone h h' g g' new u d fromBelow labels
        else g' = g ∧ h'.gtiers g = h.gtiers g ∧ Unmoved h h' (h.gtiers g)) ∧
      (∀ x, x < h.nE → h'.start x = h.start x ∧ h'.stop x = h.stop x ∧ h'.label x = h.label x ∧ h'.cls x = h.cls x) ∧
      ∀ t, t < h.nT → h'.tseq t = h.tseq t ∧ h'.tcls t = h.tcls t ∧ h'.tname t = h.tname t := by
  obtain ⟨new, h', e, k1, k2, k3, k4, k5, k6, k7, k8, k9, -⟩ :=
    interleave_all h a name cname above fromBelow labels u d hr hn hne hcne hc adj ht old nd sep (td.on fun _ => True)
      (fun _ _ _ _ => trivial) ac (td.allocatedUp ac) spot (spot_far (P := fun cs => ClassLinks h.ct cs ∧ OwnLinks h.ct cs) sep td spot)
  exact ⟨new, h', e, k1, k2, k3, k4, k5, k6, k7, k8, k9⟩

/-- Two groups of a textgrid: two words over three phones, related, and a single word. -/
def exGroupAndWord : Heap :=
  { exAligned with
    nE := 6
    cls := fun r => if r < 2 ∨ r = 5 then cWord else cPhone
    start := fun r => [0, 2, 0, 1, 2, 0].getD r 0
    stop := fun r => [2, 3, 1, 2, 3, 3].getD r 0
    label := fun r => ["ab", "c", "a", "b", "c", "abc"].getD r ""
    subs := fun r => if r = 0 then ⟨[2, 3], some cPhone⟩ else if r = 1 then ⟨[4], some cPhone⟩ else SL.empty
    sup := fun r => if r = 2 ∨ r = 3 then some 0 else if r = 4 then some 1 else none
    within := fun r => if r = 2 ∨ r = 3 then some (.ival 0) else if r = 4 then some (.ival 1) else none
    cont := fun _ => .alias
    fol := fun r => if r = 2 then some (.obj 3) else if r = 0 then some (.obj 1) else some .bumper
    prev := fun r => if r = 3 then some (.obj 2) else if r = 1 then some (.obj 0) else some .bumper
    nT := 3
    tseq := fun t => if t = 0 then ⟨[0, 1], some cWord⟩ else if t = 1 then ⟨[2, 3, 4], some cPhone⟩
      else ⟨[5], some cWord⟩
    tcls := fun t => if t = 1 then cPhone else cWord
    nG := 2
    gtiers := fun g => if g = 0 then [0, 1] else [2]
    nA := 1
    agroups := fun _ => [0, 1] }

theorem exGroupAndWord_subs (v : Ref) : (v = 0 ∧ (exGroupAndWord.subs v).vals = [2, 3]) ∨
    (v = 1 ∧ (exGroupAndWord.subs v).vals = [4]) ∨ (v ≠ 0 ∧ v ≠ 1 ∧ (exGroupAndWord.subs v).vals = []) := by
  by_cases h0 : v = 0
  · subst h0; exact Or.inl ⟨rfl, rfl⟩
  · by_cases h1 : v = 1
    · subst h1; exact Or.inr (Or.inl ⟨rfl, rfl⟩)
    · exact Or.inr (Or.inr ⟨h0, h1, by
        show (if v = 0 then (⟨[2, 3], some cPhone⟩ : SL) else if v = 1 then ⟨[4], some cPhone⟩ else SL.empty).vals = []
        rw [if_neg h0, if_neg h1]; rfl⟩)

theorem exGroupAndWord_tidy : Tidy exGroupAndWord where
  agree := by
    intro v x
    show x ∈ (if v = 0 then (⟨[2, 3], some cPhone⟩ : SL) else if v = 1 then ⟨[4], some cPhone⟩ else SL.empty).vals ↔
      (if x = 2 ∨ x = 3 then some 0 else if x = 4 then some 1 else none) = some v
    unfold Ref at *
    by_cases h0 : v = 0
    · subst h0; simp; grind
    · by_cases h1 : v = 1
      · subst h1; simp; grind
      · simp [h0, h1, SL.empty]; grind
  nodup := by intro v; rcases exGroupAndWord_subs v with ⟨-, e⟩ | ⟨-, e⟩ | ⟨-, -, e⟩ <;> rw [e] <;> decide
  distinct := by
    intro v; rcases exGroupAndWord_subs v with ⟨-, e⟩ | ⟨-, e⟩ | ⟨-, -, e⟩ <;> rw [e] <;>
      decide +kernel
  cls := by intro v; rcases exGroupAndWord_subs v with ⟨-, e⟩ | ⟨-, e⟩ | ⟨-, -, e⟩ <;> rw [e] <;> decide
  label := by intro v; rcases exGroupAndWord_subs v with ⟨-, e⟩ | ⟨-, e⟩ | ⟨-, -, e⟩ <;> rw [e] <;> decide

theorem exGroupAndWord_spot : Spot exGroupAndWord 0 [0] [1] 1 cWord cPhone true where
  eq := rfl
  above := by intro t e; cases e; rfl
  below := by intro t e; cases e; rfl
  onlyAbove := by decide
  onlyBelow := by decide
  source := rfl
  filled := by decide
  fit := {
    once := by decide
    cls := by decide
    label := by decide
    disjoint := by decide +kernel
    positive := by decide +kernel
    aligned := by
      intro i t t' h1 h2
      match i with
      | 0 =>
        cases h1; cases h2
        exact ⟨by decide +kernel, by decide +kernel, by decide +kernel, by decide +kernel⟩
      | i + 1 => simp at h2
    closed := by
      intro v x hx
      rcases exGroupAndWord_subs v with ⟨rfl, e⟩ | ⟨rfl, e⟩ | ⟨-, -, e⟩ <;> rw [e] at hx <;>
        first | (revert x; decide) | exact (nomatch hx)
    old := by decide }

/-- a case meeting the hypotheses of C69: `Syl` is interleaved above `Phone`, with the times of the phones and
    without labels; the group of the single word is left as it is -/
example : ∃ new h', interleave 0 "Syl" true "Phone" true false exGroupAndWord = .ok () h' ∧
    h'.ct.sub cWord = some new ∧ ∃ g t, h'.agroups 0 = [g, 1] ∧ h'.gtiers g = [0, t, 1] ∧
      (h'.tseq t).vals.map (fun x => (h'.start x, h'.stop x, h'.label x)) = [(0, 1, ""), (1, 2, ""), (2, 3, "")] ∧
      RelatedByContainment h' [0, t, 1] := by
  obtain ⟨new, h', e, -, k1, -, -, -, k2, k3, -, -⟩ := C69_interleave_partial exGroupAndWord 0 "Syl" "Phone" true true false
    cWord cPhone (wfc_of_check (by decide +kernel)) (by decide +kernel) (by decide) (by decide) (by decide +kernel)
    (Adjacent.at (by decide +kernel) _) (by decide +kernel) (by decide +kernel) (by decide) (by unfold Separate; decide)
    exGroupAndWord_tidy
    (by intro v x hx; rcases exGroupAndWord_subs v with ⟨rfl, e⟩ | ⟨rfl, e⟩ | ⟨-, -, e⟩ <;> rw [e] at hx <;>
          first | (revert x; decide) | exact (nomatch hx))
    (by
      intro g hg hex
      have hg : g = 0 ∨ g = 1 := by simpa [exGroupAndWord] using hg
      rcases hg with rfl | rfl
      · refine ⟨[0], [1], 1, exGroupAndWord_spot, ⟨by decide +kernel, ?_, ?_, ?_, ?_⟩, ?_⟩
        · intro i c c' h1 h2
          match i with
          | 0 => cases h1; cases h2; decide +kernel
          | i + 1 => simp at h2
        · intro i c c' h1 h2
          match i with
          | 0 => cases h1; cases h2; decide +kernel
          | i + 1 => simp at h2
        · intro c e; cases e; exact ⟨7, by decide +kernel, Or.inl (by decide +kernel)⟩
        · intro c e; cases e; exact ⟨8, by decide +kernel, Or.inl (by decide +kernel)⟩
        · intro c hc
          have hc : c = cWord ∨ c = cPhone := by simpa [exGroupAndWord] using hc
          rcases hc with rfl | rfl
          · exact ⟨⟨cPhone, 7, by decide +kernel⟩, by decide +kernel⟩
          · exact ⟨⟨8, cWord, by decide +kernel⟩, by decide +kernel⟩
      · exact absurd hex (by decide +kernel))
  refine ⟨new, h', e, k1, ?_⟩
  match hg : h'.agroups 0, k2 with
  | [g, g2], _ =>
    have a1 := k3 0 0 g rfl (by rw [hg]; rfl)
    have a2 := k3 1 1 g2 rfl (by rw [hg]; rfl)
    rw [if_pos (by decide +kernel)] at a1
    rw [if_neg (by decide +kernel)] at a2
    obtain ⟨pre, post, k, t, pl, e1, co, rc⟩ := a1
    have hpl : pre = [0] ∧ post = [1] := by
      have q : [0, 1] = pre ++ post := pl.eq
      have o1 := pl.onlyBelow
      have o2 := pl.onlyAbove
      match pre, post, q with
      | [], _, q => cases q; exact absurd (o2 0 (by simp)) (by decide)
      | [_], _, q => cases q; exact ⟨rfl, rfl⟩
      | [_, _], _, q => cases q; exact absurd (o1 1 (by simp)) (by decide)
      | _ :: _ :: _ :: _, _, q => simp at q
    obtain ⟨rfl, rfl⟩ := hpl
    have hk : k = 1 := by have := pl.source; simpa using this.symm
    subst hk
    refine ⟨g, t, by rw [a2.1], e1, ?_, rc.1⟩
    rw [co.values]
    decide +kernel

/-- two groups of words and phones, the second one with empty tiers -/
def exEmptyGroup : Heap := run0 (do
  let t ← newTierFrom [(0, 2, "w")] cWord "Word"
  let u ← newTierFrom [(0, 2, "w")] cPhone "Phone"
  let g ← newGroup [t, u]
  let t ← newTierFrom [] cWord "Word"
  let u ← newTierFrom [] cPhone "Phone"
  let g2 ← newGroup [t, u]
  let _ ← newAtgOf [g, g2]
  pure ())

/-- C69 is violated for a group with empty tiers: the new tier, having no intervals, does not get the new class,
    and the tier of the lower class is dropped with it. -/
theorem C69_empty_violated : ∃ (h : Heap) (a : ARef),
    (h.agroups a).map (fun g => (h.gtiers g).map fun t => h.ct.name (h.tcls t)) =
      [["Word", "Phone"], ["Word", "Phone"]] ∧
    let r := interleave a "Syl" true "Phone" true true h
    r.out = .ok () ∧ (r.heap.agroups a).map (fun g => (r.heap.gtiers g).map fun t => r.heap.ct.name (r.heap.tcls t)) =
      [["Word", "Syl", "Phone"], ["Word"]] :=
  ⟨exEmptyGroup, 0, by decide +kernel⟩

end ATG
