import Verif.Lemmas.CtFrame
import Verif.Lemmas.TierInit
import Verif.Props.Custom
import Verif.Model.Base
/-!
# `interleave_class` and `pop_class` on the class hierarchy (`aligned_textgrid.py:528-733`)
-/
namespace ATG

/-- `u` is directly above `d` -/
structure Adjacent (ct : ClassTab) (u d : CRef) : Prop where
  sub : ct.ownSub u = some (some d)
  sup : ct.ownSup d = some (some u)
  ne : u ≠ d
  ltU : u < ct.next
  ltD : d < ct.next
  partU : ct.isSub u cHierarchyPart = true
  partD : ct.isSub d cHierarchyPart = true
  nameU : hasSubstr "Bottom" (ct.name u) = false
  nameD : hasSubstr "Top" (ct.name d) = false

/-- The same as far as `interleave_class` looks at it: of the two links only the one it follows, up from `d` to put
    a class above it, down from `u` to put one below. -/
structure AdjacentAt (above : Bool) (ct : ClassTab) (u d : CRef) : Prop where
  link : if above then ct.sup d = some u else ct.sub u = some d
  ne : u ≠ d
  ltU : u < ct.next
  ltD : d < ct.next
  partU : ct.isSub u cHierarchyPart = true
  partD : ct.isSub d cHierarchyPart = true
  nameU : hasSubstr "Bottom" (ct.name u) = false
  nameD : hasSubstr "Top" (ct.name d) = false

theorem Adjacent.at {ct : ClassTab} {u d : CRef} (a : Adjacent ct u d) (above : Bool) : AdjacentAt above ct u d :=
  ⟨by cases above <;> simp [sub_own a.sub, sup_own a.sup], a.ne, a.ltU, a.ltD, a.partU, a.partD, a.nameU, a.nameD⟩

theorem liftC_ok {α} (f : ClassTab → CRes α) (h : Heap) (ct' : ClassTab) (a : α) (e : f h.ct = (ct', .ok a)) :
    liftC f h = .ok a { h with ct := ct' } := by
  unfold liftC; rw [e]

/-- one new class for one name -/
theorem customOne {ct : ClassTab} (hr : WFC ct) (name : String) (hn : PlainName name) :
    ∃ ct', customClasses ct [name] [] = (ct', .ok [ct.next + 2]) ∧ WFC ct' ∧ Ext ct ct' ∧
      ct'.next = ct.next + 3 ∧ ct'.name (ct.next + 2) = name ∧ ct'.isSub (ct.next + 2) cInterval = true := by
  obtain ⟨ct', e, w', x', n', hnames, hkind, _⟩ := customCore_spec hr [name] [] (by
    intro j nm h _
    cases j with
    | zero => simp only [List.getElem?_cons_zero, Option.some.injEq] at h; rw [← h]; exact hn
    | succ j => simp at h)
  refine ⟨ct', ?_, w', x', n', by simpa using hnames, by simpa using (hkind 0 (by simp)).1⟩
  unfold customClasses
  rw [e, CRes.bind_ok]
  simp only []
  rw [orderByName_self [name] _ (by simp) (by simp)]
  rfl

/-- a new class put between two adjacent ones -/
theorem insert_between {ct : ClassTab} (w : WFC ct) {u d new : CRef} {above : Bool} (adj : AdjacentAt above ct u d)
    (hnu : ct.sub u ≠ some new) (hnd : (ct.putSup new (some u)).sup d ≠ some new)
    (hu : new ≠ u) (hd : new ≠ d) (hnew : new < ct.next) (hi : ct.isSub new cInterval = true)
    (hn : PlainName (ct.name new)) :
    ∃ ct1, setSupClass ct new (some u) = (ct1, .ok ()) ∧
      setSubClass ct1 new (some d) = ((ct1.putSub new (some d)).putSup d (some new), .ok ()) ∧
      ct1 = (ct.putSup new (some u)).putSub u (some new) := by
  have hp : ct.isSub new cHierarchyPart = true := isSub_trans w (interval_hier w) _ _ (Nat.le_refl _) hnew hi
  have e1 := setSupClass_new (ct := ct) (c := new) (s := u) hn.1 adj.nameU adj.partU hp hu.symm hnu
  refine ⟨_, e1, ?_, rfl⟩
  have hpar : ((ct.putSup new (some u)).putSub u (some new)).parent = ct.parent := rfl
  apply setSubClass_new
  · exact hn.2
  · exact adj.nameD
  · rw [isSub_congr hpar]; exact adj.partD
  · rw [isSub_congr hpar]; exact hp
  · exact hd.symm
  · refine fun e => hnd (Eq.trans ?_ e)
    exact (getSupN_congr (ct := ct.putSup new (some u)) (ct' := (ct.putSup new (some u)).putSub u (some new))
      rfl rfl d d).symm

theorem classByName_congr (h h' : Heap) (a : ARef) (name : String) (hag : h'.agroups = h.agroups)
    (hgt : h'.gtiers = h.gtiers) (htc : h'.tcls = h.tcls)
    (hn : ∀ g ∈ h.agroups a, ∀ t ∈ h.gtiers g, h'.ct.name (h.tcls t) = h.ct.name (h.tcls t)) :
    classByName h' a name = classByName h a name := by
  unfold classByName
  rw [hag, hgt, htc]
  have : (((h.agroups a).flatMap fun g => (h.gtiers g).map h.tcls).eraseDups).filter
      (fun c => h'.ct.name c == name) =
      (((h.agroups a).flatMap fun g => (h.gtiers g).map h.tcls).eraseDups).filter
      (fun c => h.ct.name c == name) := by
    apply List.filter_congr
    intro c hc
    rw [List.mem_eraseDups, List.mem_flatMap] at hc
    obtain ⟨g, hg, hc⟩ := hc
    obtain ⟨t, ht, rfl⟩ := List.mem_map.mp hc
    rw [hn g hg t ht]
  rw [this]

/-- a class of intervals is no `Top`, `Bottom` or point class -/
theorem interval_kind {ct : ClassTab} (w : WFC ct) : ∀ (n : Nat) (c : CRef), c ≤ n → c < ct.next →
    ct.isSub c cInterval = true → ct.isSub c cTop = false ∧ ct.isSub c cBottom = false ∧ ct.isSub c cPoint = false := by
  have h0 : ∀ x, ct.isSub 0 x = (0 == x) := fun x => by simp [ClassTab.isSub, ClassTab.isSubN]
  intro n
  induction n with
  | zero =>
    intro c hc _ hi
    have : c = 0 := Nat.le_zero.mp hc
    subst this
    rw [h0] at hi
    simp [cInterval] at hi
  | succ n ih =>
    intro c hc hl hi
    by_cases e3 : c = 3
    · subst e3
      rw [isSub_parent w _ hl w.p3, isSub_parent w _ hl w.p3, isSub_parent w _ hl w.p3, h0, h0, h0]
      decide
    · cases hp : ct.parent c with
      | none =>
        exfalso
        unfold ClassTab.isSub at hi
        cases c with
        | zero => simp [ClassTab.isSubN, cInterval] at hi
        | succ c => simp [ClassTab.isSubN, hp, cInterval] at hi; exact e3 (by simpa using hi)
      | some p =>
        have hlt := w.down c p hl hp
        rw [isSub_parent w _ hl hp] at hi
        have : (c == cInterval) = false := by simpa [cInterval] using e3
        rw [this, Bool.false_or] at hi
        have i := ih p (by unfold CRef at *; omega) (by unfold CRef at *; omega) hi
        rw [isSub_parent w _ hl hp, isSub_parent w _ hl hp, isSub_parent w _ hl hp, i.1, i.2.1, i.2.2]
        have c1 : c ≠ 1 := by
          rintro rfl
          rw [w.p1] at hp
          cases hp
          rw [h0] at hi; simp [cInterval] at hi
        have c2 : c ≠ 2 := by
          rintro rfl
          rw [w.p2] at hp
          cases hp
          rw [h0] at hi; simp [cInterval] at hi
        have c4 : c ≠ 4 := by
          rintro rfl
          rw [w.p4] at hp
          cases hp
        simp only [Bool.or_false, beq_eq_false_iff_ne, ne_eq]
        exact ⟨c1, c2, c4⟩

/-- the class table after `interleave_class`, and what is left to do then -/
theorem interleave_links (h : Heap) (a : ARef) (name cname : String) (above fromBelow labels : Bool)
    (u d : CRef) (hr : WFC h.ct) (hn : PlainName name) (hne : name ≠ "") (hcne : cname ≠ "")
    (hc : classByName h a cname = .ok (if above then d else u)) (adj : AdjacentAt above h.ct u d)
    (ht : ∀ g ∈ h.agroups a, ∀ t ∈ h.gtiers g, h.tcls t < h.ct.next) :
    ∃ new ct', interleave a name above cname fromBelow labels h = (do
        let gs ← interleaveGroups (if above then d else u) new (some d) (some (if fromBelow then d else u)) labels
          (h.agroups a)
        setGroups a gs
        setContainsA a) { h with ct := ct' } ∧
      (h.ct.next ≤ new ∧ new < ct'.next ∧ ct'.name new = name ∧ ct'.isSub new cInterval = true ∧
      ct'.ownSup new = some (some u) ∧ ct'.ownSub u = some (some new) ∧
      ct'.ownSub new = some (some d) ∧ ct'.ownSup d = some (some new) ∧
      ∀ x, x < h.ct.next → ct'.name x = h.ct.name x ∧ ct'.parent x = h.ct.parent x ∧
        (x ≠ d → ct'.ownSup x = h.ct.ownSup x) ∧ (x ≠ u → ct'.ownSub x = h.ct.ownSub x)) ∧
      (ct'.isSub new cTop = false ∧ ct'.isSub new cBottom = false ∧ ct'.isSub new cPoint = false) ∧
      (∀ x y, x < h.ct.next → ct'.isSub x y = h.ct.isSub x y) ∧ WFC ct' := by
  obtain ⟨ct1, ec, w1, x1, n1, hname, hint⟩ := customOne hr name hn
  have hlt : ∀ x, x < h.ct.next → x ≠ h.ct.next + 2 := fun x hx e => by unfold CRef at *; omega
  have adj1 : AdjacentAt above ct1 u d := by
    refine ⟨by rw [sub_ext hr x1 u adj.ltU, sup_ext hr x1 d adj.ltD]; exact adj.link, adj.ne,
      Nat.lt_of_lt_of_le adj.ltU x1.le, Nat.lt_of_lt_of_le adj.ltD x1.le, ?_, ?_, ?_, ?_⟩
    · rw [isSub_ext hr x1 _ _ adj.ltU]; exact adj.partU
    · rw [isSub_ext hr x1 _ _ adj.ltD]; exact adj.partD
    · rw [x1.name u adj.ltU]; exact adj.nameU
    · rw [x1.name d adj.ltD]; exact adj.nameD
  obtain ⟨ct2, e2, e3, hct2⟩ := insert_between w1 adj1
    (by
      rw [sub_ext hr x1 u adj.ltU]
      exact fun e => hlt _ (sub_lt hr u u _ (Nat.le_refl _) adj.ltU e) rfl)
    (by
      rw [sup_ext hr (ext_putSup x1 (some u) (by unfold CRef at *; omega)) d adj.ltD]
      exact fun e => hlt _ (sup_lt hr d d _ (Nat.le_refl _) adj.ltD e) rfl)
    (hlt u adj.ltU).symm (hlt d adj.ltD).symm
    (by rw [n1]; unfold CRef at *; omega) hint (by rw [hname]; exact hn)
  let ct3 := (ct2.putSub (h.ct.next + 2) (some d)).putSup d (some (h.ct.next + 2))
  have hcb : classByName { h with ct := ct1 } a cname = .ok (if above then d else u) := by
    rw [classByName_congr h { h with ct := ct1 } a cname rfl rfl rfl (fun g hg t htm => x1.name _ (ht g hg t htm))]
    exact hc
  have hup : (if above then ct1.sup (if above then d else u) else some (if above then d else u)) = some u := by
    cases above
    · rfl
    · simpa using adj1.link
  have hdown : (if above then some (if above then d else u) else ct1.sub (if above then d else u)) = some d := by
    cases above
    · simpa using adj1.link
    · rfl
  have hrun : interleave a name above cname fromBelow labels h = (do
        let gs ← interleaveGroups (if above then d else u) (h.ct.next + 2) (some d)
          (some (if fromBelow then d else u)) labels (h.agroups a)
        setGroups a gs
        setContainsA a) { h with ct := ct3 } := by
    unfold interleave
    rw [if_neg (by simp [hne, hcne])]
    rw [M.bind_ok (liftC_ok (fun ct => customClasses ct [name] []) h ct1 _ ec)]
    simp only []
    rw [M.bind_ok (M.get_apply _)]
    rw [hcb]
    rw [M.bind_ok (show liftE (Except.ok (if above then d else u)) _ = .ok _ _ from rfl)]
    simp only []
    rw [hup, hdown]
    rw [M.bind_ok (liftC_ok (fun ct => setSupClass ct (h.ct.next + 2) (some u)) { h with ct := ct1 } ct2 () e2)]
    rw [M.bind_ok (liftC_ok (fun ct => setSubClass ct (h.ct.next + 2) (some d)) { h with ct := ct2 } ct3 () e3)]
    rw [M.bind_ok (M.get_apply _)]
    cases fromBelow <;> rfl
  have hnu := hlt u adj.ltU
  have hnd := hlt d adj.ltD
  refine ⟨h.ct.next + 2, ct3, hrun, ⟨by unfold CRef at *; omega, ?_, ?_, ?_, ?_, ?_, ?_, ?_, ?_⟩, ?_, ?_, ?_⟩
  · show h.ct.next + 2 < ct2.next; rw [hct2]; show h.ct.next + 2 < ct1.next; rw [n1]; unfold CRef at *; omega
  · show ct2.name _ = _; rw [hct2]; exact hname
  · rw [isSub_congr (show ct3.parent = ct1.parent by show ct2.parent = _; rw [hct2]; rfl)]; exact hint
  · simp [ct3, hct2, ClassTab.putSup, ClassTab.putSub, upd, hnd.symm]
  · simp [ct3, hct2, ClassTab.putSup, ClassTab.putSub, upd, hnu]
  · simp [ct3, hct2, ClassTab.putSup, ClassTab.putSub, upd]
  · simp [ct3, hct2, ClassTab.putSup, ClassTab.putSub, upd]
  · intro x hx
    have hnx := hlt x hx
    refine ⟨?_, ?_, fun hxd => ?_, fun hxu => ?_⟩
    · rw [← x1.name x hx]; simp [ct3, hct2, ClassTab.putSup, ClassTab.putSub]
    · rw [← x1.parent x hx]; simp [ct3, hct2, ClassTab.putSup, ClassTab.putSub]
    · rw [← x1.ownSup x hx]; simp [ct3, hct2, ClassTab.putSup, ClassTab.putSub, upd, hxd, hnx]
    · rw [← x1.ownSub x hx]; simp [ct3, hct2, ClassTab.putSup, ClassTab.putSub, upd, hxu, hnx]
  · have hpar : ct3.parent = ct1.parent := by show ct2.parent = _; rw [hct2]; rfl
    rw [isSub_congr hpar, isSub_congr hpar, isSub_congr hpar]
    exact interval_kind w1 _ _ (Nat.le_refl _) (by rw [n1]; unfold CRef at *; omega) hint
  · intro x y hx
    rw [isSub_congr (show ct3.parent = ct1.parent by show ct2.parent = _; rw [hct2]; rfl)]
    exact isSub_ext hr x1 x y hx
  · have hn : h.ct.next + 2 < ct1.next := by rw [n1]; unfold CRef at *; omega
    show WFC ((ct2.putSub (h.ct.next + 2) (some d)).putSup d (some (h.ct.next + 2)))
    rw [hct2]
    exact wfc_putSup (wfc_putSub (wfc_putSub (wfc_putSup w1 _ _ adj1.ltU) _ _ hn) _ _ adj1.ltD) _ _ hn

/-- C36, first half: interleaving a new class above `d` or below `u`, where `u` is directly above `d`, puts
    the new class between the two and changes no other link, name or base of an existing class. This is so
    whether the textgrid itself can then be rebuilt or not.

    The names must not contain `Top` or `Bottom` (C30), and the class must be found by its name. -/
theorem C36_interleave_partial (h : Heap) (a : ARef) (name cname : String) (above fromBelow labels : Bool)
    (u d : CRef) (hr : WFC h.ct) (hn : PlainName name) (hne : name ≠ "") (hcne : cname ≠ "")
    (hc : classByName h a cname = .ok (if above then d else u)) (adj : Adjacent h.ct u d)
    (ht : ∀ g ∈ h.agroups a, ∀ t ∈ h.gtiers g, h.tcls t < h.ct.next)
    (h' : Heap) (hh : h' = (interleave a name above cname fromBelow labels h).heap) :
    ∃ new, h.ct.next ≤ new ∧ new < h'.ct.next ∧ h'.ct.name new = name ∧ h'.ct.isSub new cInterval = true ∧
      h'.ct.ownSup new = some (some u) ∧ h'.ct.ownSub u = some (some new) ∧
      h'.ct.ownSub new = some (some d) ∧ h'.ct.ownSup d = some (some new) ∧
      ∀ x, x < h.ct.next → h'.ct.name x = h.ct.name x ∧ h'.ct.parent x = h.ct.parent x ∧
        (x ≠ d → h'.ct.ownSup x = h.ct.ownSup x) ∧ (x ≠ u → h'.ct.ownSub x = h.ct.ownSub x) := by
  obtain ⟨new, ct', e, f, -, -⟩ := interleave_links h a name cname above fromBelow labels u d hr hn hne hcne hc (adj.at above) ht
  have hct : h'.ct = ct' := by
    rw [hh, e]
    exact (CtSame.bind (CtSame.interleaveGroups _ _ _ _ _ _) fun _ =>
      CtSame.bind (CtSame.setGroups _ _) fun _ => CtSame.setContainsA _ : Keeps CtSame _) { h with ct := ct' }
  exact ⟨new, by rw [hct]; exact f⟩

/-- the links after `p` was taken out from between `u` and `d` -/
def closeLink (ct : ClassTab) (u d : CRef) : ClassTab := (ct.putSub u (some d)).putSup d (some u)

/-- `p` stands between `u` and `d` -/
structure Between (ct : ClassTab) (u p d : CRef) : Prop where
  sup : ct.ownSup p = some (some u)
  sub : ct.ownSub p = some (some d)
  neU : u ≠ p
  neD : d ≠ p
  ne : u ≠ d
  partU : ct.isSub u cHierarchyPart = true
  partD : ct.isSub d cHierarchyPart = true
  nameU : hasSubstr "Bottom" (ct.name u) = false
  nameD : hasSubstr "Top" (ct.name d) = false

theorem Between.close {ct : ClassTab} {u p d : CRef} (b : Between ct u p d) : Between (closeLink ct u d) u p d := by
  have hp : (closeLink ct u d).parent = ct.parent := rfl
  refine ⟨?_, ?_, b.neU, b.neD, b.ne, ?_, ?_, b.nameU, b.nameD⟩
  · simp [closeLink, ClassTab.putSup, ClassTab.putSub, upd, b.neD.symm, b.sup]
  · simp [closeLink, ClassTab.putSup, ClassTab.putSub, upd, b.neU.symm, b.sub]
  · rw [isSub_congr hp]; exact b.partU
  · rw [isSub_congr hp]; exact b.partD

theorem closeLink_twice (ct : ClassTab) (u d : CRef) : closeLink (closeLink ct u d) u d = closeLink ct u d := by
  simp [closeLink, ClassTab.putSup, ClassTab.putSub, upd_upd]

/-- the two class operations of `pop_class` -/
theorem pop_links {ct : ClassTab} {u p d : CRef} (b : Between ct u p d) :
    ∃ ct1, setSubClass ct u (some d) = (ct1, .ok ()) ∧ setSupClass ct1 d (some u) = (closeLink ct u d, .ok ()) := by
  by_cases e : ct.sup d = some u
  · refine ⟨_, setSubClass_old b.nameU b.partD b.ne.symm e, ?_⟩
    rw [setSupClass_old]
    · rfl
    · exact b.nameD
    · rw [isSub_congr (show (ct.putSub u (some d)).parent = ct.parent from rfl)]; exact b.partU
    · exact b.ne
    · simp
  · refine ⟨_, setSubClass_new b.nameU b.nameD b.partD b.partU b.ne.symm e, ?_⟩
    rw [setSupClass_old]
    · simp [closeLink, ClassTab.putSup, ClassTab.putSub, upd_upd]
    · exact b.nameD
    · rw [isSub_congr (show ((ct.putSub u (some d)).putSup d (some u)).parent = ct.parent from rfl)]; exact b.partU
    · exact b.ne
    · simp

theorem keepsAt {R : Heap → Heap → Prop} (hR : IsPre R) {α β} {m : M α} {f : α → M β} {h : Heap}
    (hm : R h (m h).heap) (hf : ∀ a h1, m h = .ok a h1 → R h1 (f a h1).heap) : R h ((m >>= f) h).heap := by
  rw [M.bind_apply]
  cases e : m h with
  | ok a h1 => rw [e] at hm; exact hR.trans _ _ _ hm (hf a h1 e)
  | err x h1 => rw [e] at hm; exact hm

/-- what `pop_class` does to a group with the class and other tiers -/
theorem popGroup_run {n : Nat} {u p d : CRef} (name : String) (h : Heap) (g : GRef) (b : Between h.ct u p d)
    (hn : n ≤ h.nG) (hone : ∀ t ∈ h.gtiers g, h.ct.name (h.tcls t) = name → h.tcls t = p) (g' : GRef) (h' : Heap)
    (hr : popGroup g name h = .ok g' h') : OldGroups n { h with ct := closeLink h.ct u d } h' := by
  unfold popGroup at hr
  rw [M.bind_ok (M.get_apply h)] at hr
  cases hf : (h.gtiers g).filter (fun t => decide (h.ct.name (h.tcls t) = name)) with
  | nil => rw [hf] at hr; cases hr
  | cons pt r =>
    cases r with
    | cons _ _ => rw [hf] at hr; cases hr
    | nil =>
      rw [hf] at hr
      have hm : pt ∈ (h.gtiers g).filter (fun t => decide (h.ct.name (h.tcls t) = name)) := by rw [hf]; simp
      rw [List.mem_filter] at hm
      have hp := hone pt hm.1 (of_decide_eq_true hm.2)
      simp only [hp, sup_own b.sup, sub_own b.sub] at hr
      obtain ⟨ct1, e1, e2⟩ := pop_links b
      rw [M.bind_ok (liftC_ok (fun ct => setSubClass ct u (some d)) h ct1 () e1)] at hr
      rw [M.bind_ok (liftC_ok (fun ct => setSupClass ct d (some u)) { h with ct := ct1 } (closeLink h.ct u d) () e2)]
        at hr
      have key : OldGroups n { h with ct := closeLink h.ct u d } (Res.ok g' h').heap := by
        rw [← hr]
        refine keepsAt (OldGroups.pre n) (OldGroups.forL _ (fun _ => OldGroups.refreshTier _) _) fun _ h1 e => ?_
        have hn1 : n ≤ h1.nG := by
          have := (OldGroups.forL (n := n) ((h.gtiers g).filter fun t => decide (h.ct.name (h.tcls t) ≠ name))
            (fun t => OldGroups.refreshTier t) { h with ct := closeLink h.ct u d }).nG
          rw [e] at this
          exact Nat.le_trans hn this
        refine keepsAt (OldGroups.pre n) (OldGroups.newGroup _ h1 hn1) fun g2 h2 _ => ?_
        refine (Keeps.get_bind fun h0 => ?_ : Keeps (OldGroups n) _) h2
        split
        · exact OldGroups.throw _
        · exact OldGroups.bind (OldGroups.forL _ fun _ => OldGroups.bind (OldGroups.of_skel (Skel.setSubs _ _)) fun _ =>
            OldGroups.modify fun _ => ⟨rfl, rfl, rfl, rfl⟩) fun _ => OldGroups.pure _
      exact key

/-- a group from which `pop_class(name)` takes a tier and keeps others -/
def Popped (h : Heap) (name : String) (g : GRef) : Prop :=
  (∃ t ∈ h.gtiers g, h.ct.name (h.tcls t) = name) ∧ (h.gtiers g).length ≠ 1

theorem popGroups_run {n : Nat} {u p d : CRef} (name : String) (gs : List GRef) (h : Heap) (b : Between h.ct u p d)
    (hn : n ≤ h.nG) (hg : ∀ g ∈ gs, g < n)
    (hone : ∀ g ∈ gs, ∀ t ∈ h.gtiers g, h.ct.name (h.tcls t) = name → h.tcls t = p) (gs' : List GRef) (h' : Heap)
    (hr : popGroups name gs h = .ok gs' h') :
    ((∃ g ∈ gs, Popped h name g) → h'.ct = closeLink h.ct u d) ∧
    ((∀ g ∈ gs, ¬ Popped h name g) → h'.ct = h.ct) := by
  induction gs generalizing h gs' h' with
  | nil =>
    simp only [popGroups] at hr
    cases hr
    refine ⟨?_, fun _ => rfl⟩
    rintro ⟨g, hg, _⟩
    cases hg
  | cons g gs ih =>
    have hg' : ∀ g ∈ gs, g < n := fun x hx => hg x (by simp [hx])
    have hone' : ∀ g ∈ gs, ∀ t ∈ h.gtiers g, h.ct.name (h.tcls t) = name → h.tcls t = p :=
      fun x hx => hone x (by simp [hx])
    rw [popGroups, M.bind_ok (M.get_apply h)] at hr
    by_cases hc : ((h.gtiers g).map fun t => h.ct.name (h.tcls t)).contains name = true
    · rw [if_neg (by simp only [hc, Bool.not_true]; simp)] at hr
      have hex : ∃ t ∈ h.gtiers g, h.ct.name (h.tcls t) = name := by
        rw [List.contains_iff_mem, List.mem_map] at hc
        exact hc
      by_cases hl : ((h.gtiers g).map fun t => h.ct.name (h.tcls t)).length = 1
      · rw [if_pos hl] at hr
        rw [List.length_map] at hl
        have hnp : ¬ Popped h name g := fun e => e.2 hl
        obtain ⟨i1, i2⟩ := ih h b hn hg' hone' gs' h' hr
        refine ⟨fun ⟨x, hx, e⟩ => ?_, fun hall => i2 fun x hx => hall x (by simp [hx])⟩
        rcases List.mem_cons.mp hx with rfl | hx
        · exact absurd e hnp
        · exact i1 ⟨x, hx, e⟩
      · rw [if_neg hl] at hr
        rw [List.length_map] at hl
        cases e1 : popGroup g name h with
        | err x h1 => rw [M.bind_err e1] at hr; cases hr
        | ok g1 h1 =>
          rw [M.bind_ok e1] at hr
          have old := popGroup_run (n := n) name h g b hn (hone g (by simp)) g1 h1 e1
          have hct : h1.ct = closeLink h.ct u d := old.ct
          have hname : h1.ct.name = h.ct.name := by rw [hct]; rfl
          have htc : h1.tcls = h.tcls := old.tcls
          cases e2 : popGroups name gs h1 with
          | err x h2 => rw [M.bind_err e2] at hr; cases hr
          | ok gs2 h2 =>
            rw [M.bind_ok e2] at hr
            have hh : h' = h2 := by cases hr; rfl
            have hgt : ∀ x ∈ gs, h1.gtiers x = h.gtiers x := fun x hx => old.gtiers x (hg' x hx)
            obtain ⟨i1, i2⟩ := ih h1 (by rw [hct]; exact b.close) (Nat.le_trans hn old.nG) hg'
              (fun x hx t ht => by
                rw [hgt x hx] at ht
                rw [hname, htc]
                exact hone' x hx t ht) gs2 h2 e2
            have hfin : h2.ct = closeLink h.ct u d := by
              by_cases hany : ∃ x ∈ gs, Popped h1 name x
              · rw [i1 hany, hct, closeLink_twice]
              · rw [i2 fun x hx e => hany ⟨x, hx, e⟩, hct]
            refine ⟨fun _ => by rw [hh]; exact hfin, fun hall => absurd ⟨hex, hl⟩ (hall g (by simp))⟩
    · rw [if_pos (by simp only [Bool.not_eq_true] at hc; simp only [hc, Bool.not_false])] at hr
      have hnp : ¬ Popped h name g := by
        rintro ⟨⟨t, ht, e⟩, _⟩
        apply hc
        rw [List.contains_iff_mem, List.mem_map]
        exact ⟨t, ht, e⟩
      cases e2 : popGroups name gs h with
      | err x h2 => rw [M.bind_err e2] at hr; cases hr
      | ok gs2 h2 =>
        rw [M.bind_ok e2] at hr
        have hh : h' = h2 := by cases hr; rfl
        obtain ⟨i1, i2⟩ := ih h b hn hg' hone' gs2 h2 e2
        rw [hh]
        refine ⟨fun ⟨x, hx, e⟩ => ?_, fun hall => i2 fun x hx => hall x (by simp [hx])⟩
        rcases List.mem_cons.mp hx with rfl | hx
        · exact absurd e hnp
        · exact i1 ⟨x, hx, e⟩

/-- C36, second half: `pop_class(name)`, when it succeeds and some group keeps other tiers, links the two
    neighbours of the popped class to each other and changes nothing else about the classes. All tiers whose
    class has that name are taken to be of one class. -/
theorem C36_pop_partial (h : Heap) (a : ARef) (name : String) (u p d : CRef) (b : Between h.ct u p d)
    (hg : ∀ g ∈ h.agroups a, g < h.nG)
    (hone : ∀ g ∈ h.agroups a, ∀ t ∈ h.gtiers g, h.ct.name (h.tcls t) = name → h.tcls t = p)
    (hex : ∃ g ∈ h.agroups a, Popped h name g) (h' : Heap) (hr : popClass a name h = .ok () h') :
    h'.ct.ownSub u = some (some d) ∧ h'.ct.ownSup d = some (some u) ∧ h'.ct.next = h.ct.next ∧
      h'.ct.name = h.ct.name ∧ h'.ct.parent = h.ct.parent ∧
      (∀ x, x ≠ d → h'.ct.ownSup x = h.ct.ownSup x) ∧ (∀ x, x ≠ u → h'.ct.ownSub x = h.ct.ownSub x) := by
  have hct : h'.ct = closeLink h.ct u d := by
    unfold popClass at hr
    rw [M.bind_ok (M.get_apply h)] at hr
    cases e : popGroups name (h.agroups a) h with
    | err x h1 => rw [M.bind_err e] at hr; cases hr
    | ok gs h1 =>
      rw [M.bind_ok e] at hr
      have h2 := (popGroups_run (n := h.nG) name (h.agroups a) h b (Nat.le_refl _) hg hone gs h1 e).1 hex
      have h3 := (CtSame.bind (CtSame.setGroups a gs) fun _ => CtSame.setContainsA a) h1
      rw [hr] at h3
      exact h3.trans h2
  rw [hct]
  refine ⟨?_, ?_, rfl, rfl, rfl, fun x hx => ?_, fun x hx => ?_⟩
  · simp [closeLink, ClassTab.putSup, ClassTab.putSub]
  · simp [closeLink, ClassTab.putSup, ClassTab.putSub]
  · simp [closeLink, ClassTab.putSup, ClassTab.putSub, upd, hx]
  · simp [closeLink, ClassTab.putSup, ClassTab.putSub, upd, hx]

/-- C36, both: interleaving a new class and popping it gives every class that existed before the links,
    name and base it had.

    Missing for the full statement: interleaving raises when the tier to copy does not exist, as it does not
    below the lowest class or above the highest (`C36_edge_violated`), and then the links stay as they are
    (`C36_failed_violated`); class names with `Top` or `Bottom` (C30); names shared by two classes. -/
theorem C36_round_trip_partial (h h1 h2 : Heap) (a : ARef) (name cname : String) (above fromBelow labels : Bool)
    (u d : CRef) (hr : WFC h.ct) (hn : PlainName name) (hne : name ≠ "") (hcne : cname ≠ "")
    (hc : classByName h a cname = .ok (if above then d else u)) (adj : Adjacent h.ct u d)
    (ht : ∀ g ∈ h.agroups a, ∀ t ∈ h.gtiers g, h.tcls t < h.ct.next)
    (h1r : interleave a name above cname fromBelow labels h = .ok () h1)
    (hg : ∀ g ∈ h1.agroups a, g < h1.nG)
    (hold : ∀ g ∈ h1.agroups a, ∀ t ∈ h1.gtiers g, h1.ct.name (h1.tcls t) = name →
      h1.ct.sub u = some (h1.tcls t))
    (hex : ∃ g ∈ h1.agroups a, Popped h1 name g) (h2r : popClass a name h1 = .ok () h2) :
    ∀ x, x < h.ct.next → h2.ct.name x = h.ct.name x ∧ h2.ct.parent x = h.ct.parent x ∧
      h2.ct.ownSup x = h.ct.ownSup x ∧ h2.ct.ownSub x = h.ct.ownSub x := by
  obtain ⟨new, l1, l2, nn, ni, k1, k2, k3, k4, kx⟩ := C36_interleave_partial h a name cname above fromBelow labels u d
    hr hn hne hcne hc adj ht h1 (by rw [h1r]; rfl)
  have hlt : ∀ x, x < h.ct.next → x ≠ new := fun x hx e => by
    rw [e] at hx; exact absurd l1 (Nat.not_le_of_lt hx)
  have hsub : ∀ x, x < h.ct.next → h1.ct.isSub x cHierarchyPart = h.ct.isSub x cHierarchyPart := by
    intro x hx
    let ct0 : ClassTab := { h1.ct with ownSup := h.ct.ownSup, ownSub := h.ct.ownSub }
    have e : Ext h.ct ct0 := ⟨Nat.le_of_lt (Nat.lt_of_le_of_lt l1 l2), fun c hc => (kx c hc).1, fun c hc => (kx c hc).2.1,
      fun _ _ => rfl, fun _ _ => rfl⟩
    rw [← isSub_ext hr e x _ hx]
    exact isSub_congr (show h1.ct.parent = ct0.parent from rfl) x _
  have b : Between h1.ct u new d := by
    refine ⟨k1, k3, hlt u adj.ltU, hlt d adj.ltD, adj.ne, ?_, ?_, ?_, ?_⟩
    · rw [hsub u adj.ltU]; exact adj.partU
    · rw [hsub d adj.ltD]; exact adj.partD
    · rw [(kx u adj.ltU).1]; exact adj.nameU
    · rw [(kx d adj.ltD).1]; exact adj.nameD
  obtain ⟨p1, p2, _, p4, p5, p6, p7⟩ := C36_pop_partial h1 a name u new d b hg (fun g hgm t htm e => by
    have := hold g hgm t htm e
    rw [sub_own k2] at this
    exact (Option.some.inj this).symm) hex h2 h2r
  intro x hx
  refine ⟨by rw [p4]; exact (kx x hx).1, by rw [p5]; exact (kx x hx).2.1, ?_, ?_⟩
  · by_cases e : x = d
    · rw [e, p2, adj.sup]
    · rw [p6 x e]; exact (kx x hx).2.2.1 e
  · by_cases e : x = u
    · rw [e, p1, adj.sub]
    · rw [p7 x e]; exact (kx x hx).2.2.2 e

/-- words and phones, in one group; the classes are copies of `Word` (9) and `Phone` (11) -/
def exWordPhone : Heap := run0 (do
  let t ← newTierFrom [(0, 2, "w"), (2, 3, "v")] cWord "Word"
  let u ← newTierFrom [(0, 1, "a"), (1, 2, "b"), (2, 3, "c")] cPhone "Phone"
  let g ← newGroup [t, u]
  let _ ← newAtgOf [g]
  pure ())

instance (ct : ClassTab) (u d : CRef) : Decidable (Adjacent ct u d) :=
  decidable_of_iff (ct.ownSub u = some (some d) ∧ ct.ownSup d = some (some u) ∧ u ≠ d ∧ u < ct.next ∧ d < ct.next ∧
      ct.isSub u cHierarchyPart = true ∧ ct.isSub d cHierarchyPart = true ∧
      hasSubstr "Bottom" (ct.name u) = false ∧ hasSubstr "Top" (ct.name d) = false)
    ⟨fun ⟨a, b, c, d, e, f, g, h, i⟩ => ⟨a, b, c, d, e, f, g, h, i⟩,
     fun ⟨a, b, c, d, e, f, g, h, i⟩ => ⟨a, b, c, d, e, f, g, h, i⟩⟩
instance (h : Heap) (n : String) (g : GRef) : Decidable (Popped h n g) := by unfold Popped; infer_instance

theorem wfc_of_check {ct : ClassTab} (h : 5 ≤ ct.next ∧ ct.parent 0 = none ∧ ct.parent 1 = some 0 ∧
    ct.parent 2 = some 0 ∧ ct.parent 3 = some 0 ∧ ct.parent 4 = none ∧
    (∀ c < ct.next, (ct.parent c).all fun p => decide (p < c)) ∧
    (∀ c < ct.next, (ct.ownSup c).all fun v => v.all fun s => decide (s < ct.next)) ∧
    ∀ c < ct.next, (ct.ownSub c).all fun v => v.all fun s => decide (s < ct.next)) : WFC ct := by
  obtain ⟨h1, h2, h3, h4, h5, h6, h7, h8, h9⟩ := h
  refine ⟨h1, h2, h3, h4, h5, h6, fun c p hc e => ?_, fun c s hc e => ?_, fun c s hc e => ?_⟩
  · simpa [e] using h7 c hc
  · simpa [e] using h8 c hc
  · simpa [e] using h9 c hc

/-- the class table of the example is well-formed, as every reachable one is (`ReachC.wfc`) -/
example : WFC exWordPhone.ct := wfc_of_check (by decide +kernel)

/-- the hypotheses of the theorems about C36 are met by interleaving `Syl` above `Phone`, and the
    neighbours are `Word` and `Phone` again after popping it -/
example : let h := exWordPhone
    let r1 := interleave 0 "Syl" true "Phone" true true h
    let r2 := popClass 0 "Syl" r1.heap
    classByName h 0 "Phone" = .ok 11 ∧ Adjacent h.ct 9 11 ∧
    (∀ g ∈ h.agroups 0, ∀ t ∈ h.gtiers g, h.tcls t < h.ct.next) ∧ r1.out = .ok () ∧
    (∀ g ∈ r1.heap.agroups 0, g < r1.heap.nG) ∧
    (∀ g ∈ r1.heap.agroups 0, ∀ t ∈ r1.heap.gtiers g, r1.heap.ct.name (r1.heap.tcls t) = "Syl" →
      r1.heap.ct.sub 9 = some (r1.heap.tcls t)) ∧
    (∃ g ∈ r1.heap.agroups 0, Popped r1.heap "Syl" g) ∧ r2.out = .ok () ∧
    r1.heap.ct.sub 9 = some 15 ∧ r1.heap.ct.sub 15 = some 11 ∧
    r2.heap.ct.sub 9 = some 11 ∧ r2.heap.ct.sup 11 = some 9 := by
  decide +kernel

/-- C36 is violated at the edges: below the lowest class there is no tier to copy the times from, although
    copying from below is the default; the same above the highest class with times from above. -/
theorem C36_edge_violated : ∃ (h : Heap) (a : ARef),
    (interleave a "Seg" false "Phone" true true h).out = .error .indexError ∧
    (interleave a "Utt" true "Word" false true h).out = .error .indexError ∧
    (interleave a "Seg" false "Phone" false true h).out = .ok () ∧
    (interleave a "Utt" true "Word" true true h).out = .ok () :=
  ⟨exWordPhone, 0, by decide +kernel⟩

/-- C36 is violated: when interleaving raises, the classes of the textgrid are left linked to the class that
    was not put in, so that `Phone` has a subset class without tiers above the bottom. -/
theorem C36_failed_violated : ∃ (h : Heap) (a : ARef) (c b : CRef),
    (interleave a "Seg" false "Phone" true true h).out = .error .indexError ∧
    h.ct.sub c = some b ∧ h.ct.isSub b cBottom = true ∧
    (interleave a "Seg" false "Phone" true true h).heap.agroups a = h.agroups a ∧
    (∃ s, (interleave a "Seg" false "Phone" true true h).heap.ct.sub c = some s ∧
      (interleave a "Seg" false "Phone" true true h).heap.ct.name s = "Seg") :=
  ⟨exWordPhone, 0, 11, 12, by decide +kernel, by decide +kernel, by decide +kernel, by decide +kernel,
    15, by decide +kernel, by decide +kernel⟩

end ATG
