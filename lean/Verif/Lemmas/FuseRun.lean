import Verif.Lemmas.FuseDrop
import Verif.Spec.Fuse
/-!
# Fusing two intervals
-/
namespace ATG

/-- new times, label and links for `x` -/
def restamp (h : Heap) (x : Ref) (s e : Time) (lab : String) (f p : Ref → Option Link) : Heap :=
  { h with start := upd h.start x s, stop := upd h.stop x e, label := upd h.label x lab, fol := f, prev := p }

theorem GoodList.restamp {h : Heap} {l : List Ref} (g : GoodList h l) (x : Ref) (s e : Time) (lab : String)
    (f p : Ref → Option Link) (hl : lab ≠ "#") (hd : x ∈ l → ∀ z ∈ l, z ≠ x → h.start z ≠ s ∨ h.stop z ≠ e) :
    GoodList (restamp h x s e lab f p) l := by
  refine ⟨g.nodup, ?_, g.cls, ?_⟩
  · intro u hu v hv hs
    obtain ⟨h1, h2, h3, h4⟩ := hs
    simp only [ATG.restamp] at h1 h2 h3 h4
    by_cases qu : u = x <;> by_cases qv : v = x
    · rw [qu, qv]
    · subst qu
      rw [upd_same, upd_ne _ _ _ _ qv] at h2 h3
      rcases hd hu v hv qv with q | q
      · exact absurd h2.symm q
      · exact absurd h3.symm q
    · subst qv
      rw [upd_same, upd_ne _ _ _ _ qu] at h2 h3
      rcases hd hv u hu qu with q | q
      · exact absurd h2 q
      · exact absurd h3 q
    · rw [upd_ne _ _ _ _ qu, upd_ne _ _ _ _ qv] at h2 h3 h4
      exact g.distinct u hu v hv ⟨h1, h2, h3, h4⟩
  · intro u hu
    show upd h.label x lab u ≠ "#"
    by_cases q : u = x
    · subst q; rw [upd_same]; exact hl
    · rw [upd_ne _ _ _ _ q]; exact g.label u hu

theorem InOrder.pair {h : Heap} {l : List Ref} (o : InOrder h l) {u v : Ref} (hu : u ∈ l) (hv : v ∈ l) (ne : u ≠ v) :
    h.start u ≠ h.start v ∧ h.stop u ≠ h.stop v := by
  unfold InOrder at o
  induction l with
  | nil => cases hu
  | cons z l ih =>
    rw [List.pairwise_cons] at o
    rcases List.mem_cons.mp hu with p | p <;> rcases List.mem_cons.mp hv with q | q
    · exact absurd (p.trans q.symm) ne
    · have := o.1 v q; rw [p]; grind
    · have := o.1 u p; rw [q]; grind
    · exact ih o.2 p q

theorem TidyOn.restamp {L : Ref → Prop} {h : Heap} (td : TidyOn L h) (x : Ref) (s e : Time) (lab : String)
    (f p : Ref → Option Link) (hl : lab ≠ "#")
    (hd : ∀ v, x ∈ (h.subs v).vals → ∀ z ∈ (h.subs v).vals, z ≠ x → h.start z ≠ s ∨ h.stop z ≠ e) :
    TidyOn L (restamp h x s e lab f p) := by
  have g : ∀ v, GoodList (ATG.restamp h x s e lab f p) (h.subs v).vals :=
    fun v => (td.good v).restamp x s e lab f p hl (hd v)
  exact ⟨td.down, td.up, fun v => (g v).nodup, fun v => (g v).distinct, fun v => (g v).cls, fun v => (g v).label⟩

/-- taking `y` out of the list that has it -/
theorem TidyOn.drop {L : Ref → Prop} {h h' : Heap} (td : TidyOn L h) (y : Ref) (hs : ∀ v, (h'.subs v).vals = (h.subs v).vals.erase y)
    (hu : h'.sup = upd h.sup y none) (e1 : h'.cls = h.cls) (e2 : h'.start = h.start) (e3 : h'.stop = h.stop)
    (e4 : h'.label = h.label) (e5 : h'.ct = h.ct) : TidyOn L h' := by
  have g : ∀ v, GoodList h' (h'.subs v).vals := by
    intro v; rw [hs]
    exact ((td.good v).sub List.erase_sublist).congr e1 e4 e2 e3 e5
  refine ⟨?_, ?_, fun v => (g v).nodup, fun v => (g v).distinct, fun v => (g v).cls, fun v => (g v).label⟩ <;> intro v r <;>
    rw [hs, hu, (td.nodup v).mem_erase_iff]
  · by_cases q : r = y
    · subst q; simp
    · rw [upd_ne _ _ _ _ q]; exact fun hh => td.down v r hh.2
  · by_cases q : r = y
    · subst q; simp
    · rw [upd_ne _ _ _ _ q]; exact fun m hh => ⟨q, td.up v r m hh⟩

theorem erase_notMem {l : List Ref} {y : Ref} (h : y ∉ l) : l.erase y = l := List.erase_of_not_mem h

/-- `x` is one of the two neighbours and `y` the other -/
def Role (x y a b : Ref) : Prop := (a = x ∧ b = y) ∨ (a = y ∧ b = x)

/-- how `h3` arises from `h2` by dropping `y` -/
structure Dropped (h2 h3 : Heap) (x y : Ref) : Prop where
  subs : ∀ v, (h3.subs v).vals = (h2.subs v).vals.erase y
  same : h3.subs x = h2.subs x
  sup : h3.sup = upd h2.sup y none
  cls : h3.cls = h2.cls
  start : h3.start = h2.start
  stop : h3.stop = h2.stop
  label : h3.label = h2.label
  ct : h3.ct = h2.ct
  keep : ∀ z ∈ (h2.subs x).vals, h3.fol z = h2.fol z ∧ h3.prev z = h2.prev z ∧ h3.within z = h2.within z

theorem Neighbours.notMem {L : Ref → Prop} {h : Heap} {a b : Ref} {d : CRef} (n : Neighbours L h a b d) :
    a ∉ (h.subs a).vals ++ (h.subs b).vals ∧ b ∉ (h.subs a).vals ++ (h.subs b).vals := by
  have ha := n.notUnder.1
  have hb := n.notUnder.2
  constructor <;> rw [List.mem_append] <;> rintro (q | q)
  · exact ha ((n.tidy.down a a (q)))
  · exact hb ((n.tidy.down b a (q)))
  · exact ha (n.sup.trans ((n.tidy.down a b (q))))
  · exact hb (n.sup.trans ((n.tidy.down b b (q))))

theorem Neighbours.role {L : Ref → Prop} {h : Heap} {a b x y : Ref} {d : CRef} (n : Neighbours L h a b d) (hr : Role x y a b) :
    x ≠ y ∧ h.sup x = h.sup y ∧ h.sup x ≠ some x ∧ h.sup x ≠ some y ∧
    x ∉ (h.subs a).vals ++ (h.subs b).vals ∧ y ∉ (h.subs a).vals ++ (h.subs b).vals ∧
    ∀ z, z ∈ (h.subs a).vals ++ (h.subs b).vals ↔ z ∈ (h.subs x).vals ∨ z ∈ (h.subs y).vals := by
  have hm := n.notMem
  rcases hr with ⟨rfl, rfl⟩ | ⟨rfl, rfl⟩
  · exact ⟨n.ne, n.sup, n.notUnder.1, n.notUnder.2, hm.1, hm.2, fun z => List.mem_append⟩
  · exact ⟨n.ne.symm, n.sup.symm, n.sup ▸ n.notUnder.2, n.sup ▸ n.notUnder.1, hm.2, hm.1,
      fun z => List.mem_append.trans Or.comm⟩

theorem InOrder.fresh {h : Heap} {l : List Ref} (o : InOrder h l) {x y a b : Ref} (hr : Role x y a b) (hx : x ∈ l)
    (z : Ref) (hz : z ∈ l) (ne : z ≠ x) : h.start z ≠ h.start a ∨ h.stop z ≠ h.stop b := by
  rcases hr with ⟨rfl, rfl⟩ | ⟨rfl, rfl⟩
  · exact Or.inl (o.pair hz hx ne).1
  · exact Or.inr (o.pair hz hx ne).2

theorem fuse_merge {L : Ref → Prop} {h : Heap} {a b x y : Ref} {d : CRef} (n : Neighbours L h a b d) (hr : Role x y a b)
    (lab : String) (hl : lab ≠ "#") (f p : Ref → Option Link) :
    TidyOn L (restamp h x (h.start a) (h.stop b) lab f p) ∧
    ∃ h2, (do
        let r ← slAdd (putSubs a) (h.subs a) (h.subs b).vals
        setSubs x r.vals : M Unit) (restamp h x (h.start a) (h.stop b) lab f p) = .ok () h2 ∧
      Merged L (restamp h x (h.start a) (h.stop b) lab f p) h2 x y d ((h.subs a).vals ++ (h.subs b).vals) := by
  have td : TidyOn L (restamp h x (h.start a) (h.stop b) lab f p) :=
    n.tidy.restamp x _ _ lab f p hl fun v hx z hz ne => (n.ordered v (by
      have e := (n.tidy.down v x (hx))
      rcases hr with ⟨rfl, -⟩ | ⟨-, rfl⟩
      · exact Or.inr (Or.inr e)
      · exact Or.inr (Or.inr (n.sup.trans e)))).fresh hr hx z hz ne
  have hx := (n.role hr).2.2.2.2.1
  refine ⟨td, merge_ok td x y a b d ⟨n.ne, n.cls, n.sub, n.clsA, n.clsB, n.ecls, ?_⟩ hr⟩
  show ((h.subs a).vals ++ (h.subs b).vals).Pairwise fun u v => upd h.start x (h.start a) u < upd h.start x (h.start a) v
  have : ((h.subs a).vals ++ (h.subs b).vals).Pairwise fun u v => h.start u < h.start v :=
    List.pairwise_append.mpr ⟨(n.ordered a (Or.inl rfl)).imp fun q => q.1, (n.ordered b (Or.inr (Or.inl rfl))).imp fun q => q.1,
      fun u hu v hv => (n.follow u hu v hv).1⟩
  refine this.imp_of_mem ?_
  intro u v hu hv q
  have hux : u ≠ x := fun e => hx (e ▸ hu)
  have hvx : v ≠ x := fun e => hx (e ▸ hv)
  rw [upd_ne _ _ _ _ hux, upd_ne _ _ _ _ hvx]
  exact q

theorem fused_of {L : Ref → Prop} {h h2 h3 : Heap} {a b x y : Ref} {d : CRef} (n : Neighbours L h a b d) (hr : Role x y a b)
    {lab : String} {f p : Ref → Option Link}
    (m : Merged L (restamp h x (h.start a) (h.stop b) lab f p) h2 x y d ((h.subs a).vals ++ (h.subs b).vals))
    (q : Dropped h2 h3 x y) : Fused L h h3 x y a b lab := by
  obtain ⟨hne, hsup, hxx, hxy, hxL, hyL, hL⟩ := n.role hr
  have ecls : h2.cls = h.cls := by rw [m.frame]; rfl
  have elb : h2.label = upd h.label x lab := by rw [m.frame]; rfl
  have est : h2.start = upd h.start x (h.start a) := by rw [m.frame]; rfl
  have esp : h2.stop = upd h.stop x (h.stop b) := by rw [m.frame]; rfl
  have esup : ∀ r, h2.sup r = if r ∈ (h.subs y).vals then some x else h.sup r := m.sup
  have ewith : ∀ r, h2.within r = if r ∈ (h.subs a).vals ++ (h.subs b).vals then some (.ival x) else h.within r :=
    m.within
  have eoth : ∀ v, v ≠ x → v ≠ y → h2.subs v = h.subs v := m.others
  have esubs : (h3.subs x).vals = (h.subs a).vals ++ (h.subs b).vals := by
    rw [q.subs, m.list, List.erase_of_not_mem hyL]
  have h2x : (h2.subs x).vals = (h.subs a).vals ++ (h.subs b).vals := by rw [m.list]
  have hsy : y ∉ (h.subs y).vals := fun hh => hyL ((hL y).mpr (Or.inr hh))
  have hsx : x ∉ (h.subs y).vals := fun hh => hxL ((hL x).mpr (Or.inr hh))
  refine ⟨?_, ?_, ?_, esubs, ?_, ?_, ?_, ?_, ?_, ?_, ?_, ?_, ?_, ?_, ?_, ?_, ?_⟩
  · rw [q.start, est, upd_same]
  · rw [q.stop, esp, upd_same]
  · rw [q.label, elb, upd_same]
  · rw [q.same, m.list, n.sub]
    by_cases e : (h.subs a).vals ++ (h.subs b).vals = []
    · rw [e]; exact Or.inl rfl
    · rw [if_neg e]; exact Or.inr rfl
  · rw [esubs, ← h2x]
    exact DoublyLinked.congr (h2x ▸ m.linked) (fun z hz => (q.keep z hz).1) (fun z hz => (q.keep z hz).2.1)
  · intro z hz
    rw [esubs] at hz
    have hzy : z ≠ y := fun e => hyL (e ▸ hz)
    rw [q.sup, upd_ne _ _ _ _ hzy]
    exact (m.tidy.down x z ((h2x ▸ hz)))
  · intro z hz
    rw [esubs] at hz
    rw [(q.keep z (h2x ▸ hz)).2.2, ewith, if_pos hz]
  · rw [q.subs, m.gone]; rfl
  · rw [q.sup, upd_same]
  · rw [q.sup, upd_ne _ _ _ _ hne, esup, if_neg hsx]
  · intro s hs
    rw [q.subs, eoth s (fun e => hxx (e ▸ hs)) (fun e => hxy (e ▸ hs))]
  · intro v v1 v2 v3
    rw [q.subs, eoth v v1 v2, List.erase_of_not_mem]
    intro hh
    exact v3 (hsup.trans ((n.tidy.down v y (hh))))
  · intro r hr'
    rw [q.start, q.stop, q.label, est, esp, elb, upd_ne _ _ _ _ hr', upd_ne _ _ _ _ hr', upd_ne _ _ _ _ hr']
    exact ⟨rfl, rfl, rfl⟩
  · rw [q.cls, ecls, q.ct]; exact ⟨rfl, by rw [m.frame]; rfl⟩
  · intro r hry hrL
    rw [esubs, hL] at hrL
    rw [q.sup, upd_ne _ _ _ _ hry, esup, if_neg (fun hh => hrL (Or.inr hh))]
  · exact m.tidy.drop y q.subs q.sup q.cls q.start q.stop q.label q.ct

theorem M.bind_then {α} {A : M α} {B : α → M Unit} {C : M Unit} {h h2 h3 : Heap}
    (h1 : (A >>= B) h = .ok () h2) (hc : C h2 = .ok () h3) : (A >>= fun r => B r >>= fun _ => C) h = .ok () h3 := by
  have e : (A >>= fun r => B r >>= fun _ => C) = ((A >>= B) >>= fun _ => C) := by
    funext k
    show M.bind _ _ k = M.bind (M.bind _ _) _ k
    unfold M.bind
    cases A k <;> rfl
  rw [e]
  exact (M.bind_ok h1).trans hc

theorem erase_of_sup {L : Ref → Prop} {h : Heap} (td : TidyOn L h) (y : Ref) {s : Option Ref} (hs : h.sup y = s) (v : Ref)
    (hv : s ≠ some v) : (h.subs v).vals.erase y = (h.subs v).vals :=
  List.erase_of_not_mem fun q => hv (hs ▸ (td.down v y (q)))

theorem dropped_untiered {L : Ref → Prop} {k : Heap} (td : TidyOn L k) (t : TRef) (x y : Ref) (hy : k.sup y = none) :
    Dropped k (untiered k t y) x y :=
  ⟨fun v => (erase_of_sup td y hy v (by simp)).symm, rfl, (upd_eq_self _ _ _ hy).symm, rfl, rfl, rfl, rfl, rfl,
    fun _ _ => ⟨rfl, rfl, rfl⟩⟩

theorem dropped_self {L : Ref → Prop} {k : Heap} (td : TidyOn L k) (x y : Ref) (hy : k.sup y = none) : Dropped k k x y :=
  ⟨fun v => (erase_of_sup td y hy v (by simp)).symm, rfl, (upd_eq_self _ _ _ hy).symm, rfl, rfl, rfl, rfl, rfl,
    fun _ _ => ⟨rfl, rfl, rfl⟩⟩

theorem dropped_top {L : Ref → Prop} {k : Heap} (td : TidyOn L k) (t : TRef) (x y : Ref) (hy : k.sup y = none)
    (hd : ∀ z ∈ (k.subs x).vals, z ∉ (k.tseq t).vals) :
    Dropped k (retiered (untiered k t y) t ((k.tseq t).vals.erase y)) x y := by
  refine ⟨fun v => (erase_of_sup td y hy v (by simp)).symm, rfl, (upd_eq_self _ _ _ hy).symm, rfl, rfl, rfl, rfl, rfl, ?_⟩
  intro z hz
  have hn : z ∉ (k.tseq t).vals.erase y := fun q => hd z hz (List.mem_of_mem_erase q)
  refine ⟨folOf_notMem _ _ _ hn, prevOf_notMem _ _ _ _ hn, ?_⟩
  show (if z ∈ (k.tseq t).vals.erase y then _ else _) = _
  rw [if_neg hn]; rfl

theorem removed_subs {L : Ref → Prop} {k : Heap} (td : TidyOn L k) (s y : Ref) (hy : k.sup y = some s) (v : Ref) :
    (upd k.subs s ⟨(k.subs s).vals.erase y, (k.subs s).ecls⟩ v).vals = (k.subs v).vals.erase y := by
  by_cases q : v = s
  · subst q; rw [upd_same]
  · rw [upd_ne _ _ _ _ q, erase_of_sup td y hy v (by simpa using Ne.symm q)]

theorem dropped_removed {L : Ref → Prop} {k : Heap} (td : TidyOn L k)  (t : TRef) (x y s : Ref) (hL : L y) (hx : s ≠ x)
    (hy : k.sup y = some s) :
    Dropped k (removed (untiered k t y) s y) x y := by
  refine ⟨fun v => removed_subs td s y hy v, upd_ne _ _ _ _ hx.symm, rfl, rfl, rfl, rfl, rfl, rfl, ?_⟩
  intro z hz
  have hz' := (td.down x z (hz))
  have hzs : z ∉ (k.subs s).vals := by
    intro q
    have := (td.down s z (q))
    rw [hz'] at this
    exact hx (Option.some.inj this).symm
  have hn : z ∉ (k.subs s).vals.erase y := fun q => hzs (List.mem_of_mem_erase q)
  have hzy : z ≠ y := by
    intro e; subst e; exact hzs (td.up s z hL hy)
  exact ⟨folOf_notMem _ _ _ hn, prevOf_notMem _ _ _ _ hn, upd_ne _ _ _ _ hzy⟩

theorem dropped_loose {L : Ref → Prop} {k : Heap} (td : TidyOn L k) (x y s : Ref) (hx : s ≠ x) (hy : k.sup y = some s) :
    Dropped k { removed k s y with fol := k.fol, prev := k.prev } x y := by
  refine ⟨fun v => removed_subs td s y hy v, upd_ne _ _ _ _ hx.symm, rfl, rfl, rfl, rfl, rfl, rfl, ?_⟩
  intro z hz
  have hz' := (td.down x z (hz))
  have hzy : z ≠ y := by
    intro e; subst e; rw [hy] at hz'; exact hx (Option.some.inj hz')
  exact ⟨rfl, rfl, upd_ne _ _ _ _ hzy⟩

/-- what fusing leaves of the tier and of the links; `f` and `p` are the links before the fused interval was
    dropped -/
structure TierAfter (h h3 : Heap) (x y : Ref) (t : TRef) (A B : List Ref) (f p : Ref → Option Link) : Prop where
  list : h3.tseq t = ⟨A ++ x :: B, (h.tseq t).ecls⟩
  tiers : ∀ u, u ≠ t → h3.tseq u = h.tseq u
  frame : h3.tcls = h.tcls ∧ h3.tsup = h.tsup
  intier : ∀ r, h.intier r = some t → h3.intier r = some t
  intierElse : ∀ r, r ∉ A ++ x :: B → h3.intier r = h.intier r
  top : h.tsup t = some cTop → DoublyLinked h3 (A ++ x :: B)
  super : ∀ s, h.tsup t ≠ some cTop → h.sup x = some s → DoublyLinked h3 (h3.subs s).vals
  plain : h.tsup t ≠ some cTop → h.sup x = none →
    ∀ r, r ∉ (h3.subs x).vals → h3.fol r = f r ∧ h3.prev r = p r
  links : ∀ r, r ∉ (h3.subs x).vals → (h.tsup t = some cTop → r ∉ A ++ x :: B) → (∀ s, h.sup x = some s → r ∉ (h3.subs s).vals) →
    h3.fol r = f r ∧ h3.prev r = p r
  within : ∀ r, r ≠ y → r ∉ (h3.subs x).vals → (h.tsup t = some cTop → r ∉ A ++ x :: B) → h3.within r = h.within r
  rooted : h.tsup t = some cTop → ∀ r ∈ A ++ x :: B, h3.within r = some (.tier t)
  cont : h3.cont = upd h.cont x .alias
  ecls : ∀ v, v ≠ x → v ≠ y → (h3.subs v).ecls = (h.subs v).ecls
  rest : h3 = { h with start := h3.start, stop := h3.stop, label := h3.label, fol := h3.fol, prev := h3.prev,
                       subs := h3.subs, sup := h3.sup, within := h3.within, cont := h3.cont, intier := h3.intier,
                       tseq := h3.tseq, tcont := h3.tcont }

theorem InOrder.nodup {h : Heap} {l : List Ref} (o : InOrder h l) : l.Nodup := by
  rw [List.nodup_iff_pairwise_ne]
  refine List.Pairwise.imp (R := fun a b => h.start a < h.start b ∧ h.stop a < h.stop b) ?_ o
  intro u v q e; subst e; exact absurd q.1 (by grind)

theorem TierNeighbours.erase {h : Heap} {t : TRef} {A B : List Ref} {a b x y : Ref} (tn : TierNeighbours h t A a b B)
    (hr : Role x y a b) : (h.tseq t).vals.erase y = A ++ x :: B := by
  have hnd := tn.ordered.nodup
  rw [tn.list] at hnd ⊢
  rw [List.nodup_append] at hnd
  obtain ⟨_, h2, h3⟩ := hnd
  rw [List.nodup_cons] at h2
  rcases hr with ⟨rfl, rfl⟩ | ⟨rfl, rfl⟩
  · have hA : b ∉ A := fun q => h3 b q b (by simp) rfl
    have hab : a ≠ b := fun e => h2.1 (by simp [e])
    rw [List.erase_append_right _ hA, List.erase_cons_tail (by simpa using hab), List.erase_cons_head]
  · have hA : a ∉ A := fun q => h3 a q a (by simp) rfl
    rw [List.erase_append_right _ hA, List.erase_cons_head]

theorem fuse_tier {L : Ref → Prop} {h h2 : Heap} {a b x y : Ref} {d : CRef} (n : Neighbours L h a b d) (hr : Role x y a b)
    {lab : String} (hl : lab ≠ "#") {f p : Ref → Option Link} {t : TRef} {A B : List Ref}
    (tn : TierNeighbours h t A a b B)
    (m : Merged L (restamp h x (h.start a) (h.stop b) lab f p) h2 x y d ((h.subs a).vals ++ (h.subs b).vals)) :
    ∃ h3, fuseDrop x y h2 = .ok () h3 ∧ Fused L h h3 x y a b lab ∧ TierAfter h h3 x y t A B f p := by
  obtain ⟨hne, hsup, hxx, hxy, hxL, hyL, hL⟩ := n.role hr
  have hLy : L y := by
    rcases hr with ⟨-, rfl⟩ | ⟨rfl, -⟩
    · exact n.listed.2
    · exact n.listed.1
  have etseq : h2.tseq = h.tseq := by rw [m.frame]; rfl
  have etsup : h2.tsup = h.tsup := by rw [m.frame]; rfl
  have etcls : h2.tcls = h.tcls := by rw [m.frame]; rfl
  have eint : h2.intier = h.intier := by rw [m.frame]; rfl
  have ept : h2.isPointTier t = false := by
    have : h2.isPointTier t = h.ct.isSub (h.tcls t) cPoint := by
      rw [m.frame]; rfl
    rw [this]; exact tn.interval
  have h2x : (h2.subs x).vals = (h.subs a).vals ++ (h.subs b).vals := by rw [m.list]
  have esup : ∀ r, h2.sup r = if r ∈ (h.subs y).vals then some x else h.sup r := m.sup
  have hsy : y ∉ (h.subs y).vals := fun hh => hyL ((hL y).mpr (Or.inr hh))
  have hsx : x ∉ (h.subs y).vals := fun hh => hxL ((hL x).mpr (Or.inr hh))
  have ex : h2.sup x = h.sup x := by rw [esup, if_neg hsx]
  have ey : h2.sup y = h.sup x := by rw [esup, if_neg hsy, hsup]
  have hxt : x ∈ (h.tseq t).vals := by
    rw [tn.list]; rcases hr with ⟨rfl, rfl⟩ | ⟨rfl, rfl⟩ <;> simp
  have hyt : y ∈ (h.tseq t).vals := by
    rw [tn.list]; rcases hr with ⟨rfl, rfl⟩ | ⟨rfl, rfl⟩ <;> simp
  have hix : h.intier x = some t := by
    rcases hr with ⟨rfl, rfl⟩ | ⟨rfl, rfl⟩
    · exact tn.intierA
    · exact tn.intierB
  have gt : GoodList h (h.tseq t).vals := by
    refine ⟨tn.ordered.nodup, ?_, tn.cls, tn.label⟩
    intro u hu v hv hs
    by_cases q : u = v
    · exact q
    · exact absurd hs.2.1 (tn.ordered.pair hu hv q).1
  have gk := gt.restamp x (h.start a) (h.stop b) lab f p hl (fun hx z hz ne => tn.ordered.fresh hr hx z hz ne)
  have g2 : GoodList h2 (h2.tseq t).vals := by
    rw [etseq]
    refine gk.congr ?_ ?_ ?_ ?_ ?_ <;> rw [m.frame]
  have o : OnTier h2 t x y := ⟨by rw [eint]; exact hix, by rw [etseq]; exact hyt, g2⟩
  have her : (h2.tseq t).vals.erase y = A ++ x :: B := by rw [etseq]; exact tn.erase hr
  have hnd' : (A ++ x :: B).Nodup := by rw [← her, etseq]; exact tn.ordered.nodup.sublist List.erase_sublist
  have htx : ∀ z ∈ (h2.subs x).vals, z ∉ (h2.tseq t).vals := by
    intro z hz hzt
    rw [etseq] at hzt
    rw [h2x, List.mem_append] at hz
    have hu := tn.notUnder z hzt
    rcases hz with q | q
    · exact hu.1 ((n.tidy.down a z (q)))
    · exact hu.2 ((n.tidy.down b z (q)))
  have etq : ∀ (u : TRef), upd h2.tseq t ⟨(h2.tseq t).vals.erase y, (h2.tseq t).ecls⟩ u =
      if u = t then ⟨A ++ x :: B, (h.tseq t).ecls⟩ else h.tseq u := by
    intro u
    by_cases q : u = t
    · subst q; rw [upd_same, if_pos rfl, her, etseq]
    · rw [upd_ne _ _ _ _ q, if_neg q, etseq]
  have hlk : ∀ r, r ∉ (h2.subs x).vals → h2.fol r = f r ∧ h2.prev r = p r := by
    intro r hr'; rw [h2x] at hr'; exact m.links r hr'
  have hwi : ∀ r, r ∉ (h2.subs x).vals → h2.within r = h.within r := by
    intro r hr'; rw [h2x] at hr'; rw [m.within, if_neg hr']; rfl
  have hco : h2.cont = upd h.cont x .alias := m.cont
  have hec : ∀ v, v ≠ x → v ≠ y → (h2.subs v).ecls = (h.subs v).ecls := m.ecls
  have hfr : h2 = { h with start := h2.start, stop := h2.stop, label := h2.label, fol := h2.fol, prev := h2.prev,
                           subs := h2.subs, sup := h2.sup, within := h2.within, cont := h2.cont } := by
    rw [m.frame]; rfl
  by_cases ht : h.tsup t = some cTop
  · have hs0 : h.sup x = none := by
      rcases hr with ⟨rfl, rfl⟩ | ⟨rfl, rfl⟩
      · exact tn.top ht
      · rw [← n.sup]; exact tn.top ht
    have hd := dropped_top m.tidy t x y (ey.trans hs0) htx
    refine ⟨_, fuseDrop_top o (ex.trans hs0) (ey.trans hs0) ept (by rw [etsup]; exact ht), fused_of n hr m hd, ?_⟩
    rw [her] at hd ⊢
    refine ⟨?_, ?_, ?_, ?_, ?_, fun _ => ?_, fun s hh => absurd ht hh, fun hh => absurd ht hh, ?_, ?_,
      fun _ r hr' => if_pos hr', hco, hec, by rw [hfr]; rfl⟩
    · show upd h2.tseq t _ t = _
      rw [etq, if_pos rfl]
    · intro u hu
      show upd h2.tseq t _ u = _
      rw [etq, if_neg hu]
    · exact ⟨etcls, etsup⟩
    · intro r hr'
      show (if r ∈ A ++ x :: B then some t else h2.intier r) = _
      rw [eint, hr']; split <;> rfl
    · intro r hr'
      show (if r ∈ A ++ x :: B then some t else h2.intier r) = _
      rw [if_neg hr', eint]
    · exact linked_of _ _ hnd' _ _ rfl rfl
    · intro r h1 h2' _
      have := hlk r h1
      rw [← this.1, ← this.2]
      exact ⟨folOf_notMem _ _ _ (h2' ht), prevOf_notMem _ _ _ _ (h2' ht)⟩
    · intro r _ h1 h2'
      refine Eq.trans ?_ (hwi r h1)
      show (if r ∈ A ++ x :: B then _ else _) = _
      rw [if_neg (h2' ht)]; rfl
  · cases hs : h.sup x with
    | none =>
      have hd := dropped_untiered m.tidy t x y (ey.trans hs)
      refine ⟨_, fuseDrop_plain o (ex.trans hs) (ey.trans hs) (by rw [etsup]; exact ht), fused_of n hr m hd, ?_⟩
      refine ⟨?_, ?_, ?_, ?_, fun r _ => congrFun eint r, fun hh => absurd hh ht, fun s _ hh => absurd (hs.symm.trans hh) (by simp), fun _ _ r hr' => hlk r hr',
        fun r hr' _ _ => hlk r hr', fun r _ h1 _ => hwi r h1, fun hh => absurd hh ht, hco, hec, by rw [hfr]; rfl⟩
      · show upd h2.tseq t _ t = _
        rw [etq, if_pos rfl]
      · intro u hu
        show upd h2.tseq t _ u = _
        rw [etq, if_neg hu]
      · exact ⟨etcls, etsup⟩
      · intro r hr'
        show h2.intier r = _
        rw [eint]; exact hr'
    | some s =>
      have hsx' : s ≠ x := fun e => hxx (e ▸ hs)
      have hd := dropped_removed m.tidy t x y s hLy hsx' (ey.trans hs)
      refine ⟨_, fuseDrop_sub m.tidy hLy o (ex.trans hs) (ey.trans hs) hne (by rw [etsup]; exact ht), fused_of n hr m hd, ?_⟩
      have esub : ((removed (untiered h2 t y) s y).subs s).vals = (h2.subs s).vals.erase y := hd.subs s
      have hx3 : ∀ r, r ∉ ((removed (untiered h2 t y) s y).subs x).vals → r ∉ (h2.subs x).vals := by
        intro r h1
        rw [hd.subs x, List.erase_of_not_mem (by rw [h2x]; exact hyL)] at h1; exact h1
      refine ⟨?_, ?_, ?_, ?_, fun r _ => congrFun eint r, fun hh => absurd hh ht, ?_, fun _ hh => absurd (hs.symm.trans hh) (by simp), ?_,
        fun r h0 h1 _ => (upd_ne _ _ _ _ h0).trans (hwi r (hx3 r h1)), fun hh => absurd hh ht, hco, ?_, by rw [hfr]; rfl⟩
      · show upd h2.tseq t _ t = _
        rw [etq, if_pos rfl]
      · intro u hu
        show upd h2.tseq t _ u = _
        rw [etq, if_neg hu]
      · exact ⟨etcls, etsup⟩
      · intro r hr'
        show h2.intier r = _
        rw [eint]; exact hr'
      · intro s' _ hs'
        have e : s = s' := Option.some.inj (hs.symm.trans hs')
        subst e
        rw [esub]
        exact linked_of _ _ ((m.tidy.nodup s).sublist List.erase_sublist) _ _ rfl rfl
      · intro r h1 _ h3
        have h3' := h3 s hs
        rw [esub] at h3'
        have := hlk r (hx3 r h1)
        rw [← this.1, ← this.2]
        exact ⟨folOf_notMem _ _ _ h3', prevOf_notMem _ _ _ _ h3'⟩
      · intro v v1 v2
        refine Eq.trans ?_ (hec v v1 v2)
        show (upd h2.subs s _ v).ecls = _
        by_cases q : v = s
        · subst q; rw [upd_same]; rfl
        · rw [upd_ne _ _ _ _ q]

theorem fuse_loose {L : Ref → Prop} {h h2 : Heap} {a b x y : Ref} {d : CRef} (n : Neighbours L h a b d) (hr : Role x y a b)
    {lab : String} {f p : Ref → Option Link} (hi : h.intier x = none)
    (m : Merged L (restamp h x (h.start a) (h.stop b) lab f p) h2 x y d ((h.subs a).vals ++ (h.subs b).vals)) :
    ∃ h3, fuseDrop x y h2 = .ok () h3 ∧ Fused L h h3 x y a b lab ∧ h3.tseq = h.tseq ∧
      ∀ r, r ∉ (h3.subs x).vals → h3.fol r = f r ∧ h3.prev r = p r := by
  obtain ⟨hne, hsup, hxx, hxy, hxL, hyL, hL⟩ := n.role hr
  have hLy : L y := by
    rcases hr with ⟨-, rfl⟩ | ⟨rfl, -⟩
    · exact n.listed.2
    · exact n.listed.1
  have etseq : h2.tseq = h.tseq := by rw [m.frame]; rfl
  have eint : h2.intier = h.intier := by rw [m.frame]; rfl
  have h2x : (h2.subs x).vals = (h.subs a).vals ++ (h.subs b).vals := by rw [m.list]
  have esup : ∀ r, h2.sup r = if r ∈ (h.subs y).vals then some x else h.sup r := m.sup
  have hsy : y ∉ (h.subs y).vals := fun hh => hyL ((hL y).mpr (Or.inr hh))
  have hsx : x ∉ (h.subs y).vals := fun hh => hxL ((hL x).mpr (Or.inr hh))
  have ex : h2.sup x = h.sup x := by rw [esup, if_neg hsx]
  have ey : h2.sup y = h.sup x := by rw [esup, if_neg hsy, hsup]
  have hlk : ∀ r, r ∉ (h2.subs x).vals → h2.fol r = f r ∧ h2.prev r = p r := by
    intro r hr'; rw [h2x] at hr'; exact m.links r hr'
  cases hs : h.sup x with
  | none =>
    exact ⟨h2, fuseDrop_free (by rw [eint]; exact hi) (ex.trans hs), fused_of n hr m (dropped_self m.tidy x y (ey.trans hs)),
      etseq, hlk⟩
  | some s =>
    have hsx' : s ≠ x := fun e => hxx (e ▸ hs)
    have hd := dropped_loose m.tidy x y s hsx' (ey.trans hs)
    refine ⟨_, fuseDrop_untiered m.tidy hLy (by rw [eint]; exact hi) (ex.trans hs) (ey.trans hs), fused_of n hr m hd, etseq, ?_⟩
    intro r h1
    have h1' : r ∉ (h2.subs x).vals := by
      rw [hd.subs x, List.erase_of_not_mem (by rw [h2x]; exact hyL)] at h1; exact h1
    exact hlk r h1'

theorem getElem?_at {α} (A P : List α) (x : α) (B : List α) : (A ++ (P ++ x :: B))[A.length + P.length]? = some x := by
  rw [List.getElem?_append_right (by omega), List.getElem?_append_right (by omega)]
  simp

/-- the run of `fuse_rightwards` up to dropping -/
theorem fuseRight_run {h h2 h3 : Heap} (J : String → String → String) {x y : Ref}
    (hf : h.fol x = some (.obj y)) (hy : h.label y ≠ "#")
    (hm : (do
        let r ← slAdd (putSubs x) (h.subs x) (h.subs y).vals
        setSubs x r.vals : M Unit)
      (restamp h x (h.start x) (h.stop y) (J (h.label x) (h.label y)) (upd h.fol x (h.fol y)) h.prev) = .ok () h2)
    (hd : fuseDrop x y h2 = .ok () h3) : fuseRight J x h = .ok () h3 := by
  unfold fuseRight
  mstep M.get_apply h
  rw [hf]
  simp only [linkTarget, if_neg hy]
  have e : restamp h x (h.start x) (h.stop y) (J (h.label x) (h.label y)) (upd h.fol x (h.fol y)) h.prev =
      { h with stop := upd h.stop x (h.stop y), fol := upd h.fol x (h.fol y),
               label := upd h.label x (J (h.label x) (h.label y)) } := by
    unfold restamp; rw [upd_eq_self h.start x (h.start x) rfl]
  rw [e] at hm
  have := M.bind_then hm hd
  exact this

/-- the run of `fuse_leftwards` up to dropping -/
theorem fuseLeft_run {h h2 h3 : Heap} (J : String → String → String) {x y : Ref}
    (hf : h.prev x = some (.obj y)) (hy : h.label y ≠ "#")
    (hm : (do
        let r ← slAdd (putSubs y) (h.subs y) (h.subs x).vals
        setSubs x r.vals : M Unit)
      (restamp h x (h.start y) (h.stop x) (J (h.label y) (h.label x)) h.fol (upd h.prev x (h.prev y))) = .ok () h2)
    (hd : fuseDrop x y h2 = .ok () h3) : fuseLeft J x h = .ok () h3 := by
  unfold fuseLeft
  mstep M.get_apply h
  rw [hf]
  simp only [linkTarget, if_neg hy]
  have e : restamp h x (h.start y) (h.stop x) (J (h.label y) (h.label x)) h.fol (upd h.prev x (h.prev y)) =
      { h with start := upd h.start x (h.start y), prev := upd h.prev x (h.prev y),
               label := upd h.label x (J (h.label y) (h.label x)) } := by
    unfold restamp; rw [upd_eq_self h.stop x (h.stop x) rfl]
  rw [e] at hm
  have := M.bind_then hm hd
  exact this

end ATG
