import Verif.Lemmas.IvalAppend
import Verif.Lemmas.GroupRun
/-!
# Fusing two intervals: the subset lists
-/
namespace ATG

/-- what joining the subset lists of `a` and `b` (one of them `x`, the other `y`) to one list of `x` does -/
structure Merged (L : Ref → Prop) (k h' : Heap) (x y : Ref) (d : CRef) (l : List Ref) : Prop where
  tidy : TidyOn L h'
  list : h'.subs x = ⟨l, if l = [] then none else some d⟩
  gone : (h'.subs y).vals = []
  others : ∀ v, v ≠ x → v ≠ y → h'.subs v = k.subs v
  linked : DoublyLinked h' l
  sup : ∀ r, h'.sup r = if r ∈ (k.subs y).vals then some x else k.sup r
  within : ∀ r, h'.within r = if r ∈ l then some (.ival x) else k.within r
  links : ∀ r, r ∉ l → h'.fol r = k.fol r ∧ h'.prev r = k.prev r
  cont : h'.cont = upd k.cont x .alias
  ecls : ∀ v, v ≠ x → v ≠ y → (h'.subs v).ecls = (k.subs v).ecls
  frame : h' = { k with subs := h'.subs, sup := h'.sup, within := h'.within, cont := h'.cont, fol := h'.fol,
                        prev := h'.prev }

/-- the subset lists of the two can be joined, those of `a` first -/
structure Joinable (k : Heap) (a b : Ref) (d : CRef) : Prop where
  ne : a ≠ b
  cls : k.cls a = k.cls b
  sub : k.ct.sub (k.cls a) = some d
  clsA : ∀ z ∈ (k.subs a).vals, k.cls z = d
  clsB : ∀ z ∈ (k.subs b).vals, k.cls z = d
  ecls : (k.subs a).ecls = some d ∨ k.subs a = SL.empty ∨ (k.subs b).vals = []
  sorted : ((k.subs a).vals ++ (k.subs b).vals).Pairwise fun u v => k.start u < k.start v

theorem slAdd_join (k : Heap) (a b : Ref) (d : CRef) (j : Joinable k a b d) :
    ∃ e e', (e = (k.subs a).ecls ∨ e = some d) ∧
      slAdd (putSubs a) (k.subs a) (k.subs b).vals k =
      .ok ⟨(k.subs a).vals ++ (k.subs b).vals, e'⟩ { k with subs := upd k.subs a ⟨(k.subs a).vals, e⟩ } := by
  have hsort : slSort k ((k.subs a).vals ++ (k.subs b).vals) = (k.subs a).vals ++ (k.subs b).vals :=
    slSort_of_sorted _ _ (j.sorted.imp fun {u v} q => Rat.le_of_lt q)
  have hnew : newOf k (k.subs a).vals (k.subs b).vals = (k.subs b).vals := by
    apply List.filter_eq_self.mpr
    intro z hz
    rw [(slContains_false_iff k _ z).mpr]
    · rfl
    · have := (List.pairwise_append.mp j.sorted).2.2
      rintro (q | ⟨u, hu, hs⟩)
      · have := this z q z hz; grind
      · have := this u hu z hz; have := hs.2.1; grind
  by_cases hb : (k.subs b).vals = []
  · refine ⟨(k.subs a).ecls, (k.subs a).ecls, Or.inl rfl, ?_⟩
    rw [slAdd_none_new _ _ _ _ (by rw [hnew, hb])]
    rw [hb, List.append_nil, upd_eq_self _ _ _ rfl]
  · rcases j.ecls with he | he | he
    · refine ⟨some d, some d, Or.inr rfl, ?_⟩
      have hall : ∀ z ∈ (k.subs a).vals ++ newOf k (k.subs a).vals (k.subs b).vals, k.cls z = d := by
        rw [hnew]
        intro z hz
        rcases List.mem_append.mp hz with q | q
        · exact j.clsA z q
        · exact j.clsB z q
      have := slAdd_ok (putSubs a) (k.subs a) (k.subs b).vals k d d (by rw [hnew]; exact hb) he
        (by rw [hnew]; exact j.clsB) (by simp [isSub_refl]) (by
          intro y hy; unfold Heap.isPoint; rw [hall y hy])
      rw [castAll_self _ _ _ hall, hnew, hsort] at this
      rw [this, ← he, upd_eq_self _ _ _ rfl]
    · refine ⟨some d, some d, Or.inr rfl, ?_⟩
      obtain ⟨z, zs, hz⟩ := List.exists_cons_of_ne_nil hb
      have := slAdd_ok_empty (putSubs a) (fun sl h => { h with subs := upd h.subs a sl })
        (fun _ _ => rfl) (fun _ _ => ⟨rfl, rfl⟩) (k.subs b).vals k d z zs hz j.clsB
      rw [he]
      rw [he] at hsort
      have hs' : slSort k (k.subs b).vals = (k.subs b).vals := hsort
      rw [this, hs']
      rfl
    · exact absurd he hb

theorem merge_ok {M : Ref → Prop} {k : Heap} (td : TidyOn M k) (x y a b : Ref) (d : CRef) (j : Joinable k a b d)
    (hxy : (a = x ∧ b = y) ∨ (a = y ∧ b = x)) :
    ∃ h', (do
        let r ← slAdd (putSubs a) (k.subs a) (k.subs b).vals
        setSubs x r.vals : ATG.M Unit) k = .ok () h' ∧
      Merged M k h' x y d ((k.subs a).vals ++ (k.subs b).vals) := by
  obtain ⟨e, e', he, hadd⟩ := slAdd_join k a b d j
  have hne : x ≠ y := by
    rcases hxy with ⟨p, q⟩ | ⟨p, q⟩
    · rw [← p, ← q]; exact j.ne
    · rw [← p, ← q]; exact j.ne.symm
  have hmemL : ∀ z, z ∈ (k.subs a).vals ++ (k.subs b).vals ↔ z ∈ (k.subs x).vals ∨ z ∈ (k.subs y).vals := by
    intro z
    rw [List.mem_append]
    rcases hxy with ⟨p, q⟩ | ⟨p, q⟩
    · rw [p, q]
    · rw [p, q]; exact Or.comm
  have hclx : k.ct.sub (k.cls x) = some d := by
    rcases hxy with ⟨p, q⟩ | ⟨p, q⟩
    · rw [← p]; exact j.sub
    · rw [← q, ← j.cls]; exact j.sub
  have hclL : ∀ z ∈ (k.subs a).vals ++ (k.subs b).vals, k.cls z = d := by
    intro z hz
    rcases List.mem_append.mp hz with q | q
    · exact j.clsA z q
    · exact j.clsB z q
  have hlabL : ∀ z ∈ (k.subs a).vals ++ (k.subs b).vals, k.label z ≠ "#" := by
    intro z hz
    rcases List.mem_append.mp hz with q | q
    · exact td.label a z q
    · exact td.label b z q
  have hsort : slSort k ((k.subs a).vals ++ (k.subs b).vals) = (k.subs a).vals ++ (k.subs b).vals :=
    slSort_of_sorted _ _ (j.sorted.imp fun {u v} q => Rat.le_of_lt q)
  have hnd : ((k.subs a).vals ++ (k.subs b).vals).Nodup := by
    rw [List.nodup_iff_pairwise_ne]
    exact j.sorted.imp fun {u v} q => by intro e; subst e; grind
  have hdistL : ∀ u ∈ (k.subs a).vals ++ (k.subs b).vals, ∀ v ∈ (k.subs a).vals ++ (k.subs b).vals,
      SameValue k u v → u = v := by
    intro u hu v hv hs
    have hp := j.sorted
    generalize (k.subs a).vals ++ (k.subs b).vals = L at *
    clear hmemL hclL hlabL hsort hnd hadd
    induction L with
    | nil => cases hu
    | cons z L ih =>
      rw [List.pairwise_cons] at hp
      have e := hs.2.1
      rcases List.mem_cons.mp hu with p | p <;> rcases List.mem_cons.mp hv with q | q
      · rw [p, q]
      · have := hp.1 v q; rw [p] at e; grind
      · have := hp.1 u p; rw [q] at e; grind
      · exact ih p q hp.2
  generalize hL : (k.subs a).vals ++ (k.subs b).vals = L at *
  generalize hh1 : ({ k with subs := upd k.subs a ⟨(k.subs a).vals, e⟩ } : Heap) = h1 at *
  have hsub1 : ∀ v, (h1.subs v).vals = (k.subs v).vals := by
    intro v; subst hh1; by_cases q : v = a <;> simp [upd, q]
  have hsub1' : ∀ v, v ≠ a → h1.subs v = k.subs v := by
    intro v hv; subst hh1; exact upd_ne _ _ _ _ hv
  have f1 : h1.cls = k.cls ∧ h1.ct = k.ct ∧ h1.label = k.label ∧ h1.sup = k.sup ∧ h1.within = k.within ∧
      h1.fol = k.fol ∧ h1.prev = k.prev ∧ h1.start = k.start := by
    subst hh1; exact ⟨rfl, rfl, rfl, rfl, rfl, rfl, rfl, rfl⟩
  obtain ⟨f1c, f1t, f1l, f1s, f1w, f1f, f1p, f1st⟩ := f1
  have td1 : TidyOn M h1 := by
    refine ⟨?_, ?_, ?_, ?_, ?_, ?_⟩
    · intro v y; rw [hsub1, f1s]; exact td.down v y
    · intro v y; rw [hsub1, f1s]; exact td.up v y
    · intro v; rw [hsub1]; exact td.nodup v
    · intro v; rw [hsub1]; subst hh1; exact td.distinct v
    · intro v; rw [hsub1]; subst hh1; exact td.cls v
    · intro v; rw [hsub1]; subst hh1; exact td.label v
  have hsv1 : ∀ u v, SameValue h1 u v ↔ SameValue k u v := by intro u v; subst hh1; exact Iff.rfl
  obtain ⟨f, p, hrun, hl1, hl2, hl3⟩ := setSubs_ok (U := (· ∈ L)) x L h1 d ⟨fun v _ => td1.down v, by
      intro v hv z hz e
      rw [hsub1]
      rw [f1s] at e
      rcases (hmemL z).mp hz with q | q
      · have h0 := td.down x z q; rw [e] at h0; exact absurd (Option.some.inj h0) hv
      · have h0 := td.down y z q; rw [e] at h0; cases h0; exact q,
      fun v _ => td1.good v⟩ (fun _ hz => hz)
    (by intro z hz; exact td1.down x z hz)
    (by
      intro z hz u hu hs
      rw [hsub1] at hz
      rw [hsv1] at hs
      exact hdistL u hu z ((hmemL z).mpr (Or.inl hz)) hs)
    (by
      intro z hz
      rw [f1t, f1c]
      exact ⟨d, hclx, by rw [hclL z hz]; exact isSub_refl _ _⟩)
    (by rw [f1c]; exact hclL) hnd (by rw [f1l]; exact hlabL)
  rw [slSort_congr h1 k _ f1st, hsort] at hrun hl1 hl2
  generalize hh2 : assigned h1 x L (if L = [] then none else some d) f p = h2 at *
  have eframe : h2 =
      { k with subs := h2.subs, sup := h2.sup, within := h2.within, cont := h2.cont, fol := h2.fol, prev := h2.prev } := by
    subst hh2; subst hh1; rfl
  have elist : h2.subs x = ⟨L, if L = [] then none else some d⟩ := by subst hh2; simp [assigned, settled]
  have esub : ∀ v, v ≠ x → h2.subs v = ⟨(k.subs v).vals.filter (· ∉ L), (h1.subs v).ecls⟩ := by
    intro v hv; subst hh2; simp [assigned, settled, hv, hsub1]
  have egone : (h2.subs y).vals = [] := by
    rw [esub y (Ne.symm hne), List.filter_eq_nil_iff]
    intro z hz
    simpa using (hmemL z).mpr (Or.inr hz)
  have eoth : ∀ v, v ≠ x → v ≠ y → h2.subs v = k.subs v := by
    intro v hx hy
    rw [esub v hx]
    have hva : v ≠ a := by
      rcases hxy with ⟨p, q⟩ | ⟨p, q⟩
      · rw [p]; exact hx
      · rw [p]; exact hy
    rw [hsub1' v hva, List.filter_eq_self.mpr]
    intro z hz
    have : z ∉ L := by
      rw [hmemL]
      have h0 := td.down v z hz
      rintro (q | q)
      · have := td.down x z q; rw [h0] at this; exact hx (Option.some.inj this)
      · have := td.down y z q; rw [h0] at this; exact hy (Option.some.inj this)
    simpa using this
  have esup : ∀ r, h2.sup r = if r ∈ (k.subs y).vals then some x else k.sup r := by
    intro r
    subst hh2
    simp only [assigned, settled, hsub1, f1s]
    by_cases q : r ∈ (k.subs y).vals
    · rw [if_pos ((hmemL r).mpr (Or.inr q)), if_pos q]
    · rw [if_neg q]
      by_cases q2 : r ∈ (k.subs x).vals
      · rw [if_pos ((hmemL r).mpr (Or.inl q2)), td.down x r q2]
      · rw [if_neg (by rw [hmemL]; exact fun hh => hh.elim q2 q), if_neg q2]
  have ewith : ∀ r, h2.within r = if r ∈ L then some (.ival x) else k.within r := by
    intro r
    subst hh2
    simp only [assigned, settled, hsub1, f1w]
    by_cases q : r ∈ L
    · rw [if_pos q, if_pos q]
    · rw [if_neg q, if_neg q, if_neg (fun hh => q ((hmemL r).mpr (Or.inl hh)))]
  refine ⟨h2, ?_, ?_, elist, egone, eoth, hl2, esup, ewith, ?_, by subst hh2; subst hh1; rfl,
    fun v h1 h2 => by rw [eoth v h1 h2], eframe⟩
  · mstep hadd
    exact hrun
  · have g : ∀ v, GoodList h2 (h2.subs v).vals := by
      intro v
      by_cases hv : v = x
      · subst hv
        rw [elist]
        have : GoodList k L := ⟨hnd, hdistL, fun u hu v hv => by rw [hclL u hu, hclL v hv], hlabL⟩
        exact this.congr (by rw [eframe]) (by rw [eframe]) (by rw [eframe]) (by rw [eframe]) (by rw [eframe])
      · rw [esub v hv]
        exact ((td.good v).sub List.filter_sublist).congr (by rw [eframe]) (by rw [eframe]) (by rw [eframe])
          (by rw [eframe]) (by rw [eframe])
    have key : ∀ v r, (r ∈ (h2.subs v).vals → h2.sup r = some v) ∧ (M r → h2.sup r = some v → r ∈ (h2.subs v).vals) := by
     intro v r
     rw [esup]
     by_cases hv : v = x
     · subst hv
       rw [elist]
       show (r ∈ L → _) ∧ (_ → _ → r ∈ L)
       rw [hmemL]
       by_cases q : r ∈ (k.subs y).vals
       · simp [q]
       · simp only [q, if_false, or_false]; exact ⟨td.down v r, td.up v r⟩
     · by_cases hv2 : v = y
       · subst hv2
         rw [egone]
         by_cases q : r ∈ (k.subs v).vals
         · simp [q]; exact fun _ => hne
         · simp [q]; exact fun m e => q (td.up v r m e)
       · rw [eoth v hv hv2]
         by_cases q : r ∈ (k.subs y).vals
         · rw [if_pos q]
           constructor
           · intro hm
             have h1 := td.down v r hm
             have h2 := td.down y r q
             rw [h1] at h2; exact absurd (Option.some.inj h2) hv2
           · intro _ hm; exact absurd (Option.some.inj hm).symm hv
         · rw [if_neg q]; exact ⟨td.down v r, td.up v r⟩
    exact ⟨fun v r => (key v r).1, fun v r => (key v r).2, fun v => (g v).nodup, fun v => (g v).distinct, fun v => (g v).cls,
      fun v => (g v).label⟩
  · intro r hr
    have := hl3 r (by
      rintro v hv ⟨z, hz, hzv⟩ hrv
      rw [hsub1] at hzv hrv
      rcases (hmemL z).mp hz with q | q
      · have h1 := td.down v z hzv
        have h2 := td.down x z q
        rw [h1] at h2; exact hv (Option.some.inj h2)
      · have h1 := td.down v z hzv
        have h2 := td.down y z q
        rw [h1] at h2
        have := Option.some.inj h2
        subst this
        exact hr ((hmemL r).mpr (Or.inr hrv)))
    subst hh2
    simp only [assigned, settled]
    rw [folOf_notMem _ _ _ hr, prevOf_notMem _ _ _ _ hr, this.1, this.2, f1f, f1p]
    exact ⟨rfl, rfl⟩

end ATG
