import Verif.Spec.Homely
import Verif.Lemmas.GroupApart
import Verif.Lemmas.Homely
import Verif.Lemmas.SpanLists
import Verif.Lemmas.AddTiers
import Verif.Lemmas.Total
import Verif.Model.Textgrid
/-!
# Interleaving a tier into one group
-/
namespace ATG

theorem insertIdx_between (pre post : List TRef) (t : TRef) (l : List TRef) (e : l = pre ++ post) :
    l.insertIdx pre.length t = pre ++ t :: post := by
  subst e
  induction pre with
  | nil => simp
  | cons a as ih => simp [List.insertIdx_succ_cons, ih]

theorem findIdx_between (f : TRef → CRef) (pre post : List TRef) (d : CRef)
    (h1 : ∀ t ∈ pre, f t ≠ d) (h2 : ∀ t, post.head? = some t → f t = d) :
    ((pre ++ post).map f).findIdx? (some · == some d) = some pre.length ∨
    ((pre ++ post).map f).findIdx? (some · == some d) = none ∧ ((pre ++ post).map f).length = pre.length := by
  induction pre with
  | nil =>
    cases post with
    | nil => simp
    | cons a as => simp [List.findIdx?_cons, h2 a rfl]
  | cons a as ih =>
    have := ih (fun t ht => h1 t (by simp [ht]))
    have ha : f a ≠ d := h1 a (by simp)
    simp only [List.cons_append, List.map_cons, List.findIdx?_cons, List.length_cons]
    rw [show (some (f a) == some d) = false by simpa using ha]
    simp only [Bool.false_eq_true, if_false]
    rcases this with q | q
    · rw [q]; simp
    · rw [q.1, q.2]; simp

/-- the labels of `l` made empty -/
def unlabelled (h : Heap) (l : List Ref) : Heap :=
  { h with label := fun x => if x ∈ l then "" else h.label x }

theorem forL_blank (l : List Ref) : ∀ h : Heap,
    M.forL l (fun x => M.modify fun h => { h with label := upd h.label x "" }) h = .ok () (unlabelled h l) := by
  induction l with
  | nil => intro h; simp [M.forL, unlabelled]
  | cons a as ih =>
    intro h
    rw [M.forL_cons, M.modify_apply]
    simp only
    rw [ih]
    unfold unlabelled
    congr 2
    funext x
    by_cases e : x ∈ as
    · simp [e]
    · by_cases e2 : x = a <;> simp [e, e2, upd]

/-- the class links of the tiers `l` taken from the class table again -/
def refreshed (h : Heap) (l : List TRef) : Heap :=
  { h with tsup := fun t => if t ∈ l then h.ct.sup (h.tcls t) else h.tsup t
           tsub := fun t => if t ∈ l then h.ct.sub (h.tcls t) else h.tsub t }

theorem forL_refresh (l : List TRef) : ∀ h : Heap, M.forL l refreshTier h = .ok () (refreshed h l) := by
  induction l with
  | nil => intro h; simp [M.forL, refreshed]
  | cons a as ih =>
    intro h
    rw [M.forL_cons]
    unfold refreshTier at ih ⊢
    rw [M.modify_apply]
    simp only
    rw [ih]
    unfold refreshed
    congr 2
    · funext x
      by_cases e : x ∈ as
      · simp [e]
      · by_cases e2 : x = a <;> simp [e, e2, upd]
    · funext x
      by_cases e : x ∈ as
      · simp [e]
      · by_cases e2 : x = a <;> simp [e, e2, upd]

theorem ClassLinks.chain {h : Heap} {ts : List TRef} (c : ClassLinks h.ct (ts.map h.tcls))
    (h1 : ∀ t ∈ ts, h.tsup t = h.ct.sup (h.tcls t)) (h2 : ∀ t ∈ ts, h.tsub t = h.ct.sub (h.tcls t)) :
    ClassChain h ts := by
  have hm : ∀ {i : Nat} {t}, ts[i]? = some t → (ts.map h.tcls)[i]? = some (h.tcls t) := by
    intro i t e; simp [e]
  refine ⟨c.distinct, ?_, ?_, ?_, ?_⟩
  · intro i t t' e1 e2
    have := c.down i _ _ (hm e1) (hm e2)
    rw [h2 t (List.mem_of_getElem? e1), h1 t' (List.mem_of_getElem? e2)]
    exact this
  · intro i t t' e1 e2
    exact c.inner i _ _ (hm e1) (hm e2)
  · intro t e
    obtain ⟨p, q1, q2⟩ := c.top _ (hm e)
    refine ⟨p, by rw [h1 t (List.mem_of_getElem? e), q1], q2.imp id ?_⟩
    intro q t' ht' e'
    exact q (List.mem_map.mpr ⟨t', ht', e'⟩)
  · intro t e
    obtain ⟨p, q1, q2⟩ := c.bottom _ (by rw [List.length_map]; exact hm e)
    refine ⟨p, by rw [h2 t (List.mem_of_getElem? e), q1], q2.imp id ?_⟩
    intro q t' ht' e'
    exact q (List.mem_map.mpr ⟨t', ht', e'⟩)

theorem newEntries_else (c : CRef) : ∀ (l : List (Time × Time × String)) (h : Heap) rs h',
    newEntries c l h = .ok rs h' → ∀ r, r ∉ rs → h'.cls r = h.cls r ∧ h'.start r = h.start r ∧
      h'.stop r = h.stop r ∧ h'.label r = h.label r ∧ h'.fol r = h.fol r ∧ h'.prev r = h.prev r ∧
      h'.subs r = h.subs r ∧ h'.sup r = h.sup r ∧ h'.intier r = h.intier r ∧ h'.within r = h.within r ∧
      h'.cont r = h.cont r
  | [], h, rs, h', e, r, _ => by cases e; exact ⟨rfl, rfl, rfl, rfl, rfl, rfl, rfl, rfl, rfl, rfl, rfl⟩
  | (s, t, lab) :: l, h, rs, h', e, r, hr => by
    unfold newEntries at e
    rw [M.bind_ok (show newEntry c s t lab h = .ok h.nE _ from rfl)] at e
    generalize hq : newEntries c l _ = q at e
    rw [M.bind_apply, hq] at e
    cases q with
    | err er hh => simp at e
    | ok rs' h2 =>
      injection e with e1 e2
      subst e1 e2
      have h1 := newEntries_else c l _ rs' h2 hq r (fun q => hr (by simp [q]))
      have hne : r ≠ h.nE := fun q => hr (by simp [q])
      simpa only [upd_ne _ _ _ _ hne] using h1

/-- the state in which the new group is built -/
structure Woven (h : Heap) (g : GRef) (tiers : List TRef) (k : TRef) (new : CRef) (labels : Bool) (rs : List Ref)
    (h5 : Heap) : Prop where
  range : rs = List.range' h.nE (h.tseq k).vals.length
  values : rs.map (fun x => (h5.start x, h5.stop x, h5.label x)) =
    (h.tseq k).vals.map fun x => (h.start x, h.stop x, if labels then h.label x else "")
  fresh : ∀ x ∈ rs, h5.cls x = new ∧ h5.subs x = SL.empty ∧ h5.sup x = none
  cls : ∀ x, x ∉ rs → h5.cls x = h.cls x
  start : ∀ x, x ∉ rs → h5.start x = h.start x
  stop : ∀ x, x ∉ rs → h5.stop x = h.stop x
  label : ∀ x, x ∉ rs → h5.label x = h.label x
  fol : ∀ x, x ∉ rs → h5.fol x = h.fol x
  prev : ∀ x, x ∉ rs → h5.prev x = h.prev x
  subs : ∀ x, x ∉ rs → h5.subs x = h.subs x
  sup : ∀ x, x ∉ rs → h5.sup x = h.sup x
  within : ∀ x, x ∉ rs → h5.within x = h.within x
  cont : ∀ x, x ∉ rs → h5.cont x = h.cont x
  tvals : (h5.tseq h.nT).vals = rs
  tseq : ∀ t, t ≠ h.nT → h5.tseq t = h.tseq t
  tcls : h5.tcls = upd h.tcls h.nT new
  tname : ∀ t, t ≠ h.nT → h5.tname t = h.tname t
  tsup : ∀ t ∈ tiers, h5.tsup t = h.ct.sup (h5.tcls t)
  tsub : ∀ t ∈ tiers, h5.tsub t = h.ct.sub (h5.tcls t)
  links : ∀ t, t ∉ tiers → t ≠ h.nT → h5.tsup t = h.tsup t ∧ h5.tsub t = h.tsub t
  nE : h5.nE = h.nE + rs.length
  nT : h5.nT = h.nT + 1
  nG : h5.nG = h.nG
  ct : h5.ct = h.ct
  gtiers : h5.gtiers = upd h.gtiers g tiers
  gpoint : h5.gpoint = h.gpoint
  agroups : h5.agroups = h.agroups
  home : ∀ x ∈ rs, h5.intier x = some h.nT
  intier : ∀ x, x ∉ rs → h5.intier x = h.intier x
  chain : ∀ (i : Nat) u, rs[i]? = some u → h5.fol u = some (rs[i + 1]?.elim .bumper .obj)
  rooted : UnderTop h.ct new → ∀ x ∈ rs, h5.within x = some (.tier h.nT)
  back : ∀ (i : Nat) u, rs[i]? = some u → h5.prev u = some (beforeAt rs i)

theorem find_of_nodup (f : TRef → CRef) (k : TRef) : ∀ l : List TRef, (l.map f).Nodup → k ∈ l →
    l.find? (fun t => some (f t) == some (f k)) = some k
  | [], _, hk => by simp at hk
  | a :: as, hn, hk => by
    rw [List.map_cons, List.nodup_cons] at hn
    by_cases e : a = k
    · subst e; simp
    · have hk' : k ∈ as := by simpa [show ¬ k = a from fun q => e q.symm] using hk
      have : f a ≠ f k := fun q => hn.1 (q ▸ List.mem_map.mpr ⟨k, hk', rfl⟩)
      rw [List.find?_cons_of_neg (by simpa using this)]
      exact find_of_nodup f k as hn.2 hk'

theorem interleaveGroup_woven (h : Heap) (g : GRef) (new d s : CRef) (k : TRef) (labels : Bool)
    (pre post : List TRef) (hsp : h.gtiers g = pre ++ post)
    (hd : ∀ t ∈ pre, h.tcls t ≠ d) (hd' : ∀ t, post.head? = some t → h.tcls t = d)
    (hk : (h.gtiers g).find? (fun t => some (h.tcls t) == some (h.tcls k)) = some k)
    (hsup : h.ct.sup new = some s) (hpt : h.ct.isSub new cPoint = false)
    (hne : (h.tseq k).vals ≠ []) (hlab : ∀ x ∈ (h.tseq k).vals, h.label x ≠ "#")
    (hso : SortedByStart h (h.tseq k).vals) (hold : ∀ t ∈ h.gtiers g, t < h.nT) :
    ∃ rs h5, interleaveGroup g new (some d) (some (h.tcls k)) labels h = newGroup (pre ++ h.nT :: post) h5 ∧
      Woven h g (pre ++ h.nT :: post) k new labels rs h5 := by
  obtain ⟨rs, h1, e1, hrs, hnE, hv, hnew, -, fr⟩ := newEntries_ok new
    ((h.tseq k).vals.map fun x => (h.start x, h.stop x, h.label x)) h
  have helse := newEntries_else new _ h rs h1 e1
  rw [List.length_map] at hrs hnE
  have hlen : rs.length = (h.tseq k).vals.length := by rw [hrs]; simp
  have hrne : rs ≠ [] := by
    intro q
    rw [q] at hlen
    exact hne (List.length_eq_zero_iff.mp hlen.symm)
  have hmap : rs.map h1.start = (h.tseq k).vals.map h.start := by
    have := congrArg (List.map (fun p : Time × Time × String => p.1)) hv
    simpa [List.map_map, Function.comp_def] using this
  have hsorted : slSort h1 rs = rs := by
    unfold slSort
    rw [hmap, if_pos ((adjLe_iff h.start _).mpr hso)]
  have hl1 : ∀ x ∈ rs, h1.label x ≠ "#" := by
    intro x hx
    have : (h1.start x, h1.stop x, h1.label x) ∈ (h.tseq k).vals.map fun x => (h.start x, h.stop x, h.label x) := by
      rw [← hv]; exact List.mem_map.mpr ⟨x, hx, rfl⟩
    obtain ⟨y, hy, hyx⟩ := List.mem_map.mp this
    have := hlab y hy
    simp only [Prod.mk.injEq] at hyx
    rw [← hyx.2.2]; exact this
  have hnT1 : h1.nT = h.nT := by rw [fr]
  have hct1 : h1.ct = h.ct := by rw [fr]
  have e2 := newTier_ok rs new s h1 hrne (by rw [hct1]; exact hpt) (by rw [hct1]; exact hsup)
    (fun x hx => (hnew x hx).1) (by rw [hrs]; exact List.nodup_range') hl1
  rw [hsorted, hnT1] at e2
  obtain ⟨h2, hh2⟩ : ∃ h2, tierBuilt (withTier h1) h.nT rs new s (h1.ct.name new) = h2 := ⟨_, rfl⟩
  rw [hh2] at e2
  obtain ⟨h3, hh3⟩ : ∃ h3, (if labels then h2 else unlabelled h2 rs) = h3 := ⟨_, rfl⟩
  have e3 : (if labels = true then pure () else
      M.forL rs (fun x => M.modify fun h => { h with label := upd h.label x "" })) h2 = .ok () h3 := by
    cases labels with
    | true => rw [← hh3]; rfl
    | false =>
      rw [← hh3]
      exact forL_blank rs h2
  let tiers := pre ++ h.nT :: post
  have hg3 : h3.gtiers = h.gtiers := by
    rw [← hh3, ← hh2]
    cases labels <;> simp only [unlabelled, tierBuilt, withTier, if_true, Bool.false_eq_true, if_false] <;> rw [fr]
  have ht3 : ∀ t, t ≠ h.nT → h3.tcls t = h.tcls t := by
    intro t ht
    rw [← hh3, ← hh2]
    cases labels <;> simp only [unlabelled, tierBuilt, withTier, if_true, Bool.false_eq_true, if_false] <;>
      rw [upd_ne _ _ _ _ ht, fr]
  have hcl3 : (h3.gtiers g).map h3.tcls = (pre ++ post).map h.tcls := by
    rw [hg3, hsp]
    apply List.map_congr_left
    intro t ht
    exact ht3 t (Nat.ne_of_lt (hold t (by rw [hsp]; exact ht)))
  refine ⟨rs, refreshed { h3 with gtiers := upd h3.gtiers g tiers } tiers, ?_, ?_⟩
  · unfold interleaveGroup
    mstep M.get_apply _
    rw [hk]
    simp only
    mstep e1
    mstep e2
    mstep e3
    mstep M.get_apply _
    rw [hcl3]
    have hins := insertIdx_between pre post h.nT (h3.gtiers g) (by rw [hg3, hsp])
    rcases findIdx_between h.tcls pre post d hd hd' with q | q
    all_goals
      simp only [q, hins]
      mstep M.modify_apply _ _
      mstep forL_refresh _ _
      rfl
  · have hv' : rs.map (fun x => (h1.start x, h1.stop x, if labels then h1.label x else "")) =
        (h.tseq k).vals.map fun x => (h.start x, h.stop x, if labels then h.label x else "") := by
      have := congrArg (List.map (fun p : Time × Time × String => (p.1, p.2.1, if labels then p.2.2 else ""))) hv
      simpa [List.map_map, Function.comp_def] using this
    have hf : h3 = { h1 with label := h3.label, cls := h3.cls, fol := h3.fol, prev := h3.prev, intier := h3.intier,
                             within := h3.within, tname := h3.tname, tcls := h3.tcls, tsup := h3.tsup,
                             tsub := h3.tsub, tseq := h3.tseq, tcont := h3.tcont, twithin := h3.twithin,
                             nT := h3.nT } := by
      rw [← hh3, ← hh2]
      cases labels <;> rfl
    have hcls : h3.cls = fun r => if r ∈ rs then new else h1.cls r := by
      rw [← hh3, ← hh2]; cases labels <;> rfl
    have hlab3 : ∀ r, h3.label r = if r ∈ rs ∧ labels = false then "" else h1.label r := by
      intro r
      rw [← hh3, ← hh2]
      cases labels
      · simp [unlabelled, tierBuilt, withTier]
      · simp [tierBuilt, withTier]
    have hfol : h3.fol = folOf rs h1.fol := by rw [← hh3, ← hh2]; cases labels <;> rfl
    have hprev : h3.prev = prevOf none rs h1.prev := by rw [← hh3, ← hh2]; cases labels <;> rfl
    have hit : h3.intier = fun r => if r ∈ rs then some h.nT else h1.intier r := by
      rw [← hh3, ← hh2]; cases labels <;> rfl
    have hwi : ∀ r, r ∉ rs → h3.within r = h1.within r := by
      intro r hr
      rw [← hh3, ← hh2]
      cases labels <;> simp only [unlabelled, tierBuilt, withTier, if_true, Bool.false_eq_true, if_false] <;>
        by_cases q : h1.ct.isSub s cTop = true <;> simp [q, hr]
    have htc : h3.tcls = upd h.tcls h.nT new := by
      rw [← hh3, ← hh2]
      cases labels <;> simp only [unlabelled, tierBuilt, withTier, if_true, Bool.false_eq_true, if_false] <;> rw [fr]
    have htn : ∀ t, t ≠ h.nT → h3.tname t = h.tname t := by
      intro t ht
      rw [← hh3, ← hh2]
      cases labels <;> simp only [unlabelled, tierBuilt, withTier, if_true, Bool.false_eq_true, if_false] <;>
        rw [upd_ne _ _ _ _ ht, fr]
    have hts : ∀ t, t ≠ h.nT → h3.tseq t = h.tseq t := by
      intro t ht
      rw [← hh3, ← hh2]
      cases labels <;> simp only [unlabelled, tierBuilt, withTier, if_true, Bool.false_eq_true, if_false] <;>
        rw [upd_ne _ _ _ _ ht, upd_ne _ _ _ _ (by rw [hnT1]; exact ht), fr]
    have htv : (h3.tseq h.nT).vals = rs := by
      rw [← hh3, ← hh2]
      cases labels <;> simp only [unlabelled, tierBuilt, withTier, if_true, Bool.false_eq_true, if_false] <;>
        rw [upd_same]
    have hli : ∀ t, t ≠ h.nT → h3.tsup t = h.tsup t ∧ h3.tsub t = h.tsub t := by
      intro t ht
      rw [← hh3, ← hh2]
      cases labels <;> simp only [unlabelled, tierBuilt, withTier, if_true, Bool.false_eq_true, if_false] <;>
        rw [upd_ne _ _ _ _ ht, upd_ne _ _ _ _ ht, fr] <;> exact ⟨rfl, rfl⟩
    have hn3 : h3.nT = h.nT + 1 := by
      rw [← hh3, ← hh2]
      cases labels <;> simp only [unlabelled, tierBuilt, withTier, if_true, Bool.false_eq_true, if_false] <;>
        rw [hnT1]
    have hs3 : h3.start = h1.start := by rw [hf]
    have hp3 : h3.stop = h1.stop := by rw [hf]
    have hb3 : h3.subs = h1.subs := by rw [hf]
    have hu3 : h3.sup = h1.sup := by rw [hf]
    have hc3 : h3.ct = h.ct := by rw [hf]; exact hct1
    constructor
    · exact hrs
    · show rs.map (fun x => (h3.start x, h3.stop x, h3.label x)) = _
      rw [← hv', hs3, hp3]
      apply List.map_congr_left
      intro x hx
      rw [hlab3]
      cases labels <;> simp [hx]
    · intro x hx
      have := hnew x hx
      refine ⟨?_, ?_, ?_⟩
      · show h3.cls x = _; rw [hcls]; simp [hx]
      · show h3.subs x = _; rw [hb3, this.2.1]
      · show h3.sup x = _; rw [hu3, this.2.2.1]
    · intro x hx; show h3.cls x = _; rw [hcls]; simp only [hx, if_false]; exact (helse x hx).1
    · intro x hx; show h3.start x = _; rw [hs3]; exact (helse x hx).2.1
    · intro x hx; show h3.stop x = _; rw [hp3]; exact (helse x hx).2.2.1
    · intro x hx; show h3.label x = _; rw [hlab3]; simp only [hx, false_and, if_false]; exact (helse x hx).2.2.2.1
    · intro x hx; show h3.fol x = _; rw [hfol, folOf_notMem _ _ _ hx]; exact (helse x hx).2.2.2.2.1
    · intro x hx; show h3.prev x = _; rw [hprev, prevOf_notMem _ _ _ _ hx]; exact (helse x hx).2.2.2.2.2.1
    · intro x hx; show h3.subs x = _; rw [hb3]; exact (helse x hx).2.2.2.2.2.2.1
    · intro x hx; show h3.sup x = _; rw [hu3]; exact (helse x hx).2.2.2.2.2.2.2.1
    · intro x hx; show h3.within x = _; rw [hwi x hx]; exact (helse x hx).2.2.2.2.2.2.2.2.2.1
    · intro x hx; show h3.cont x = _; rw [hf]; exact (helse x hx).2.2.2.2.2.2.2.2.2.2
    · exact htv
    · exact hts
    · exact htc
    · exact htn
    · intro t ht
      show (if t ∈ tiers then h3.ct.sup (h3.tcls t) else h3.tsup t) = h.ct.sup (h3.tcls t)
      rw [if_pos ht, hc3]
    · intro t ht
      show (if t ∈ tiers then h3.ct.sub (h3.tcls t) else h3.tsub t) = h.ct.sub (h3.tcls t)
      rw [if_pos ht, hc3]
    · intro t ht hn
      show (if t ∈ tiers then h3.ct.sup (h3.tcls t) else h3.tsup t) = _ ∧
        (if t ∈ tiers then h3.ct.sub (h3.tcls t) else h3.tsub t) = _
      rw [if_neg ht, if_neg ht]
      exact hli t hn
    · show h3.nE = _
      rw [hlen, ← hnE, hf]
    · exact hn3
    · show h3.nG = _
      rw [hf, fr]
    · exact hc3
    · show upd h3.gtiers g tiers = _
      rw [hg3]
    · show h3.gpoint = _
      rw [hf, fr]
    · show h3.agroups = _
      rw [hf, fr]
    · intro x hx; show h3.intier x = _; rw [hit]; simp only [hx, if_true]
    · intro x hx; show h3.intier x = _; rw [hit]; simp only [hx, if_false]; exact (helse x hx).2.2.2.2.2.2.2.2.1
    · intro i u hu
      show h3.fol u = _
      rw [hfol, folOf, if_pos (List.mem_of_getElem? hu), nextIn_elim rs (by rw [hrs]; exact List.nodup_range') i u hu]
    · rintro ⟨p, hp, ht⟩ x hx
      have hps : s = p := by rw [hsup] at hp; exact Option.some.inj hp
      show h3.within x = _
      rw [← hh3, ← hh2]
      cases labels <;> simp only [unlabelled, tierBuilt, withTier, if_true, Bool.false_eq_true, if_false] <;>
        simp [hps, hct1, ht, hx]
    · intro i u hu
      show h3.prev u = _
      exact (linked_of h3 rs (by rw [hrs]; exact List.nodup_range') _ _ hfol hprev).left hu

end ATG
