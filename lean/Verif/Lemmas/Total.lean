import Verif.Lemmas.Frame
import Verif.Lemmas.TierInit
/-!
# Linking and tier construction return, whatever the labels

An entry labelled `"#"` stops the linking early; nothing raises as long as the entries are distinct and of
one class.
-/
namespace ATG

/-- the call returns (does not raise) -/
def IsOk {α} (r : Res α) : Prop := ∃ a h', r = .ok a h'

theorem IsOk.ok {α} (a : α) (h : Heap) : IsOk (.ok a h) := ⟨a, h, rfl⟩

theorem LinkFrame.cls {h h' : Heap} (e : LinkFrame h h') : h'.cls = h.cls := by
  unfold LinkFrame at e; rw [e]

theorem setFolPrevN_isOk (n : Nat) (x y : Ref) (h : Heap) (hxy : x ≠ y) (hc : h.cls y = h.cls x) :
    IsOk (setFolN (n + 3) x (.obj y) h) ∧ IsOk (setPrevN (n + 3) x (.obj y) h) := by
  by_cases hl : h.label x = "#"
  · constructor
    · exact ⟨(), h, by simp [setFolN, M.bind_apply, hl, hxy.symm]⟩
    · exact ⟨(), h, by simp [setPrevN, M.bind_apply, hl, hxy.symm]⟩
  · exact ⟨⟨_, _, setFolN_ok n x y h hxy hl hc⟩, ⟨_, _, setPrevN_ok n x y h hxy hl hc⟩⟩

theorem setBumper_isOk (x : Ref) (h : Heap) : IsOk (setFinal x h) ∧ IsOk (setInitial x h) := by
  by_cases hl : h.label x = "#"
  · constructor
    · exact ⟨(), h, by simp [setFinal, setFol, linkFuel, setFolN, M.bind_apply, hl]⟩
    · exact ⟨(), h, by simp [setInitial, setPrev, linkFuel, setPrevN, M.bind_apply, hl]⟩
  · exact ⟨⟨_, _, setFinal_ok x h hl⟩, ⟨_, _, setInitial_ok x h hl⟩⟩

theorem IsOk.bind {α β} {m : M α} {f : α → M β} {h : Heap} (hm : IsOk (m h))
    (hf : ∀ a, IsOk (f a (m h).heap)) : IsOk ((m >>= f) h) := by
  obtain ⟨a, h', e⟩ := hm
  have := hf a
  rw [e] at this
  rw [M.bind_apply, e]; exact this

theorem precLoop_isOk (pre : Ref → M Unit) (hpre : ∀ x h, IsOk (pre x h))
    (hcl : ∀ x h, (pre x h).heap.cls = h.cls) :
    ∀ (l : List Ref) (p : Option Ref) (h : Heap) (c : CRef),
      l.Nodup → (∀ x ∈ l, h.cls x = c) → (∀ q, p = some q → q ∉ l ∧ h.cls q = c) →
      IsOk (precLoop pre p l h) := by
  intro l
  induction l with
  | nil => intro p h c _ _ _; exact .ok () h
  | cons x rest ih =>
    intro p h c hnd hc hp
    unfold precLoop
    rw [List.nodup_cons] at hnd
    refine IsOk.bind (hpre x h) fun _ => ?_
    have hc1 : (pre x h).heap.cls = h.cls := hcl x h
    generalize (pre x h).heap = h1 at *
    have key2 : ∀ m : M Unit, IsOk (m h1) → Keeps LinkFrame m → ∀ k : Unit → M Unit,
        (∀ h2 : Heap, h2.cls = h.cls → IsOk (k () h2)) → IsOk ((m >>= k) h1) := by
      intro m hm hk k hkk
      refine IsOk.bind hm fun _ => hkk _ ?_
      rw [(hk h1).cls, hc1]
    refine key2 _ ?_ ?_ _ ?_
    · cases p with
      | none => exact (setBumper_isOk x h1).2
      | some q =>
        obtain ⟨hq, hqc⟩ := hp q rfl
        refine (setFolPrevN_isOk 1 x q h1 ?_ ?_).2
        · rintro rfl; exact hq (by simp)
        · rw [hc1, hqc, hc x (by simp)]
    · cases p with
      | none => exact (setFolPrev_frame _ _ _).2
      | some q => exact (setFolPrev_frame _ _ _).2
    · intro h2 hc2
      refine IsOk.bind ?_ fun _ => ?_
      · cases rest with
        | nil => exact (setBumper_isOk x h2).1
        | cons y ys =>
          refine (setFolPrevN_isOk 1 x y h2 ?_ ?_).1
          · rintro rfl; exact hnd.1 (by simp)
          · rw [hc2, hc x (by simp), hc y (by simp)]
      · have hk : ∀ m : M Unit, Keeps LinkFrame m → (m h2).heap.cls = h.cls := by
          intro m hm; rw [(hm h2).cls, hc2]
        refine ih (some x) _ c hnd.2 ?_ ?_
        · intro z hz
          rw [hk _ (by cases rest <;> exact (setFolPrev_frame _ _ _).1)]
          exact hc z (by simp [hz])
        · rintro q hq
          cases hq
          refine ⟨hnd.1, ?_⟩
          rw [hk _ (by cases rest <;> exact (setFolPrev_frame _ _ _).1)]
          exact hc x (by simp)

/-- only what tier construction touches may differ, apart from the tier's list and class -/
def TierFrame (t : TRef) (h h' : Heap) : Prop :=
  h' = { h with cls := h'.cls, fol := h'.fol, prev := h'.prev, intier := h'.intier, within := h'.within,
                tname := h'.tname, tcls := h'.tcls, tsup := h'.tsup, tsub := h'.tsub, tseq := h'.tseq,
                tcont := h'.tcont } ∧
  (∀ s, s ≠ t → h'.tname s = h.tname s ∧ h'.tcls s = h.tcls s ∧ h'.tsup s = h.tsup s ∧
    h'.tsub s = h.tsub s ∧ h'.tseq s = h.tseq s ∧ h'.tcont s = h.tcont s)

/-- only the links, `intier`, `within` of entries and `_contains` of the tier `t` may differ -/
def PrecFrame (t : TRef) (h h' : Heap) : Prop :=
  h' = { h with fol := h'.fol, prev := h'.prev, intier := h'.intier, within := h'.within, tcont := h'.tcont } ∧
  (∀ s, s ≠ t → h'.tcont s = h.tcont s)

theorem PrecFrame.pre (t : TRef) : IsPre (PrecFrame t) := by
  constructor
  · intro h; exact ⟨rfl, fun _ _ => rfl⟩
  · rintro a b c ⟨h1, h2⟩ ⟨h3, h4⟩
    refine ⟨by rw [h3, h1], fun s hs => (h4 s hs).trans (h2 s hs)⟩

theorem LinkFrame.prec (t : TRef) {h h' : Heap} (e : LinkFrame h h') : PrecFrame t h h' := by
  unfold LinkFrame at e; rw [e]; exact ⟨rfl, fun _ _ => rfl⟩

theorem tierPrecedence_total (t : TRef) (h : Heap) (s : CRef) (hpt : h.isPointTier t = false)
    (hs : h.tsup t = some s) (hnd : (h.tseq t).vals.Nodup) (c : CRef)
    (hc : ∀ x ∈ (h.tseq t).vals, h.cls x = c) :
    ∃ h', tierPrecedence t h = .ok () h' ∧ PrecFrame t h h' := by
  have hpre : ∀ x, Keeps (PrecFrame t) (setIntier t x) := fun x h => ⟨rfl, fun _ _ => rfl⟩
  have hf := precLoop_frame (PrecFrame.pre t) (fun a b e => e.prec t) (setIntier t) hpre (h.tseq t).vals none h
  obtain ⟨a, h1, e⟩ := precLoop_isOk (setIntier t) (fun x h => ⟨_, _, rfl⟩) (fun x h => rfl)
    (h.tseq t).vals none h c hnd hc (by simp)
  rw [e] at hf
  have hf1 : h1.ct = h.ct := by rw [show h1 = _ from hf.1]
  unfold tierPrecedence
  by_cases ht : h.ct.isSub s cTop = true
  · refine ⟨{ h1 with
      tcont := upd h1.tcont t .alias
      within := fun r => if r ∈ (h1.tseq t).vals then some (.tier t) else h1.within r }, ?_, ?_⟩
    · mstep M.get_apply h
      mstep e
      rw [if_neg (by simp [hpt])]
      mstep (show isSubO (h.tsup t) cTop h1 = .ok true h1 by simp [isSubO, hs, hf1, ht])
      rw [if_pos rfl]
      exact setContainsSeq_ok t h1
    · refine (PrecFrame.pre t).trans _ _ _ hf ⟨rfl, ?_⟩
      intro s hs; simp [upd, hs, Res.heap]
  · refine ⟨h1, ?_, hf⟩
    mstep M.get_apply h
    mstep e
    rw [if_neg (by simp [hpt])]
    mstep (show isSubO (h.tsup t) cTop h1 = .ok false h1 by simp [isSubO, hs, hf1, ht])
    simp

theorem tierInit_total (t : TRef) (entries : List Ref) (c s : CRef) (name : String) (h : Heap)
    (hci : h.ct.isSub c cPoint = false) (hs : h.ct.sup c = some s)
    (hp : ∀ x ∈ entries, h.isPoint x = false) (hnd : entries.Nodup) :
    ∃ h', tierInit t entries c name h = .ok () h' ∧ TierFrame t h h' ∧
      h'.tseq t = ⟨slSort h entries, if entries = [] then none else some c⟩ ∧
      h'.tcls t = c ∧ h'.tname t = name ∧ h'.tsup t = some s ∧ h'.tsub t = h.ct.sub c ∧
      h'.cls = fun r => if r ∈ entries then c else h.cls r := by
  have hmem : ∀ x, x ∈ slSort h entries ↔ x ∈ entries := fun x => (slSort_perm h entries).mem_iff
  have hLnd : (slSort h entries).Nodup := (slSort_perm h entries).nodup_iff.mpr hnd
  have hemp : slSort h entries = [] ↔ entries = [] := by
    constructor
    · intro e; have := slSort_perm h entries; rw [e] at this; exact this.nil_eq.symm
    · rintro rfl; rfl
  -- the heap before the setter links
  let h1 : Heap := { h with
    tname := upd h.tname t name
    tcont := upd h.tcont t (match h.tcont t with | .alias => .detached (h.tseq t).vals | c => c)
    tseq := upd h.tseq t SL.empty
    tcls := upd h.tcls t c
    tsup := upd h.tsup t (some s)
    tsub := upd h.tsub t (h.ct.sub c)
    cls := fun r => if r ∈ entries then c else h.cls r }
  let h2 : Heap := { h1 with
    tcont := upd h1.tcont t (match h1.tcont t with | .alias => .detached (h1.tseq t).vals | c => c)
    tseq := upd h1.tseq t ⟨slSort h entries, if entries = [] then none else some c⟩ }
  have hseq2 : h2.tseq t = ⟨slSort h entries, if entries = [] then none else some c⟩ := by simp [h2]
  have hv2 : (h2.tseq t).vals = slSort h entries := by rw [hseq2]
  obtain ⟨h3, e3, f3⟩ := tierPrecedence_total t h2 s (by simp [h2, h1, Heap.isPointTier, hci])
    (by simp [h2, h1]) (by rw [hv2]; exact hLnd) c (by
      rw [hv2]; intro x hx; simp [h2, h1, (hmem x).mp hx])
  have g3 : h3.ct = h2.ct ∧ h3.tcls = h2.tcls ∧ h3.tsup = h2.tsup ∧ h3.tseq = h2.tseq ∧ h3.cls = h2.cls ∧
      h3.tname = h2.tname ∧ h3.tsub = h2.tsub := by
    rw [show h3 = _ from f3.1]; simp
  obtain ⟨g31, g32, g33, g34, g35, g36, g37⟩ := g3
  obtain ⟨h4, e4, f4⟩ := tierPrecedence_total t h3 s
    (by simp [Heap.isPointTier, g31, g32, h2, h1, hci])
    (by rw [g33]; simp [h2, h1]) (by rw [g34, hv2]; exact hLnd) c (by
      rw [g34, g35, hv2]; intro x hx; simp [h2, h1, (hmem x).mp hx])
  have f34 := (PrecFrame.pre t).trans _ _ _ f3 f4
  have g4 : h4.ct = h2.ct ∧ h4.tcls = h2.tcls ∧ h4.tsup = h2.tsup ∧ h4.tseq = h2.tseq ∧ h4.cls = h2.cls ∧
      h4.tname = h2.tname ∧ h4.tsub = h2.tsub := by
    rw [show h4 = _ from f34.1]; simp
  obtain ⟨g41, g42, g43, g44, g45, g46, g47⟩ := g4
  refine ⟨h4, ?_, ⟨?_, ?_⟩, ?_, ?_, ?_, ?_, ?_, ?_⟩
  · unfold tierInit
    mstep M.modify_apply _ h
    mstep (show replaceSeq t SL.empty _ = .ok () _ from rfl)
    mstep M.modify_apply _ _
    mstep forL_castAll c entries _ (by intro x hx; exact hci.trans (hp x hx).symm)
    mstep slMk_cls _ h entries c (by intro x hx; simp [castAll, hx]) rfl
    refine Eq.trans (M.bind_ok (a := ()) (h' := h3) ?_) e4
    unfold tierSetSeq
    mstep M.get_apply _
    rw [if_neg (by simp [Heap.isPointTier, castAll, hci])]
    mstep slMk_cls _ h (slSort h entries) c (by intro x hx; simp [castAll, (hmem x).mp hx]) rfl
    rw [slSort_of_sorted h _ (slSort_sorted h entries)]
    simp only [hemp]
    refine Eq.trans (M.bind_ok (a := ()) (h' := h2) ?_) e3
    simp [replaceSeq, castAll, h2, h1, hs]
    rfl
  · rw [show h4 = _ from f34.1]
  · intro r hr
    rw [g46, g42, g43, g47, g44, f34.2 r hr]
    simp [h2, h1, upd, hr]
  · rw [g44, hseq2]
  · rw [g42]; simp [h2, h1]
  · rw [g46]; simp [h2, h1]
  · rw [g43]; simp [h2, h1]
  · rw [g47]; simp [h2, h1]
  · rw [g45]

/-! ## making entries -/

theorem newEntries_ok (c : CRef) (l : List (Time × Time × String)) : ∀ h : Heap,
    ∃ rs h', newEntries c l h = .ok rs h' ∧
      rs = List.range' h.nE l.length ∧ h'.nE = h.nE + l.length ∧
      rs.map (fun r => (h'.start r, h'.stop r, h'.label r)) = l ∧
      (∀ r ∈ rs, h'.cls r = c ∧ h'.subs r = SL.empty ∧ h'.sup r = none ∧ h'.within r = none ∧
        h'.intier r = none ∧ h'.cont r = .unset) ∧
      (∀ r, r < h.nE → h'.cls r = h.cls r ∧ h'.start r = h.start r ∧ h'.stop r = h.stop r ∧
        h'.label r = h.label r ∧ h'.fol r = h.fol r ∧ h'.prev r = h.prev r ∧ h'.subs r = h.subs r ∧
        h'.sup r = h.sup r ∧ h'.intier r = h.intier r ∧ h'.within r = h.within r ∧
        h'.cont r = h.cont r) ∧
      h' = { h with nE := h'.nE, cls := h'.cls, start := h'.start, stop := h'.stop, label := h'.label,
                    fol := h'.fol, prev := h'.prev, subs := h'.subs, sup := h'.sup, intier := h'.intier,
                    within := h'.within, cont := h'.cont } := by
  induction l with
  | nil => intro h; exact ⟨[], h, rfl, by simp, by simp, by simp, by simp, by simp, rfl⟩
  | cons p rest ih =>
    intro h
    obtain ⟨s, e, lab⟩ := p
    let link := if lab = "#" then none else some Link.bumper
    let h1 : Heap := { h with
      nE := h.nE + 1
      cls := upd h.cls h.nE c
      start := upd h.start h.nE s
      stop := upd h.stop h.nE e
      label := upd h.label h.nE lab
      fol := upd h.fol h.nE link
      prev := upd h.prev h.nE link
      subs := upd h.subs h.nE SL.empty
      sup := upd h.sup h.nE none
      intier := upd h.intier h.nE none
      within := upd h.within h.nE none
      cont := upd h.cont h.nE Contains.unset }
    obtain ⟨rs, h2, e2, hrs, hn2, hmap, hnew, hold, hfr⟩ := ih h1
    have h0 := hold h.nE (by show _ < h.nE + 1; omega)
    refine ⟨h.nE :: rs, h2, ?_, ?_, ?_, ?_, ?_, ?_, ?_⟩
    · unfold newEntries
      mstep (show newEntry c s e lab h = .ok h.nE h1 from rfl)
      mstep e2
      rfl
    · rw [hrs]; simp [List.range'_succ, h1]
    · rw [hn2]; simp [h1]; omega
    · simp only [List.map_cons, hmap, h0]
      simp [h1]
    · intro r hr
      rcases List.mem_cons.mp hr with rfl | hr
      · simp only [h0]; simp [h1]
      · exact hnew r hr
    · intro r hr
      have hne : r ≠ h.nE := by omega
      obtain ⟨a1, a2, a3, a4, a5, a6, a7, a8, a9, a10, a11⟩ := hold r (by show r < h.nE + 1; omega)
      rw [a1, a2, a3, a4, a5, a6, a7, a8, a9, a10, a11]
      simp [h1, upd, hne]
    · rw [hfr]

end ATG
