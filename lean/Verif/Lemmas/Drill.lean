import Verif.Lemmas.IvalCleanup
/-!
# Cleaning up an interval with an empty subset list, and cleaning up twice
-/
namespace ATG

/-- the subset classes below `c` down to (and without) the bottom -/
def Descends (ct : ClassTab) : CRef → List CRef → Prop
  | c, [] => ∃ d, ct.sub c = some d ∧ ct.isSub d cBottom = true
  | c, d :: ds => ct.sub c = some d ∧ ct.isSub d cBottom = false ∧ Descends ct d ds

/-- what the drill-down from the empty interval `w` does -/
structure Drilled (h h' : Heap) (w : Ref) (ds : List CRef) : Prop where
  tidy : Tidy h'
  count : h'.nE = h.nE + ds.length
  made : ∀ i d, ds[i]? = some d → h'.cls (h.nE + i) = d ∧ h'.start (h.nE + i) = h.start w ∧
    h'.stop (h.nE + i) = h.stop w ∧ h'.label (h.nE + i) = "" ∧
    (h'.subs (h.nE + i)).vals = (if i + 1 < ds.length then [h.nE + (i + 1)] else []) ∧
    h'.sup (h.nE + i) = some (if i = 0 then w else h.nE + (i - 1)) ∧
    h'.within (h.nE + i) = some (.ival (if i = 0 then w else h.nE + (i - 1))) ∧
    DoublyLinked h' (h'.subs (h.nE + i)).vals
  top : (h'.subs w).vals = if ds = [] then [] else [h.nE]
  linked : DoublyLinked h' (h'.subs w).vals
  keeps : ∀ v, v ≠ w → v < h.nE → DoublyLinked h (h.subs v).vals → DoublyLinked h' (h.subs v).vals
  old : ∀ x, x < h.nE → h'.cls x = h.cls x ∧ h'.start x = h.start x ∧ h'.stop x = h.stop x ∧
    h'.label x = h.label x ∧ h'.sup x = h.sup x ∧ h'.within x = h.within x ∧
    h'.fol x = h.fol x ∧ h'.prev x = h.prev x ∧ (x ≠ w → h'.subs x = h.subs x)

theorem ivalCleanup_drill (ds : List CRef) : ∀ (n : Nat) (w : Ref) (h : Heap), Tidy h → Alloc h → w < h.nE →
    h.subs w = SL.empty → Descends h.ct (h.cls w) ds → (∀ t, h.intier w = some t → withinTruthy h t = none) →
    ∃ h', ivalCleanupN (ds.length + 1 + n) w true h = .ok () h' ∧ Drilled h h' w ds := by
  induction ds with
  | nil =>
    intro n w h td al hw he hd hfree
    obtain ⟨d, h1, h2⟩ := hd
    refine ⟨h, ?_, td, rfl, by simp, by rw [he]; rfl, by rw [he]; exact ⟨by simp [SL.empty], by simp [SL.empty], by simp [SL.empty]⟩, fun _ _ _ q => q,
      fun x _ => ⟨rfl, rfl, rfl, rfl, rfl, rfl, rfl, rfl, fun _ => rfl⟩⟩
    rw [List.length_nil, Nat.zero_add, Nat.add_comm]
    unfold ivalCleanupN
    mstep rfl
    mstep (show isSubO (h.ct.sub (h.cls w)) cBottom h = Res.ok true h by rw [h1]; simp [isSubO, h2])
    rfl
  | cons d ds ih =>
    intro n w h td al hw he hd hfree
    obtain ⟨h1, h2, h3⟩ := hd
    generalize hk : blanked h d (h.start w) (h.stop w) = k
    have tk : Tidy k := by rw [← hk]; exact blanked_tidy td al _ _ _
    have ak : Alloc k := by rw [← hk]; exact blanked_alloc al _ _ _
    have hb : IsBlank k d (h.start w) (h.stop w) h.nE := by
      rw [← hk]; exact blankedAll_new d [(h.start w, h.stop w)] h 0 _ _ rfl
    have ho : ∀ x, x < h.nE → SameEntry h k x := by
      intro x hx; rw [← hk]; exact blanked_same h d _ _ x hx
    have hct : k.ct = h.ct := by rw [← hk]; rfl
    have hn : k.nE = h.nE + 1 := by rw [← hk]; rfl
    have htw : ∀ t, withinTruthy k t = withinTruthy h t := by intro t; rw [← hk]; rfl
    have hek : k.subs w = SL.empty := by rw [(ho w hw).subs, he]
    obtain ⟨h1', e1, a1⟩ := ivalAppend_new tk w h.nE d (by rw [hct, (ho w hw).cls]; exact h1) hb.cls hb.sup
      (by rw [hb.label]; decide) (by rw [hek]; rintro (q | ⟨y, hy, -⟩) <;> simp [SL.empty] at *)
      (by rw [hek]; simp [SL.empty]) (Or.inr hek)
      (by intro t ht; rw [htw]; rw [(ho w hw).intier] at ht; exact hfree t ht)
    have hwn : h.nE ≠ w := by intro q; romega
    have hl1 : (h1'.subs w).vals = [h.nE] := by rw [a1.list, hek]; rfl
    have hs1 : h1'.subs h.nE = SL.empty := by rw [a1.others _ hwn, hb.subs]
    have fct : h1'.ct = k.ct := by rw [a1.frame]
    have fcls : h1'.cls = k.cls := by rw [a1.frame]
    have fst : h1'.start = k.start := by rw [a1.frame]
    have fsp : h1'.stop = k.stop := by rw [a1.frame]
    have flb : h1'.label = k.label := by rw [a1.frame]
    have fit : h1'.intier = k.intier := by rw [a1.frame]
    have fnE : h1'.nE = k.nE := by rw [a1.frame]
    have al1 : Alloc h1' := by
      intro v x hx
      rw [fnE]
      by_cases q : v = w
      · subst q
        rw [hl1] at hx
        simp at hx
        subst hx
        rw [hn]; constructor <;> romega
      · rw [a1.others v q] at hx
        exact ak v x hx
    obtain ⟨h2', e2, dr⟩ := ih n h.nE h1' a1.tidy al1 (by rw [fnE, hn]; romega) hs1
      (by rw [fct, hct, fcls, hb.cls]; exact h3) (by rw [fit, hb.intier]; simp)
    have hw1 : w < h1'.nE := by rw [fnE, hn]; romega
    have hx1 : h.nE < h1'.nE := by rw [fnE, hn]; romega
    have hE : h1'.nE = h.nE + 1 := by rw [fnE, hn]
    have dl := a1.linked
    refine ⟨h2', ?_, dr.tidy, ?_, ?_, ?_, ?_, ?_, ?_⟩
    · rw [List.length_cons, show ds.length + 1 + 1 + n = (ds.length + 1 + n) + 1 by omega]
      unfold ivalCleanupN
      mstep rfl
      mstep (show isSubO (h.ct.sub (h.cls w)) cBottom h = Res.ok false h by rw [h1]; simp [isSubO, h2])
      simp only [Bool.false_eq_true, if_false, h1]
      rw [if_pos (by rw [he]; decide)]
      mstep (newEntry_blank d _ _ h)
      rw [hk]
      mstep e1
      exact e2
    · rw [dr.count, hE, List.length_cons]; omega
    · intro i c hi
      cases i with
      | zero =>
        simp at hi
        subst hi
        obtain ⟨o1, o2, o3, o4, o5, o6, -, -, -⟩ := dr.old h.nE hx1
        rw [Nat.add_zero, o1, o2, o3, o4, o5, o6, fcls, fst, fsp, flb, hb.cls, hb.start, hb.stop, hb.label, dr.top,
          a1.sup, a1.within, hE]
        refine ⟨rfl, rfl, rfl, rfl, ?_, by simp, by simp, ?_⟩
        · cases ds <;> simp
        · have := dr.linked; rw [dr.top, hE] at this; exact this
      | succ i =>
        have := dr.made i c (by simpa using hi)
        rw [hE, (show h.nE + 1 + i = h.nE + (i + 1) by omega)] at this
        obtain ⟨b1, b2, b3, b4, b5, b6, b7, b8⟩ := this
        refine ⟨b1, ?_, ?_, b4, ?_, ?_, ?_, b8⟩
        · rw [b2, fst, hb.start]
        · rw [b3, fsp, hb.stop]
        · rw [b5, List.length_cons]
          by_cases q : i + 1 < ds.length
          · rw [if_pos q, if_pos (Nat.succ_lt_succ q), Nat.add_assoc, Nat.add_comm 1]
          · rw [if_neg q, if_neg (fun z => q (Nat.lt_of_succ_lt_succ z))]
        · rw [b6]
          cases i with
          | zero => simp
          | succ i => simp [Nat.add_assoc, Nat.add_comm 1]
        · rw [b7]
          cases i with
          | zero => simp
          | succ i => simp [Nat.add_assoc, Nat.add_comm 1]
    · rw [if_neg (by simp), (dr.old w hw1).2.2.2.2.2.2.2.2 (Ne.symm hwn)]
      exact hl1
    · have := dr.keeps w (Ne.symm hwn) hw1 dl
      rw [(dr.old w hw1).2.2.2.2.2.2.2.2 (Ne.symm hwn)]
      exact this
    · intro v hv hvn hl
      have hvn' : v ≠ h.nE := by intro q; romega
      have s : k.subs v = h.subs v := (ho v hvn).subs
      have hk' : DoublyLinked k (k.subs v).vals := by
        rw [s]
        exact hl.congr (fun x hx => (ho x (al v x hx).2).fol) (fun x hx => (ho x (al v x hx).2).prev)
      have h1k := a1.linkedOthers v hv hk'
      have := dr.keeps v hvn' (by rw [hE]; romega) (by rw [a1.others v hv]; exact h1k)
      rw [a1.others v hv, s] at this
      exact this
    · intro x hx
      obtain ⟨o1, o2, o3, o4, o5, o6, o8, o9, o7⟩ := dr.old x (by rw [hE]; romega)
      have hxn : x ≠ h.nE := by intro q; romega
      have s := ho x hx
      have hl := a1.links x (by rw [hek]; simp [SL.empty]) hxn
      rw [o1, o2, o3, o4, o5, o6, o8, o9, hl.1, hl.2, fcls, fst, fsp, flb, a1.sup, a1.within, if_neg hxn, if_neg (by
        rw [hek]; simp [SL.empty, hxn])]
      refine ⟨s.cls, s.start, s.stop, s.label, s.sup, s.within, s.fol, s.prev, ?_⟩
      intro hxw
      rw [o7 hxn, a1.others x hxw, s.subs]

end ATG
