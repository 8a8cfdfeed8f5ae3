import Verif.Model.Polar
import Verif.Props.Queries
/-!
# C50: levels and turning points
-/
namespace ATG

/-- `y` is the point of the tier nearest to `x`, the first one if there are several -/
def Near (h : Heap) (t : TRef) (x y : Ref) : Prop :=
  ∃ i : Nat, (h.tseq t).vals[i]? = some y ∧
    (∀ z ∈ (h.tseq t).vals, dist (h.start y) (h.start x) ≤ dist (h.start z) (h.start x)) ∧
    ∀ (j : Nat) (z : Ref), j < i → (h.tseq t).vals[j]? = some z →
      dist (h.start y) (h.start x) < dist (h.start z) (h.start x)

/-- the times agree up to a hundred-thousandth of the second one -/
def Close (h : Heap) (x y : Ref) : Prop :=
  dist (h.start x) (h.start y) ≤ 1 / 100000000 + 1 / 100000 * max (h.start y) (-h.start y)

theorem close_iff (h : Heap) (x y : Ref) : allclose (h.start x) (h.start y) = true ↔ Close h x y := by
  unfold allclose Close
  rw [decide_eq_true_iff, tabs_sub]
  have : tabs (h.start y) = max (h.start y) (-h.start y) := by unfold tabs; split <;> grind
  rw [this]

theorem nearestPoint_iff (h : Heap) (t : TRef) (x y : Ref) : nearestPoint h t x = some y ↔ Near h t x y := by
  have key := (C42_nearest ((h.tseq t).vals.map h.start) (h.start x)).1
  unfold nearestPoint
  constructor
  · intro e
    split at e
    · cases e
    · rename_i i hi
      obtain ⟨a, ha, h1, h2⟩ := (key i).mp hi
      rw [List.getElem?_map, e] at ha
      simp only [Option.map_some, Option.some.injEq] at ha
      subst ha
      refine ⟨i, e, fun z hz => h1 _ (List.mem_map.mpr ⟨z, hz, rfl⟩), fun j z hj hz => ?_⟩
      exact h2 j _ hj (by rw [List.getElem?_map, hz]; rfl)
  · rintro ⟨i, hi, h1, h2⟩
    have : nearest ((h.tseq t).vals.map h.start) (h.start x) = some i := by
      rw [key]
      refine ⟨h.start y, by rw [List.getElem?_map, hi]; rfl, ?_, ?_⟩
      · intro v hv
        obtain ⟨z, hz, rfl⟩ := List.mem_map.mp hv
        exact h1 z hz
      · intro j v hj hv
        rw [List.getElem?_map] at hv
        obtain ⟨z, hz, rfl⟩ := Option.map_eq_some_iff.mp hv
        exact h2 j z hj hz
    rw [this]; exact hi

theorem nearestPoint_none (h : Heap) (t : TRef) (x : Ref) :
    nearestPoint h t x = none ↔ (h.tseq t).vals = [] := by
  have key := C42_nearest ((h.tseq t).vals.map h.start) (h.start x)
  constructor
  · intro e
    by_cases hv : (h.tseq t).vals = []
    · exact hv
    · exfalso
      cases hn : nearest ((h.tseq t).vals.map h.start) (h.start x) with
      | none => rw [key.2] at hn; exact hv (List.map_eq_nil_iff.mp hn)
      | some i =>
        obtain ⟨a, ha, -⟩ := (key.1 i).mp hn
        rw [List.getElem?_map] at ha
        obtain ⟨z, hz, -⟩ := Option.map_eq_some_iff.mp ha
        simp [nearestPoint, hn, hz] at e
  · intro e; simp [nearestPoint, e, nearest]

/-- A tier `tl` of `Levels` and a tier `tt` of `TurningPoints`; `side true` is the first. -/
structure PolarTiers (h : Heap) (cl ct : CRef) (side : Bool → TRef) : Prop where
  classes : ∀ b, ∀ x ∈ (h.tseq (side b)).vals, h.ct.isSub (h.cls x) (if b then cl else ct) = true
  tiers : ∀ b, ∀ x ∈ (h.tseq (side b)).vals, h.intier x = some (side b)
  points : ∀ b, h.ct.isSub (h.tcls (side b)) cPoint = true

/-- everything that is set is the nearest point of the other tier and close to it -/
def SoundLinks (h : Heap) (side : Bool → TRef) (link : Ref → Option Ref) : Prop :=
  ∀ x y, link x = some y → ∃ b, x ∈ (h.tseq (side b)).vals ∧ Near h (side (!b)) x y ∧ Close h x y

theorem Near.mem {h : Heap} {t : TRef} {x y : Ref} (n : Near h t x y) : y ∈ (h.tseq t).vals := by
  obtain ⟨i, hi, -⟩ := n
  exact List.mem_of_getElem? hi

theorem Near.unique {h : Heap} {t : TRef} {x y z : Ref} (n : Near h t x y) (m : Near h t x z) : y = z := by
  rw [← nearestPoint_iff] at n m
  rw [n] at m; exact Option.some.inj m

theorem PolarTiers.same {h : Heap} {cl ct : CRef} {side : Bool → TRef} (p : PolarTiers h cl ct side) {x : Ref}
    {b c : Bool} (hb : x ∈ (h.tseq (side b)).vals) (hc : x ∈ (h.tseq (side c)).vals) :
    side (!b) = side (!c) := by
  have : side b = side c := Option.some.inj ((p.tiers b x hb).symm.trans (p.tiers c x hc))
  cases b <;> cases c <;> simp_all

/-- the entries of both tiers without a link -/
def unlinked (link : Ref → Option Ref) (l : List Ref) : Nat := l.countP fun z => (link z).isNone

theorem unlinked_le (link : Ref → Option Ref) (x y : Ref) (l : List Ref) :
    unlinked (upd link x (some y)) l ≤ unlinked link l := by
  unfold unlinked
  refine List.countP_mono_left ?_
  intro z _ hz
  by_cases e : z = x
  · subst e; simp at hz
  · rwa [upd_ne _ _ _ _ e] at hz

theorem unlinked_lt (link : Ref → Option Ref) (x y : Ref) (hx : link x = none) (l : List Ref) (hm : x ∈ l) :
    unlinked (upd link x (some y)) l < unlinked link l := by
  induction l with
  | nil => cases hm
  | cons a l ih =>
    have hle := unlinked_le link x y l
    unfold unlinked at hle ih ⊢
    rw [List.countP_cons, List.countP_cons]
    by_cases e : a = x
    · subst e
      simp only [upd_same, hx, Option.isNone_some, Option.isNone_none, Bool.false_eq_true, if_false, if_true]
      omega
    · rw [upd_ne _ _ _ _ e]
      have := ih (by rcases List.mem_cons.mp hm with r | r; exact absurd r.symm e; exact r)
      omega

theorem relatePointN_ok (h : Heap) (cl ct : CRef) (side : Bool → TRef) (p : PolarTiers h cl ct side) :
    ∀ (k : Nat) (b : Bool) (x : Ref) (link : Ref → Option Ref), x ∈ (h.tseq (side b)).vals →
      (h.tseq (side (!b))).vals ≠ [] → SoundLinks h side link →
      unlinked link ((h.tseq (side true)).vals ++ (h.tseq (side false)).vals) < k →
      ∃ link', relatePointN h cl ct k b x (some (side (!b))) link = .ok link' ∧ SoundLinks h side link' ∧
        (∀ z w, link z = some w → link' z = some w) ∧
        (∀ y, Near h (side (!b)) x y → Close h x y → link' x = some y) ∧
        (∀ z w, link' z = some w → link z = some w ∨
          ∀ c v, z ∈ (h.tseq (side c)).vals → Near h (side c) w v → Close h w v → link' w = some v) := by
  intro k
  induction k with
  | zero => intro b x link _ _ _ hk; omega
  | succ k ih =>
    intro b x link hx hne hs hk
    cases hn : nearestPoint h (side (!b)) x with
    | none => exact absurd ((nearestPoint_none _ _ _).mp hn) hne
    | some y =>
      have hy := (nearestPoint_iff _ _ _ _).mp hn
      have hrun : relatePointN h cl ct (k + 1) b x (some (side (!b))) link =
          if link x = some y then .ok link
          else if allclose (h.start x) (h.start y) then
            relatePointN h cl ct k (!b) y (some (side b)) (upd link x (some y))
          else .ok link := by
        rw [relatePointN, if_pos (p.classes b x hx)]
        simp only [if_pos (p.points (!b)), hn, p.tiers b x hx]
      rw [hrun]
      by_cases hl : link x = some y
      · refine ⟨link, if_pos hl, hs, fun _ _ e => e, ?_, fun _ _ e => .inl e⟩
        intro y' hy' _
        rw [hl, hy.unique hy']
      rw [if_neg hl]
      by_cases hc : allclose (h.start x) (h.start y) = true
      · rw [if_pos hc]
        have hcl := (close_iff h x y).mp hc
        have hnone : link x = none := by
          cases e : link x with
          | none => rfl
          | some y' =>
            obtain ⟨c, hxc, hyc, -⟩ := hs x y' e
            rw [← p.same hx hxc] at hyc
            rw [e, hy.unique hyc] at hl
            exact absurd rfl hl
        have hmem : x ∈ (h.tseq (side true)).vals ++ (h.tseq (side false)).vals := by
          cases b <;> simp [hx]
        have hlt := unlinked_lt link x y hnone _ hmem
        have hs1 : SoundLinks h side (upd link x (some y)) := by
          intro z w e
          by_cases hz : z = x
          · subst hz
            rw [upd_same] at e
            cases e
            exact ⟨b, hx, hy, hcl⟩
          · rw [upd_ne _ _ _ _ hz] at e
            exact hs z w e
        have := ih (!b) y (upd link x (some y)) hy.mem
          (by rw [Bool.not_not]; exact List.ne_nil_of_mem hx) hs1 (by omega)
        rw [Bool.not_not] at this
        obtain ⟨link', hr, hs', hmono, hnear, hnew⟩ := this
        refine ⟨link', hr, hs', ?_, ?_, ?_⟩
        · intro z w e
          refine hmono z w ?_
          by_cases hz : z = x
          · subst hz; rw [hnone] at e; cases e
          · rw [upd_ne _ _ _ _ hz]; exact e
        · intro y' hy' _
          rw [← hy.unique hy']
          exact hmono x y (upd_same _ _ _)
        · intro z w e
          rcases hnew z w e with h1 | h1
          · by_cases hz : z = x
            · subst hz
              rw [upd_same] at h1
              cases h1
              right
              intro c v hzc hv hcv
              have hbc : side b = side c :=
                Option.some.inj ((p.tiers b z hx).symm.trans (p.tiers c z hzc))
              rw [← hbc] at hv
              exact hnear v hv hcv
            · left; rwa [upd_ne _ _ _ _ hz] at h1
          · exact .inr h1
      · refine ⟨link, if_neg hc, hs, fun _ _ e => e, ?_, fun _ _ e => .inl e⟩
        intro y' hy' hcl
        rw [← hy.unique hy'] at hcl
        exact absurd ((close_iff h x y).mpr hcl) hc

theorem relatePoints_ok (h : Heap) (cl ct : CRef) (side : Bool → TRef) (p : PolarTiers h cl ct side)
    (hne : (h.tseq (side false)).vals ≠ []) (k : Nat)
    (hk : (h.tseq (side true)).vals.length + (h.tseq (side false)).vals.length < k) :
    ∀ (l : List Ref) (link : Ref → Option Ref), (∀ x ∈ l, x ∈ (h.tseq (side true)).vals) →
      SoundLinks h side link →
      ∃ link', relatePoints h cl ct k (side false) l link = .ok link' ∧ SoundLinks h side link' ∧
        (∀ z w, link z = some w → link' z = some w) ∧
        (∀ x ∈ l, ∀ y, Near h (side false) x y → Close h x y → link' x = some y) ∧
        (∀ z w, link' z = some w → link z = some w ∨
          ∀ c v, z ∈ (h.tseq (side c)).vals → Near h (side c) w v → Close h w v → link' w = some v) := by
  intro l
  induction l with
  | nil => intro link _ hs; exact ⟨link, rfl, hs, fun _ _ e => e, by simp, fun _ _ e => .inl e⟩
  | cons x xs ih =>
    intro link hl hs
    have hc : unlinked link ((h.tseq (side true)).vals ++ (h.tseq (side false)).vals) < k := by
      have := List.countP_le_length (p := fun z => (link z).isNone)
        (l := (h.tseq (side true)).vals ++ (h.tseq (side false)).vals)
      rw [List.length_append] at this
      unfold unlinked; omega
    obtain ⟨l1, hr1, hs1, m1, n1, c1⟩ := relatePointN_ok h cl ct side p k true x link (hl x (by simp)) hne hs hc
    obtain ⟨l2, hr2, hs2, m2, n2, c2⟩ := ih l1 (fun y hy => hl y (by simp [hy])) hs1
    refine ⟨l2, ?_, hs2, fun z w e => m2 z w (m1 z w e), ?_, ?_⟩
    · rw [relatePoints]
      rw [show relatePointN h cl ct k true x (some (side false)) link = .ok l1 from hr1]
      exact hr2
    · intro y hy z hz hcz
      rcases List.mem_cons.mp hy with rfl | hy
      · exact m2 _ _ (n1 z hz hcz)
      · exact n2 y hy z hz hcz
    · intro z w e
      rcases c2 z w e with e1 | e1
      · rcases c1 z w e1 with e2 | e2
        · exact .inl e2
        · right
          intro c v hz hv hcv
          exact m2 _ _ (e2 c v hz hv hcv)
      · exact .inr e1

/-- C50: relating a tier of levels with a non-empty tier of turning points ends, after at most as many
    nested calls as there are points.  A level's turning point is then the nearest point of the other
    tier, set exactly when it is close; a turning point's level, where set, is the nearest level and
    close; and a turning point that some level points to has its own nearest level set if that is
    close. -/
theorem C50_related (h : Heap) (cl ct : CRef) (tl tt : TRef)
    (p : PolarTiers h cl ct (fun b => if b then tl else tt)) (hne : (h.tseq tt).vals ≠ []) (k : Nat)
    (hk : (h.tseq tl).vals.length + (h.tseq tt).vals.length < k) :
    ∃ link, relatePoints h cl ct k tt (h.tseq tl).vals (fun _ => none) = .ok link ∧
      (∀ x ∈ (h.tseq tl).vals, ∀ y, link x = some y ↔ Near h tt x y ∧ Close h x y) ∧
      (∀ x ∈ (h.tseq tt).vals, ∀ y, link x = some y → Near h tl x y ∧ Close h x y) ∧
      (∀ x, x ∉ (h.tseq tl).vals → x ∉ (h.tseq tt).vals → link x = none) ∧
      (∀ x ∈ (h.tseq tl).vals, ∀ y z, link x = some y → Near h tl y z → Close h y z → link y = some z) := by
  obtain ⟨link, hr, hs, -, hn, hc⟩ := relatePoints_ok h cl ct _ p hne k hk (h.tseq tl).vals (fun _ => none)
    (fun _ hx => hx) (fun x y e => by cases e)
  refine ⟨link, hr, ?_, ?_, ?_, ?_⟩
  · intro x hx y
    constructor
    · intro e
      obtain ⟨b, hb, hy, hcl⟩ := hs x y e
      have := p.same (b := true) (c := b) hx hb
      simp only [] at hy; rw [← this] at hy
      exact ⟨hy, hcl⟩
    · rintro ⟨hy, hcl⟩
      exact hn x hx y hy hcl
  · intro x hx y e
    obtain ⟨b, hb, hy, hcl⟩ := hs x y e
    have := p.same (b := false) (c := b) hx hb
    simp only [] at hy; rw [← this] at hy
    exact ⟨hy, hcl⟩
  · intro x h1 h2
    cases e : link x with
    | none => rfl
    | some y =>
      obtain ⟨b, hb, -⟩ := hs x y e
      cases b
      · exact absurd hb h2
      · exact absurd hb h1
  · intro x hx y z e hz hcz
    rcases hc x y e with e1 | e1
    · cases e1
    · exact e1 true z hx hz hcz

/-- C50: with levels but without turning points the call raises a `ValueError`. -/
theorem C50_no_points (h : Heap) (cl ct : CRef) (k : Nat) (tt : TRef) (x : Ref) (xs : List Ref)
    (link : Ref → Option Ref) (hc : h.ct.isSub (h.cls x) cl = true) (hp : h.ct.isSub (h.tcls tt) cPoint = true)
    (he : (h.tseq tt).vals = []) :
    relatePoints h cl ct (k + 1) tt (x :: xs) link = .error .valueError := by
  rw [relatePoints, relatePointN]
  simp only [if_true, hc, hp, (nearestPoint_none h tt x).mpr he]

/-- two levels at (nearly) the same time and two turning points; class 4 stands for both classes -/
def exPolar : Heap := run0 (do
  let a ← newEntry cPoint 1 1 "1"
  let b ← newEntry cPoint (1 + 1/1000000) (1 + 1/1000000) "2"
  let _ ← newPointTier [a, b] cPoint "Levels"
  let c ← newEntry cPoint (1 + 1/1000000) (1 + 1/1000000) "0"
  let d ← newEntry cPoint 5 5 "0"
  let _ ← newPointTier [c, d] cPoint "TurningPoints"
  pure ())
example : PolarTiers exPolar cPoint cPoint (fun b => if b then 0 else 1) :=
  ⟨by decide +kernel, by decide +kernel, by decide +kernel⟩
example : (exPolar.tseq 1).vals ≠ [] := by decide +kernel

/-- C50: the relation is not mutual: two levels can have the same turning point, whose level is only one
    of them. -/
theorem C50_not_mutual : ∃ link,
    relatePoints exPolar cPoint cPoint 5 1 (exPolar.tseq 0).vals (fun _ => none) = .ok link ∧
      link 0 = some 2 ∧ link 2 = some 1 ∧ link 1 = some 2 ∧ link 3 = none := by
  have : ∃ l, ((match relatePoints exPolar cPoint cPoint 5 1 (exPolar.tseq 0).vals (fun _ => none) with
    | .ok link => some [link 0, link 1, link 2, link 3]
    | .error _ => none) = some l) ∧ l = [some 2, some 2, some 1, none] := ⟨_, by decide +kernel, rfl⟩
  obtain ⟨l, e, rfl⟩ := this
  split at e
  · rename_i link hl
    simp only [Option.some.injEq, List.cons.injEq] at e
    exact ⟨link, hl, e.1, e.2.2.1, e.2.1, e.2.2.2.1⟩
  · cases e

end ATG
