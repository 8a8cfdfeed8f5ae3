import Verif.Lemmas.Shift
import Verif.Model.Textgrid
import Verif.Spec.Basic
/-!
# C27, C28: shifting
-/
namespace ATG

/-! ## C27 `shift` -/

/-- Exactly the entries in `S` moved by `d`; nothing else differs. -/
structure ShiftedBy (S : Ref → Prop) (d : Time) (h h' : Heap) : Prop where
  moved : ∀ x, S x → h'.start x = h.start x + d ∧ h'.stop x = h.stop x + d
  kept : ∀ x, ¬ S x → h'.start x = h.start x ∧ h'.stop x = h.stop x
  rest : h' = { h with start := h'.start, stop := h'.stop }

/-- the result of a shift is determined -/
theorem ShiftedBy.unique {S d h h1 h2} (a : ShiftedBy S d h h1) (b : ShiftedBy S d h h2) : h1 = h2 := by
  have e1 : h1.start = h2.start := by
    funext x; by_cases hx : S x
    · rw [(a.moved x hx).1, (b.moved x hx).1]
    · rw [(a.kept x hx).1, (b.kept x hx).1]
  have e2 : h1.stop = h2.stop := by
    funext x; by_cases hx : S x
    · rw [(a.moved x hx).2, (b.moved x hx).2]
    · rw [(a.kept x hx).2, (b.kept x hx).2]
  rw [a.rest, b.rest, e1, e2]

theorem shiftOn_shifted (l : List Ref) (d : Time) (h : Heap) : ShiftedBy (· ∈ l) d h (shiftOn l d h) where
  moved x hx := by simp [shiftOn, hx]
  kept x hx := by simp [shiftOn, hx]
  rest := rfl

/-- the entries of a group's tiers -/
def groupEntries (h : Heap) (g : GRef) : List Ref := (h.gtiers g).flatMap fun t => (h.tseq t).vals
/-- the entries of all tiers of a textgrid -/
def atgEntries (h : Heap) (a : ARef) : List Ref := (h.agroups a).flatMap (groupEntries h)

/-- C27 for a tier, without any assumption (an entry occurring twice on the tier moves once). -/
theorem C27_tier (t : TRef) (d : Time) (h : Heap) :
    ∃ h', tierShift t d h = .ok () h' ∧ ShiftedBy (· ∈ (h.tseq t).vals) d h h' :=
  ⟨_, tierShift_ok t d h, shiftOn_shifted _ _ _⟩

theorem groupShift_ok (g : GRef) (d : Time) (h : Heap) (hn : (groupEntries h g).Nodup) :
    groupShift g d h = .ok () (shiftOn (groupEntries h g) d h) := by
  unfold groupShift
  mstep M.get_apply h
  exact forL_tierShift d (h.gtiers g) h hn

theorem atgShift_ok (a : ARef) (d : Time) (h : Heap) (hn : (atgEntries h a).Nodup) :
    atgShift a d h = .ok () (shiftOn (atgEntries h a) d h) := by
  unfold atgShift
  mstep M.get_apply h
  unfold atgEntries at *
  generalize h.agroups a = gs at *
  have key : ∀ (gs : List GRef) (k : Heap), k.gtiers = h.gtiers → k.tseq = h.tseq →
      (gs.flatMap (groupEntries h)).Nodup →
      M.forL gs (fun g => groupShift g d) k = .ok () (shiftOn (gs.flatMap (groupEntries h)) d k) := by
    intro gs
    induction gs with
    | nil => intro k _ _ _; simp [shiftOn_nil]
    | cons g gs ih =>
      intro k h1 h2 hn
      rw [List.flatMap_cons, List.nodup_append] at hn
      have e : groupEntries k g = groupEntries h g := by simp [groupEntries, h1, h2]
      rw [M.forL_cons, groupShift_ok g d k (by rw [e]; exact hn.1), e]
      simp only []
      rw [ih (shiftOn (groupEntries h g) d k) (by exact h1) (by exact h2) hn.2.1,
        shiftOn_append _ _ _ _ (fun y h1 h2 => hn.2.2 y h1 y h2 rfl), List.flatMap_cons]
  exact key gs h rfl rfl hn

/-- C27 for a tier group or points group whose entries are each on one tier: `shift(d)` moves every entry
    exactly once and changes nothing else. -/
theorem C27_group (g : GRef) (d : Time) (h : Heap) (hn : (groupEntries h g).Nodup) :
    ∃ h', groupShift g d h = .ok () h' ∧ ShiftedBy (· ∈ groupEntries h g) d h h' :=
  ⟨_, groupShift_ok g d h hn, shiftOn_shifted _ _ _⟩

/-- C27 for a textgrid. -/
theorem C27_textgrid (a : ARef) (d : Time) (h : Heap) (hn : (atgEntries h a).Nodup) :
    ∃ h', atgShift a d h = .ok () h' ∧ ShiftedBy (· ∈ atgEntries h a) d h h' :=
  ⟨_, atgShift_ok a d h hn, shiftOn_shifted _ _ _⟩

/-- C27: shifting by `a` and then by `b` is shifting by `a + b`. -/
theorem C27_compose (g : ARef) (a b : Time) (h h1 : Heap) (hn : (atgEntries h g).Nodup)
    (e : atgShift g a h = .ok () h1) : atgShift g b h1 = atgShift g (a + b) h := by
  rw [atgShift_ok g a h hn] at e
  injection e with _ e
  subst e
  rw [atgShift_ok g b (shiftOn (atgEntries h g) a h) (by exact hn), atgShift_ok g (a + b) h hn]
  show Res.ok () (shiftOn (atgEntries h g) b _) = _
  rw [shiftOn_add]

/-- C27: shifting by `d` and then by `-d` restores the textgrid. -/
theorem C27_inverse (g : ARef) (d : Time) (h h1 : Heap) (hn : (atgEntries h g).Nodup)
    (e : atgShift g d h = .ok () h1) : atgShift g (-d) h1 = .ok () h := by
  rw [C27_compose g d (-d) h h1 hn e, atgShift_ok g (d + -d) h hn,
    show d + -d = 0 by grind, shiftOn_zero]

/-- C27: durations, order and overlap within what is shifted stay as they are. -/
theorem C27_preserves (S : Ref → Prop) (d : Time) (h h' : Heap) (hs : ShiftedBy S d h h') :
    (∀ x, h'.stop x - h'.start x = h.stop x - h.start x) ∧
    (∀ x y, S x → S y → (h'.start x ≤ h'.start y ↔ h.start x ≤ h.start y)) ∧
    (∀ x y, S x → S y → (Overlap (h'.start x, h'.stop x) (h'.start y, h'.stop y) ↔
      Overlap (h.start x, h.stop x) (h.start y, h.stop y))) ∧
    ∀ l, (∀ x ∈ l, S x) → (SortedByStart h' l ↔ SortedByStart h l) := by
  have hord : ∀ x y, S x → S y → (h'.start x ≤ h'.start y ↔ h.start x ≤ h.start y) := by
    intro x y hx hy; rw [(hs.moved x hx).1, (hs.moved y hy).1]; grind
  refine ⟨?_, hord, ?_, ?_⟩
  · intro x
    by_cases hx : S x
    · rw [(hs.moved x hx).1, (hs.moved x hx).2]; grind
    · rw [(hs.kept x hx).1, (hs.kept x hx).2]
  · intro x y hx hy
    unfold Overlap
    simp only []
    rw [(hs.moved x hx).1, (hs.moved y hy).1, (hs.moved x hx).2, (hs.moved y hy).2]; grind
  · intro l hl
    unfold SortedByStart
    constructor
    · intro hp; exact List.Pairwise.imp_of_mem (fun ha hb hab => (hord _ _ (hl _ ha) (hl _ hb)).mp hab) hp
    · intro hp; exact List.Pairwise.imp_of_mem (fun ha hb hab => (hord _ _ (hl _ ha) (hl _ hb)).mpr hab) hp

/-- A textgrid with words, phones and a point tier. -/
def exGrid : Heap := run0 (do
  let _ ← newAtg [("words", [(0, 2, "a"), (2, 5, "b")]),
    ("phones", [(0, 1, "p"), (1, 2, "q"), (2, 5, "r")])] (.flat [cWord, cPhone]))
example : (atgEntries exGrid 0).Nodup ∧ (atgEntries exGrid 0).length = 5 ∧
    ((atgEntries (atgShift 0 3 exGrid).heap 0).map (atgShift 0 3 exGrid).heap.start) = [3, 5, 3, 4, 5] := by
  decide +kernel

/-- An entry on two tiers of a group moves twice, so the assumption of `C27_group` is needed. -/
theorem C27_shared_entry : ∃ h : Heap, (groupShift 0 1 h).heap.start 0 = h.start 0 + 2 := by
  refine ⟨run0 (do
    let w ← newEntry cWord 0 2 "a"
    let t ← newTier [w] (some cWord)
    let u ← newTier [w] (some cWord)
    let g ← newPointsGroup [t, u]
    pure ()), ?_⟩
  decide +kernel

/-! ## C28 the shift of an interval -/

/-- C28: in a forest (no cycles: `rank`; one superset each; no repetition) `x._shift(d)` moves exactly `x`
    and everything below it, by `d`, once, whatever larger recursion budget is allowed. -/
theorem C28_interval (rank : Ref → Nat) (n : Nat) (x : Ref) (d : Time) (h : Heap)
    (hr : ∀ x, ∀ y ∈ (h.subs x).vals, rank y < rank x)
    (ho : ∀ v w x, x ∈ (h.subs v).vals → x ∈ (h.subs w).vals → v = w)
    (hn : ∀ w, (h.subs w).vals.Nodup) (hx : rank x < n) :
    ∃ h', ivalShiftN n x d h = .ok () h' ∧ ShiftedBy (Desc h x) d h h' := by
  obtain ⟨n, rfl⟩ : ∃ k, n = k + 1 := ⟨n - 1, by omega⟩
  have hx' : rank x ≤ n := by omega
  refine ⟨_, ivalShiftN_ok d rank n x h hr hx' (subtree_nodup h rank hr ho hn n x hx'), ?_⟩
  have hm := mem_subtree h rank hr n
  have := shiftOn_shifted (subtree h n x) d h
  exact ⟨fun y hy => this.moved y ((hm x y hx').mpr hy), fun y hy => this.kept y (fun k => hy ((hm x y hx').mp k)),
    this.rest⟩

/-- A three-level hierarchy; the middle interval and its subset move, the rest stays. -/
def exTree : Heap := run0 (do
  let cs ← liftC fun ct => customClasses ct ["A", "B", "C"] []
  let a ← newEntry (cs[0]?.getD 0) 0 4 "a"
  let b ← newEntry (cs[1]?.getD 0) 0 2 "b"
  let b' ← newEntry (cs[1]?.getD 0) 2 4 "b'"
  let c ← newEntry (cs[2]?.getD 0) 0 1 "c"
  setSubs a [b, b']
  setSubs b [c])
example : (∀ x < 4, ∀ y ∈ (exTree.subs x).vals, 4 - y < 4 - x) ∧ (exTree.subs 0).vals = [1, 2] ∧
    (exTree.subs 1).vals = [3] ∧
    ([0, 1, 2, 3].map (ivalShiftN 5 1 10 exTree).heap.start) = [0, 10, 2, 10] ∧
    ([0, 1, 2, 3].map (ivalShiftN 5 0 10 exTree).heap.stop) = [14, 12, 14, 11] := by decide +kernel

end ATG
