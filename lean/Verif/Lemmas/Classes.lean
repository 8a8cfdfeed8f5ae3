import Verif.Model.Classes
import Verif.Lemmas.SeqList
/-!
# Lemmas on class tables
-/
namespace ATG

/-- A class table as it arises by importing the package and running class operations. -/
structure WFC (ct : ClassTab) : Prop where
  base : 5 ≤ ct.next
  p0 : ct.parent 0 = none
  p1 : ct.parent 1 = some 0
  p2 : ct.parent 2 = some 0
  p3 : ct.parent 3 = some 0
  p4 : ct.parent 4 = none
  down : ∀ c p, c < ct.next → ct.parent c = some p → p < c
  supLt : ∀ c s, c < ct.next → ct.ownSup c = some (some s) → s < ct.next
  subLt : ∀ c s, c < ct.next → ct.ownSub c = some (some s) → s < ct.next

/-- `ct'` has more classes than `ct` and agrees on those of `ct`. -/
structure Ext (ct ct' : ClassTab) : Prop where
  le : ct.next ≤ ct'.next
  name : ∀ c < ct.next, ct'.name c = ct.name c
  parent : ∀ c < ct.next, ct'.parent c = ct.parent c
  ownSup : ∀ c < ct.next, ct'.ownSup c = ct.ownSup c
  ownSub : ∀ c < ct.next, ct'.ownSub c = ct.ownSub c

theorem Ext.refl (ct : ClassTab) : Ext ct ct :=
  ⟨Nat.le_refl _, fun _ _ => rfl, fun _ _ => rfl, fun _ _ => rfl, fun _ _ => rfl⟩

theorem Ext.trans {a b c : ClassTab} (h : Ext a b) (k : Ext b c) : Ext a c :=
  ⟨Nat.le_trans h.le k.le,
   fun x hx => (k.name x (Nat.lt_of_lt_of_le hx h.le)).trans (h.name x hx),
   fun x hx => (k.parent x (Nat.lt_of_lt_of_le hx h.le)).trans (h.parent x hx),
   fun x hx => (k.ownSup x (Nat.lt_of_lt_of_le hx h.le)).trans (h.ownSup x hx),
   fun x hx => (k.ownSub x (Nat.lt_of_lt_of_le hx h.le)).trans (h.ownSub x hx)⟩

/-! ## Lookup -/


theorem isSubN_fuel {ct : ClassTab} (w : WFC ct) (d : CRef) :
    ∀ (n m c : Nat), c ≤ n → c ≤ m → c < ct.next → ct.isSubN n c d = ct.isSubN m c d := by
  intro n
  induction n with
  | zero =>
    intro m c hc _ _
    have h0 : c = 0 := Nat.le_zero.1 hc
    subst h0
    cases m <;> simp [ClassTab.isSubN, w.p0]
  | succ n ih =>
    intro m c hc hm hl
    cases m with
    | zero =>
      have h0 : c = 0 := Nat.le_zero.1 hm
      subst h0
      simp [ClassTab.isSubN, w.p0]
    | succ m =>
      simp only [ClassTab.isSubN]
      cases hp : ct.parent c with
      | none => rfl
      | some p =>
        have hlt := w.down c p hl hp
        simp only []
        rw [ih m p (Nat.le_of_lt_succ (Nat.lt_of_lt_of_le hlt hc))
          (Nat.le_of_lt_succ (Nat.lt_of_lt_of_le hlt hm)) (Nat.lt_trans hlt hl)]

theorem getSupN_fuel {ct : ClassTab} (w : WFC ct) :
    ∀ (n m c : Nat), c ≤ n → c ≤ m → c < ct.next → ct.getSupN n c = ct.getSupN m c := by
  intro n
  induction n with
  | zero =>
    intro m c hc _ _
    have h0 : c = 0 := Nat.le_zero.1 hc
    subst h0
    cases m <;> simp [ClassTab.getSupN, w.p0]
    all_goals cases ct.ownSup 0 <;> rfl
  | succ n ih =>
    intro m c hc hm hl
    cases m with
    | zero =>
      have h0 : c = 0 := Nat.le_zero.1 hm
      subst h0
      simp [ClassTab.getSupN, w.p0]
      all_goals cases ct.ownSup 0 <;> rfl
    | succ m =>
      simp only [ClassTab.getSupN]
      cases hp : ct.parent c with
      | none => rfl
      | some p =>
        have hlt := w.down c p hl hp
        simp only []
        rw [ih m p (Nat.le_of_lt_succ (Nat.lt_of_lt_of_le hlt hc))
          (Nat.le_of_lt_succ (Nat.lt_of_lt_of_le hlt hm)) (Nat.lt_trans hlt hl)]

theorem getSubN_fuel {ct : ClassTab} (w : WFC ct) :
    ∀ (n m c : Nat), c ≤ n → c ≤ m → c < ct.next → ct.getSubN n c = ct.getSubN m c := by
  intro n
  induction n with
  | zero =>
    intro m c hc _ _
    have h0 : c = 0 := Nat.le_zero.1 hc
    subst h0
    cases m <;> simp [ClassTab.getSubN, w.p0]
    all_goals cases ct.ownSub 0 <;> rfl
  | succ n ih =>
    intro m c hc hm hl
    cases m with
    | zero =>
      have h0 : c = 0 := Nat.le_zero.1 hm
      subst h0
      simp [ClassTab.getSubN, w.p0]
      all_goals cases ct.ownSub 0 <;> rfl
    | succ m =>
      simp only [ClassTab.getSubN]
      cases hp : ct.parent c with
      | none => rfl
      | some p =>
        have hlt := w.down c p hl hp
        simp only []
        rw [ih m p (Nat.le_of_lt_succ (Nat.lt_of_lt_of_le hlt hc))
          (Nat.le_of_lt_succ (Nat.lt_of_lt_of_le hlt hm)) (Nat.lt_trans hlt hl)]

theorem isSubN_ext {ct ct' : ClassTab} (w : WFC ct) (e : Ext ct ct') (d : CRef) :
    ∀ (n c : Nat), c < ct.next → ct'.isSubN n c d = ct.isSubN n c d := by
  intro n
  induction n with
  | zero => intro c hl; simp [ClassTab.isSubN]
  | succ n ih =>
    intro c hl
    simp only [ClassTab.isSubN, e.parent c hl]
    cases hp : ct.parent c with
    | none => rfl
    | some p => simp only []; rw [ih p (Nat.lt_trans (w.down c p hl hp) hl)]

theorem getSupN_ext {ct ct' : ClassTab} (w : WFC ct) (e : Ext ct ct') :
    ∀ (n c : Nat), c < ct.next → ct'.getSupN n c = ct.getSupN n c := by
  intro n
  induction n with
  | zero => intro c hl; simp [ClassTab.getSupN, e.ownSup c hl]
  | succ n ih =>
    intro c hl
    simp only [ClassTab.getSupN, e.parent c hl, e.ownSup c hl]
    cases hp : ct.parent c with
    | none => rfl
    | some p => simp only []; rw [ih p (Nat.lt_trans (w.down c p hl hp) hl)]

theorem getSubN_ext {ct ct' : ClassTab} (w : WFC ct) (e : Ext ct ct') :
    ∀ (n c : Nat), c < ct.next → ct'.getSubN n c = ct.getSubN n c := by
  intro n
  induction n with
  | zero => intro c hl; simp [ClassTab.getSubN, e.ownSub c hl]
  | succ n ih =>
    intro c hl
    simp only [ClassTab.getSubN, e.parent c hl, e.ownSub c hl]
    cases hp : ct.parent c with
    | none => rfl
    | some p => simp only []; rw [ih p (Nat.lt_trans (w.down c p hl hp) hl)]

theorem isSub_ext {ct ct' : ClassTab} (w : WFC ct) (e : Ext ct ct') (c d : CRef) (h : c < ct.next) :
    ct'.isSub c d = ct.isSub c d := isSubN_ext w e d c c h
theorem sup_ext {ct ct' : ClassTab} (w : WFC ct) (e : Ext ct ct') (c : CRef) (h : c < ct.next) :
    ct'.sup c = ct.sup c := getSupN_ext w e c c h
theorem sub_ext {ct ct' : ClassTab} (w : WFC ct) (e : Ext ct ct') (c : CRef) (h : c < ct.next) :
    ct'.sub c = ct.sub c := getSubN_ext w e c c h

theorem sup_own {ct : ClassTab} {c : CRef} {v : Option CRef} (h : ct.ownSup c = some v) :
    ct.sup c = v := by
  unfold ClassTab.sup; cases c <;> simp [ClassTab.getSupN, h]
theorem sub_own {ct : ClassTab} {c : CRef} {v : Option CRef} (h : ct.ownSub c = some v) :
    ct.sub c = v := by
  unfold ClassTab.sub; cases c <;> simp [ClassTab.getSubN, h]

theorem isSub_parent {ct : ClassTab} (w : WFC ct) {c p : CRef} (d : CRef) (hl : c < ct.next)
    (hp : ct.parent c = some p) : ct.isSub c d = (c == d || ct.isSub p d) := by
  have hlt := w.down c p hl hp
  unfold ClassTab.isSub
  cases c with
  | zero => exact absurd hlt (Nat.not_lt_zero _)
  | succ n =>
    simp only [ClassTab.isSubN, hp]
    rw [isSubN_fuel w d n p p (Nat.le_of_lt_succ hlt) (Nat.le_refl _) (Nat.lt_trans hlt hl)]
theorem sup_parent {ct : ClassTab} (w : WFC ct) {c p : CRef} (hl : c < ct.next)
    (hp : ct.parent c = some p) (ho : ct.ownSup c = none) : ct.sup c = ct.sup p := by
  have hlt := w.down c p hl hp
  unfold ClassTab.sup
  cases c with
  | zero => exact absurd hlt (Nat.not_lt_zero _)
  | succ n =>
    simp only [ClassTab.getSupN, hp, ho]
    rw [getSupN_fuel w n p p (Nat.le_of_lt_succ hlt) (Nat.le_refl _) (Nat.lt_trans hlt hl)]
theorem sub_parent {ct : ClassTab} (w : WFC ct) {c p : CRef} (hl : c < ct.next)
    (hp : ct.parent c = some p) (ho : ct.ownSub c = none) : ct.sub c = ct.sub p := by
  have hlt := w.down c p hl hp
  unfold ClassTab.sub
  cases c with
  | zero => exact absurd hlt (Nat.not_lt_zero _)
  | succ n =>
    simp only [ClassTab.getSubN, hp, ho]
    rw [getSubN_fuel w n p p (Nat.le_of_lt_succ hlt) (Nat.le_refl _) (Nat.lt_trans hlt hl)]

theorem sup_lt {ct : ClassTab} (w : WFC ct) : ∀ (n : Nat) (c s : CRef), c ≤ n → c < ct.next →
    ct.sup c = some s → s < ct.next := by
  intro n
  induction n with
  | zero =>
    intro c s hc hl h
    have h0 : c = 0 := Nat.le_zero.1 hc
    subst h0
    cases ho : ct.ownSup 0 with
    | none => simp [ClassTab.sup, ClassTab.getSupN, ho] at h
    | some v => rw [sup_own ho] at h; subst h; exact w.supLt 0 s hl ho
  | succ n ih =>
    intro c s hc hl h
    cases ho : ct.ownSup c with
    | some v => rw [sup_own ho] at h; subst h; exact w.supLt c s hl ho
    | none =>
      cases hp : ct.parent c with
      | none =>
        unfold ClassTab.sup at h
        cases c <;> simp [ClassTab.getSupN, ho, hp] at h
      | some p =>
        have hlt := w.down c p hl hp
        rw [sup_parent w hl hp ho] at h
        exact ih p s (Nat.le_of_lt_succ (Nat.lt_of_lt_of_le hlt hc)) (Nat.lt_trans hlt hl) h
theorem sub_lt {ct : ClassTab} (w : WFC ct) : ∀ (n : Nat) (c s : CRef), c ≤ n → c < ct.next →
    ct.sub c = some s → s < ct.next := by
  intro n
  induction n with
  | zero =>
    intro c s hc hl h
    have h0 : c = 0 := Nat.le_zero.1 hc
    subst h0
    cases ho : ct.ownSub 0 with
    | none => simp [ClassTab.sub, ClassTab.getSubN, ho] at h
    | some v => rw [sub_own ho] at h; subst h; exact w.subLt 0 s hl ho
  | succ n ih =>
    intro c s hc hl h
    cases ho : ct.ownSub c with
    | some v => rw [sub_own ho] at h; subst h; exact w.subLt c s hl ho
    | none =>
      cases hp : ct.parent c with
      | none =>
        unfold ClassTab.sub at h
        cases c <;> simp [ClassTab.getSubN, ho, hp] at h
      | some p =>
        have hlt := w.down c p hl hp
        rw [sub_parent w hl hp ho] at h
        exact ih p s (Nat.le_of_lt_succ (Nat.lt_of_lt_of_le hlt hc)) (Nat.lt_trans hlt hl) h

/-- Lookups only depend on the own attributes and the parents. -/
theorem isSubN_congr {ct ct' : ClassTab} (hp : ct'.parent = ct.parent) (n : Nat) (c d : CRef) :
    ct'.isSubN n c d = ct.isSubN n c d := by
  induction n generalizing c with
  | zero => rfl
  | succ n ih =>
    simp only [ClassTab.isSubN, hp]
    cases ct.parent c with
    | none => rfl
    | some p => simp only []; rw [ih]
theorem isSub_congr {ct ct' : ClassTab} (hp : ct'.parent = ct.parent) (c d : CRef) :
    ct'.isSub c d = ct.isSub c d := isSubN_congr hp c c d
theorem getSupN_congr {ct ct' : ClassTab} (hp : ct'.parent = ct.parent)
    (ho : ct'.ownSup = ct.ownSup) (n : Nat) (c : CRef) : ct'.getSupN n c = ct.getSupN n c := by
  induction n generalizing c with
  | zero => simp [ClassTab.getSupN, ho]
  | succ n ih =>
    simp only [ClassTab.getSupN, hp, ho]
    cases ct.parent c with
    | none => rfl
    | some p => simp only []; rw [ih]
theorem getSubN_congr {ct ct' : ClassTab} (hp : ct'.parent = ct.parent)
    (ho : ct'.ownSub = ct.ownSub) (n : Nat) (c : CRef) : ct'.getSubN n c = ct.getSubN n c := by
  induction n generalizing c with
  | zero => simp [ClassTab.getSubN, ho]
  | succ n ih =>
    simp only [ClassTab.getSubN, hp, ho]
    cases ct.parent c with
    | none => rfl
    | some p => simp only []; rw [ih]

@[simp] theorem sub_putSup (ct : ClassTab) (c x : CRef) (v : Option CRef) :
    (ct.putSup c v).sub x = ct.sub x :=
  getSubN_congr (ct := ct) (ct' := ct.putSup c v) rfl rfl x x
@[simp] theorem sup_putSub (ct : ClassTab) (c x : CRef) (v : Option CRef) :
    (ct.putSub c v).sup x = ct.sup x :=
  getSupN_congr (ct := ct) (ct' := ct.putSub c v) rfl rfl x x
@[simp] theorem isSub_putSup (ct : ClassTab) (c x d : CRef) (v : Option CRef) :
    (ct.putSup c v).isSub x d = ct.isSub x d :=
  isSub_congr (ct := ct) (ct' := ct.putSup c v) rfl x d
@[simp] theorem isSub_putSub (ct : ClassTab) (c x d : CRef) (v : Option CRef) :
    (ct.putSub c v).isSub x d = ct.isSub x d :=
  isSub_congr (ct := ct) (ct' := ct.putSub c v) rfl x d
@[simp] theorem sup_putSup_same (ct : ClassTab) (c : CRef) (v : Option CRef) :
    (ct.putSup c v).sup c = v := sup_own (by simp [ClassTab.putSup])
@[simp] theorem sub_putSub_same (ct : ClassTab) (c : CRef) (v : Option CRef) :
    (ct.putSub c v).sub c = v := sub_own (by simp [ClassTab.putSub])

/-! ## Linking two classes -/

/-- `set_superset_class` on a class that the new superset does not already have as its subset. -/
theorem setSupClass_new {ct : ClassTab} {c s : CRef} (hn : hasSubstr "Top" (ct.name c) = false)
    (hm : hasSubstr "Bottom" (ct.name s) = false) (hs : ct.isSub s cHierarchyPart = true)
    (hc : ct.isSub c cHierarchyPart = true) (hne : s ≠ c) (hsub : ct.sub s ≠ some c) :
    setSupClass ct c (some s) = ((ct.putSup c (some s)).putSub s (some c), .ok ()) := by
  have hne' : c ≠ s := fun h => hne h.symm
  have hm' : hasSubstr "Bottom" ((ct.putSup c (some s)).name s) = false := hm
  simp [setSupClass, classFuel, setSupClassN, setSubClassN, hn, hm', hs, hc, hne, hne', hsub]

/-- `set_superset_class` when the new superset already has the class as its subset. -/
theorem setSupClass_old {ct : ClassTab} {c s : CRef} (hn : hasSubstr "Top" (ct.name c) = false)
    (hs : ct.isSub s cHierarchyPart = true) (hne : s ≠ c) (hsub : ct.sub s = some c) :
    setSupClass ct c (some s) = (ct.putSup c (some s), .ok ()) := by
  simp [setSupClass, classFuel, setSupClassN, hn, hs, hne, hsub]

/-- `set_subset_class` on a class that the new subset does not already have as its superset. -/
theorem setSubClass_new {ct : ClassTab} {c s : CRef} (hn : hasSubstr "Bottom" (ct.name c) = false)
    (hm : hasSubstr "Top" (ct.name s) = false) (hs : ct.isSub s cHierarchyPart = true)
    (hc : ct.isSub c cHierarchyPart = true) (hne : s ≠ c) (hsup : ct.sup s ≠ some c) :
    setSubClass ct c (some s) = ((ct.putSub c (some s)).putSup s (some c), .ok ()) := by
  have hne' : c ≠ s := fun h => hne h.symm
  have hm' : hasSubstr "Top" ((ct.putSub c (some s)).name s) = false := hm
  simp [setSubClass, classFuel, setSupClassN, setSubClassN, hn, hm', hs, hc, hne, hne', hsup]

/-- `set_subset_class` when the new subset already has the class as its superset. -/
theorem setSubClass_old {ct : ClassTab} {c s : CRef} (hn : hasSubstr "Bottom" (ct.name c) = false)
    (hs : ct.isSub s cHierarchyPart = true) (hne : s ≠ c) (hsup : ct.sup s = some c) :
    setSubClass ct c (some s) = (ct.putSub c (some s), .ok ()) := by
  simp [setSubClass, classFuel, setSubClassN, hn, hs, hne, hsup]

theorem wfc_putSup {ct : ClassTab} (w : WFC ct) (c s : CRef) (h : s < ct.next) :
    WFC (ct.putSup c (some s)) :=
  ⟨w.base, w.p0, w.p1, w.p2, w.p3, w.p4, w.down,
   fun x y hx hy => by
     by_cases he : x = c
     · subst he
       have : s = y := by simpa [ClassTab.putSup] using hy
       exact this ▸ h
     · exact w.supLt x y hx (by simpa [ClassTab.putSup, upd, he] using hy),
   w.subLt⟩
theorem wfc_putSub {ct : ClassTab} (w : WFC ct) (c s : CRef) (h : s < ct.next) :
    WFC (ct.putSub c (some s)) :=
  ⟨w.base, w.p0, w.p1, w.p2, w.p3, w.p4, w.down, w.supLt,
   fun x y hx hy => by
     by_cases he : x = c
     · subst he
       have : s = y := by simpa [ClassTab.putSub] using hy
       exact this ▸ h
     · exact w.subLt x y hx (by simpa [ClassTab.putSub, upd, he] using hy)⟩

theorem ext_putSup {a ct : ClassTab} (e : Ext a ct) {c : CRef} (v : Option CRef) (h : a.next ≤ c) :
    Ext a (ct.putSup c v) :=
  ⟨e.le, e.name, e.parent,
   fun x hx => by
     have : x ≠ c := Nat.ne_of_lt (Nat.lt_of_lt_of_le hx h)
     simpa [ClassTab.putSup, upd, this] using e.ownSup x hx, e.ownSub⟩
theorem ext_putSub {a ct : ClassTab} (e : Ext a ct) {c : CRef} (v : Option CRef) (h : a.next ≤ c) :
    Ext a (ct.putSub c v) :=
  ⟨e.le, e.name, e.parent, e.ownSup,
   fun x hx => by
     have : x ≠ c := Nat.ne_of_lt (Nat.lt_of_lt_of_le hx h)
     simpa [ClassTab.putSub, upd, this] using e.ownSub x hx⟩

/-! ## New classes -/

/-- A class added to the table, with given own attributes. -/
def addClass (ct : ClassTab) (nm : String) (b : CRef) (u v : Option (Option CRef)) : ClassTab :=
  { ct with
      next := ct.next + 1
      name := upd ct.name ct.next nm
      parent := upd ct.parent ct.next (some b)
      ownSup := upd ct.ownSup ct.next u
      ownSub := upd ct.ownSub ct.next v }

theorem newClass_eq (ct : ClassTab) (nm : String) (b : CRef) :
    newClass ct nm b = (addClass ct nm b none none, ct.next) := Eq.trans rfl rfl
theorem copyClass_eq (ct : ClassTab) (nm : String) (b : CRef) :
    copyClass ct nm b = (addClass ct nm b (ct.ownSup b) (ct.ownSub b), ct.next) := Eq.trans rfl rfl

theorem ext_addClass (ct : ClassTab) (nm : String) (b : CRef) (u v : Option (Option CRef)) :
    Ext ct (addClass ct nm b u v) := by
  refine ⟨Nat.le_succ _, ?_, ?_, ?_, ?_⟩ <;>
    (intro c hc; have : c ≠ ct.next := Nat.ne_of_lt hc; simp [addClass, upd, this])

theorem wfc_addClass {ct : ClassTab} (w : WFC ct) (nm : String) {b : CRef} (hb : b < ct.next)
    {u v : Option (Option CRef)} (hu : ∀ s, u = some (some s) → s < ct.next)
    (hv : ∀ s, v = some (some s) → s < ct.next) : WFC (addClass ct nm b u v) := by
  have hbase := w.base
  have key : ∀ (k : Nat), k < 5 → (addClass ct nm b u v).parent k = ct.parent k := by
    intro k hk
    have : k ≠ ct.next := by omega
    simp [addClass, upd, this]
  refine ⟨Nat.le_succ_of_le w.base, ?_, ?_, ?_, ?_, ?_, ?_, ?_, ?_⟩
  · rw [key 0 (by decide), w.p0]
  · rw [key 1 (by decide), w.p1]
  · rw [key 2 (by decide), w.p2]
  · rw [key 3 (by decide), w.p3]
  · rw [key 4 (by decide), w.p4]
  · intro c p hc hp
    by_cases he : c = ct.next
    · subst he
      have : b = p := by simpa [addClass] using hp
      exact this ▸ hb
    · have hc' : c < ct.next := Nat.lt_of_le_of_ne (Nat.le_of_lt_succ hc) he
      exact w.down c p hc' (by simpa [addClass, upd, he] using hp)
  · intro c s hc hs
    by_cases he : c = ct.next
    · subst he
      exact Nat.lt_succ_of_lt (hu s (by simpa [addClass] using hs))
    · have hc' : c < ct.next := Nat.lt_of_le_of_ne (Nat.le_of_lt_succ hc) he
      exact Nat.lt_succ_of_lt (w.supLt c s hc' (by simpa [addClass, upd, he] using hs))
  · intro c s hc hs
    by_cases he : c = ct.next
    · subst he
      exact Nat.lt_succ_of_lt (hv s (by simpa [addClass] using hs))
    · have hc' : c < ct.next := Nat.lt_of_le_of_ne (Nat.le_of_lt_succ hc) he
      exact Nat.lt_succ_of_lt (w.subLt c s hc' (by simpa [addClass, upd, he] using hs))

/-! ## Names -/

theorem infixB_mem {n : List Char} : ∀ {s : List Char}, infixB n s = true → ∀ x ∈ n, x ∈ s := by
  intro s
  induction s with
  | nil => intro h x hx; cases n with
    | nil => exact hx
    | cons a l => simp [infixB] at h
  | cons c cs ih =>
    intro h x hx
    rw [infixB, Bool.or_eq_true] at h
    rcases h with h | h
    · exact (List.isPrefixOf_iff_prefix.1 h).subset hx
    · exact List.mem_cons_of_mem _ (ih h x hx)

theorem hasSubstr_of_not_mem {n s : String} (x : Char) (hx : x ∈ n.toList) (hs : x ∉ s.toList) :
    hasSubstr n s = false := by
  cases h : hasSubstr n s with
  | false => rfl
  | true => exact absurd (infixB_mem h x hx) hs

theorem digits_no (x : Char) (hx : x.isDigit = false) (n : Nat) : x ∉ (toString n).toList := by
  intro h
  have e : (toString n).toList = Nat.toDigits 10 n := by
    show (Nat.repr n).toList = _
    simp [Nat.repr]
  rw [e] at h
  have := Nat.isDigit_of_mem_toDigits (by decide) (by decide) h
  simp [hx] at this

theorem top_no_bottom (n : Nat) : hasSubstr "Bottom" ("Top_" ++ toString n) = false := by
  refine hasSubstr_of_not_mem 'B' (by decide) ?_
  rw [String.toList_append, List.mem_append]
  exact fun h => h.elim (by decide) (digits_no 'B' (by decide) n)
theorem bottom_no_top (n : Nat) : hasSubstr "Top" ("Bottom_" ++ toString n) = false := by
  refine hasSubstr_of_not_mem 'T' (by decide) ?_
  rw [String.toList_append, List.mem_append]
  exact fun h => h.elim (by decide) (digits_no 'T' (by decide) n)

end ATG
