import Verif.Lemmas.Custom
import Verif.Model.Textgrid
/-!
# C30, C57: class links
-/
namespace ATG

/-! ## Class operations over any history -/

/-- What a program can do with classes. -/
inductive ClassOp
  | setSup (c : CRef) (s : Option CRef)
  | setSub (c : CRef) (s : Option CRef)
  | define (name : String) (base : CRef)
  | copy (name : String) (base : CRef)

/-- Operations on classes that exist. -/
def ClassOp.valid (ct : ClassTab) : ClassOp → Prop
  | .setSup c s => c < ct.next ∧ ∀ x, s = some x → x < ct.next
  | .setSub c s => c < ct.next ∧ ∀ x, s = some x → x < ct.next
  | .define _ b => b < ct.next
  | .copy _ b => b < ct.next

/-- The table after one operation, whether or not it raised. -/
def ClassOp.run (ct : ClassTab) : ClassOp → ClassTab
  | .setSup c s => (setSupClass ct c s).1
  | .setSub c s => (setSubClass ct c s).1
  | .define n b => (newClass ct n b).1
  | .copy n b => (copyClass ct n b).1

/-- Class tables reachable from the package's own by any number of operations. -/
inductive ReachC : ClassTab → Prop
  | base : ReachC baseClasses
  | step {ct} (op : ClassOp) : ReachC ct → op.valid ct → ReachC (op.run ct)

/-- C30, termination: the mutual recursion of `set_superset_class` and `set_subset_class` stops on
    every class table, whatever the classes and their earlier links. -/
theorem C30_terminates (ct : ClassTab) (c : CRef) (s : Option CRef) :
    (setSupClass ct c s).2 ≠ .error .recursionError ∧
      (setSubClass ct c s).2 ≠ .error .recursionError := by
  cases s with
  | none => simp [setSupClass, setSubClass, classFuel, setSupClassN, setSubClassN]
  | some s =>
    refine ⟨?_, ?_⟩
    · simp only [setSupClass, classFuel, setSupClassN, setSubClassN]
      repeat' split
      all_goals simp_all
    · simp only [setSubClass, classFuel, setSupClassN, setSubClassN]
      repeat' split
      all_goals simp_all

/-- C30, for classes whose names do not contain `Top` (the lower class) and `Bottom` (the upper class):
    after `c.set_superset_class(s)` the links are mutual, names and bases are unchanged, and no
    own attribute of a class has changed but `c.superset_class` and `s.subset_class`.
    The full statement, without the name condition, is false (`C30_name_violated`). -/
theorem C30_set_superset_partial (ct : ClassTab) (c s : CRef) (hne : s ≠ c)
    (hc : ct.isSub c cHierarchyPart = true) (hs : ct.isSub s cHierarchyPart = true)
    (hn : hasSubstr "Top" (ct.name c) = false) (hm : hasSubstr "Bottom" (ct.name s) = false) :
    ∃ ct', setSupClass ct c (some s) = (ct', .ok ()) ∧ ct'.sup c = some s ∧ ct'.sub s = some c ∧
      ct'.next = ct.next ∧ ct'.name = ct.name ∧ ct'.parent = ct.parent ∧
      (∀ x, x ≠ c → ct'.ownSup x = ct.ownSup x) ∧ (∀ x, x ≠ s → ct'.ownSub x = ct.ownSub x) := by
  by_cases h : ct.sub s = some c
  · refine ⟨_, setSupClass_old hn hs hne h, by simp, by simp [h], rfl, rfl, rfl, ?_, ?_⟩
    · intro x hx; simp [ClassTab.putSup, upd, hx]
    · intro x hx; rfl
  · refine ⟨_, setSupClass_new hn hm hs hc hne h, by simp, by simp, rfl, rfl, rfl, ?_, ?_⟩
    · intro x hx; simp [ClassTab.putSup, ClassTab.putSub, upd, hx]
    · intro x hx; simp [ClassTab.putSup, ClassTab.putSub, upd, hx]

/-- C30, the same for `c.set_subset_class(s)`. -/
theorem C30_set_subset_partial (ct : ClassTab) (c s : CRef) (hne : s ≠ c)
    (hc : ct.isSub c cHierarchyPart = true) (hs : ct.isSub s cHierarchyPart = true)
    (hn : hasSubstr "Bottom" (ct.name c) = false) (hm : hasSubstr "Top" (ct.name s) = false) :
    ∃ ct', setSubClass ct c (some s) = (ct', .ok ()) ∧ ct'.sub c = some s ∧ ct'.sup s = some c ∧
      ct'.next = ct.next ∧ ct'.name = ct.name ∧ ct'.parent = ct.parent ∧
      (∀ x, x ≠ c → ct'.ownSub x = ct.ownSub x) ∧ (∀ x, x ≠ s → ct'.ownSup x = ct.ownSup x) := by
  by_cases h : ct.sup s = some c
  · refine ⟨_, setSubClass_old hn hs hne h, by simp, by simp [h], rfl, rfl, rfl, ?_, ?_⟩
    · intro x hx; simp [ClassTab.putSub, upd, hx]
    · intro x hx; rfl
  · refine ⟨_, setSubClass_new hn hm hs hc hne h, by simp, by simp, rfl, rfl, rfl, ?_, ?_⟩
    · intro x hx; simp [ClassTab.putSup, ClassTab.putSub, upd, hx]
    · intro x hx; simp [ClassTab.putSup, ClassTab.putSub, upd, hx]

/-- The package with two more interval classes `Utt` (9) and `Syl` (10), not yet linked. -/
def exMore : ClassTab := (newClass (newClass baseClasses "Utt" cInterval).1 "Syl" cInterval).1

/-- The hypotheses of `C30_set_superset_partial` and `C30_set_subset_partial` hold for `Word` under
    `Utt` and for `Utt` over `Syl`. -/
example : (∃ ct', setSupClass exMore cWord (some 9) = (ct', .ok ()) ∧ ct'.sup cWord = some 9 ∧
      ct'.sub 9 = some cWord) ∧
    (∃ ct', setSubClass exMore 9 (some 10) = (ct', .ok ()) ∧ ct'.sub 9 = some 10 ∧ ct'.sup 10 = some 9) := by
  obtain ⟨a, h, h1, h2, _⟩ := C30_set_superset_partial exMore cWord 9 (by decide) (by decide +kernel)
    (by decide +kernel) (by decide +kernel) (by decide +kernel)
  obtain ⟨b, k, k1, k2, _⟩ := C30_set_subset_partial exMore 9 10 (by decide) (by decide +kernel)
    (by decide +kernel) (by decide +kernel) (by decide +kernel)
  exact ⟨⟨a, h, h1, h2⟩, ⟨b, k, k1, k2⟩⟩

/-- C30, rejection: a class given itself, or something that is no `HierarchyPart`, raises an exception
    and no class changes. -/
theorem C30_rejects (ct : ClassTab) (c s : CRef)
    (hbad : s = c ∨ ct.isSub s cHierarchyPart = false) :
    (hasSubstr "Top" (ct.name c) = false → setSupClass ct c (some s) = (ct, .error .exc)) ∧
    (hasSubstr "Bottom" (ct.name c) = false → setSubClass ct c (some s) = (ct, .error .exc)) := by
  constructor
  · intro hn
    rcases hbad with h | h <;> simp [setSupClass, classFuel, setSupClassN, hn, h]
  · intro hn
    rcases hbad with h | h <;> simp [setSubClass, classFuel, setSubClassN, hn, h]

example : setSupClass baseClasses cWord (some cWord) = (baseClasses, .error .exc) ∧
    setSubClass baseClasses cWord (some cPoint) = (baseClasses, .error .exc) :=
  ⟨(C30_rejects _ _ _ (Or.inl rfl)).1 (by decide +kernel),
   (C30_rejects _ _ _ (Or.inr (by decide +kernel))).2 (by decide +kernel)⟩

/-- C30 fails for class names that contain `Top` or `Bottom`: `Topic.set_superset_class(Word)` raises
    nothing and leaves both classes unlinked (`Topic.superset_class` becomes `None`);
    `Word.set_superset_class(BottomUp)` sets one direction only. -/
theorem C30_name_violated :
    (let ct := (newClass baseClasses "Topic" cInterval).1
     let r := setSupClass ct 9 (some cPhone)
     r.2 = .ok () ∧ r.1.sup 9 = none ∧ r.1.sub cPhone ≠ some 9) ∧
    (let ct := (newClass baseClasses "BottomUp" cInterval).1
     let r := setSupClass ct cWord (some 9)
     r.2 = .ok () ∧ r.1.sup cWord = some 9 ∧ r.1.sub 9 = none) := by
  decide +kernel

/-! ## A class is never its own superset -/

theorem wfc_put_none {ct : ClassTab} (w : WFC ct) (c : CRef) :
    WFC (ct.putSup c none) ∧ WFC (ct.putSub c none) := by
  refine ⟨⟨w.base, w.p0, w.p1, w.p2, w.p3, w.p4, w.down, ?_, w.subLt⟩,
    ⟨w.base, w.p0, w.p1, w.p2, w.p3, w.p4, w.down, w.supLt, ?_⟩⟩
  · intro x y hx hy
    by_cases he : x = c
    · subst he; simp [ClassTab.putSup] at hy
    · exact w.supLt x y hx (by simpa [ClassTab.putSup, upd, he] using hy)
  · intro x y hx hy
    by_cases he : x = c
    · subst he; simp [ClassTab.putSub] at hy
    · exact w.subLt x y hx (by simpa [ClassTab.putSub, upd, he] using hy)

/-- What a call of `set_superset_class` can do to the table. -/
theorem setSupClass_cases (P : ClassTab → Prop) (ct : ClassTab) (c : CRef) (s : Option CRef)
    (h0 : P ct) (h1 : P (ct.putSup c none))
    (h2 : ∀ x, s = some x → x ≠ c → P (ct.putSup c (some x)) ∧ P ((ct.putSup c (some x)).putSub x none) ∧
      P ((ct.putSup c (some x)).putSub x (some c))) : P (setSupClass ct c s).1 := by
  cases s with
  | none => simpa [setSupClass, classFuel, setSupClassN] using h1
  | some s =>
    by_cases hsc : s = c
    · subst hsc
      by_cases hn : hasSubstr "Top" (ct.name s) <;>
        simp [setSupClass, classFuel, setSupClassN, hn, h0, h1]
    · obtain ⟨a, b, d⟩ := h2 s rfl hsc
      simp only [setSupClass, classFuel, setSupClassN, setSubClassN]
      repeat' split
      all_goals simp_all

/-- What a call of `set_subset_class` can do to the table. -/
theorem setSubClass_cases (P : ClassTab → Prop) (ct : ClassTab) (c : CRef) (s : Option CRef)
    (h0 : P ct) (h1 : P (ct.putSub c none))
    (h2 : ∀ x, s = some x → x ≠ c → P (ct.putSub c (some x)) ∧ P ((ct.putSub c (some x)).putSup x none) ∧
      P ((ct.putSub c (some x)).putSup x (some c))) : P (setSubClass ct c s).1 := by
  cases s with
  | none => simpa [setSubClass, classFuel, setSubClassN] using h1
  | some s =>
    by_cases hsc : s = c
    · subst hsc
      by_cases hn : hasSubstr "Bottom" (ct.name s) <;>
        simp [setSubClass, classFuel, setSubClassN, hn, h0, h1]
    · obtain ⟨a, b, d⟩ := h2 s rfl hsc
      simp only [setSubClass, classFuel, setSupClassN, setSubClassN]
      repeat' split
      all_goals simp_all

theorem next_setSup (ct : ClassTab) (c : CRef) (s : Option CRef) :
    (setSupClass ct c s).1.next = ct.next :=
  setSupClass_cases (fun x => x.next = ct.next) ct c s rfl rfl (fun _ _ _ => ⟨rfl, rfl, rfl⟩)

theorem wfc_base : WFC baseClasses := by
  have hn : baseClasses.next = 9 := by decide +kernel
  refine ⟨by rw [hn]; decide, by decide +kernel, by decide +kernel, by decide +kernel,
    by decide +kernel, by decide +kernel, ?_, ?_, ?_⟩
  · have : ∀ c : Fin 9, ∀ p : Fin 9, baseClasses.parent c = some p.1 → p.1 < c.1 := by decide +kernel
    have h2 : ∀ c : Fin 9, ∀ p, baseClasses.parent c = some p → p < 9 := by
      have : ∀ c : Fin 9, (baseClasses.parent c).all (fun p => decide (p < 9)) = true := by
        decide +kernel
      intro c p hp
      have := this c
      rw [hp] at this
      simpa using this
    intro c p hc hp
    rw [hn] at hc
    exact this ⟨c, hc⟩ ⟨p, h2 ⟨c, hc⟩ p hp⟩ hp
  · have : ∀ c : Fin 9, (match baseClasses.ownSup c with
        | some (some s) => decide (s < 9) | _ => true) = true := by decide +kernel
    intro c s hc hs
    rw [hn] at hc ⊢
    have := this ⟨c, hc⟩
    rw [hs] at this
    simpa using this
  · have : ∀ c : Fin 9, (match baseClasses.ownSub c with
        | some (some s) => decide (s < 9) | _ => true) = true := by decide +kernel
    intro c s hc hs
    rw [hn] at hc ⊢
    have := this ⟨c, hc⟩
    rw [hs] at this
    simpa using this

/-- Every reachable class table is well formed. -/
theorem ReachC.wfc {ct : ClassTab} (h : ReachC ct) : WFC ct := by
  induction h with
  | base => exact wfc_base
  | @step ct op _ hv w =>
    cases op with
    | setSup c s =>
      refine setSupClass_cases WFC ct c s w (wfc_put_none w c).1 ?_
      intro x hx _
      have hxl := hv.2 x hx
      have w1 := wfc_putSup w c x hxl
      exact ⟨w1, (wfc_put_none w1 x).2, wfc_putSub w1 x c hv.1⟩
    | setSub c s =>
      refine setSubClass_cases WFC ct c s w (wfc_put_none w c).2 ?_
      intro x hx _
      have hxl := hv.2 x hx
      have w1 := wfc_putSub w c x hxl
      exact ⟨w1, (wfc_put_none w1 x).1, wfc_putSup w1 x c hv.1⟩
    | define n b => exact wfc_addClass w n hv (by simp) (by simp)
    | copy n b =>
      exact wfc_addClass w n hv (fun s h => w.supLt b s hv h) (fun s h => w.subLt b s hv h)

/-- No class has itself as its own `superset_class` or `subset_class` attribute. -/
def NoSelf (ct : ClassTab) : Prop :=
  ∀ c, c < ct.next → ct.ownSup c ≠ some (some c) ∧ ct.ownSub c ≠ some (some c)

theorem noSelf_put {ct : ClassTab} (h : NoSelf ct) (c : CRef) {v : Option CRef} (hv : v ≠ some c) :
    NoSelf (ct.putSup c v) ∧ NoSelf (ct.putSub c v) := by
  constructor
  · intro x hl
    refine ⟨?_, (h x hl).2⟩
    by_cases he : x = c
    · subst he; simpa [ClassTab.putSup] using hv
    · simpa [ClassTab.putSup, upd, he] using (h x hl).1
  · intro x hl
    refine ⟨(h x hl).1, ?_⟩
    by_cases he : x = c
    · subst he; simpa [ClassTab.putSub] using hv
    · simpa [ClassTab.putSub, upd, he] using (h x hl).2

/-- C30, no class is its own superset or subset: over every history of class operations, from the
    package's own classes on, no class ever carries itself as its `superset_class` or `subset_class`
    attribute. The full statement, about the attribute as looked up through the base classes, is
    false (`C30_self_violated`). -/
theorem C30_never_self_partial {ct : ClassTab} (h : ReachC ct) (c : CRef) (hc : c < ct.next) :
    ct.ownSup c ≠ some (some c) ∧ ct.ownSub c ≠ some (some c) := by
  have main : NoSelf ct := by
    clear hc
    induction h with
    | base =>
      intro c
      intro hc
      have hn : baseClasses.next = 9 := by decide +kernel
      rw [hn] at hc
      have : ∀ c : Fin 9, baseClasses.ownSup c ≠ some (some c.1) ∧
          baseClasses.ownSub c ≠ some (some c.1) := by decide +kernel
      exact this ⟨c, hc⟩
    | @step ct op hr hv ih =>
      have w := hr.wfc
      cases op with
      | setSup c s =>
        refine setSupClass_cases NoSelf ct c s ih (noSelf_put ih c (by simp)).1 ?_
        intro x _ hx
        have h1 := (noSelf_put ih c (v := some x) (by simpa using hx)).1
        exact ⟨h1, (noSelf_put h1 x (by simp)).2,
          (noSelf_put h1 x (v := some c) (by simpa using Ne.symm hx)).2⟩
      | setSub c s =>
        refine setSubClass_cases NoSelf ct c s ih (noSelf_put ih c (by simp)).2 ?_
        intro x _ hx
        have h1 := (noSelf_put ih c (v := some x) (by simpa using hx)).2
        exact ⟨h1, (noSelf_put h1 x (by simp)).1,
          (noSelf_put h1 x (v := some c) (by simpa using Ne.symm hx)).1⟩
      | define n b =>
        intro x hl
        by_cases he : x = ct.next
        · subst he; simp [ClassOp.run, newClass]
        · simpa [ClassOp.run, newClass, upd, he] using ih x (Nat.lt_of_le_of_ne (Nat.le_of_lt_succ hl) he)
      | copy n b =>
        intro x hl
        by_cases he : x = ct.next
        · subst he
          constructor
          · intro h
            exact Nat.lt_irrefl _ (w.supLt b _ hv (by simpa [ClassOp.run, copyClass] using h))
          · intro h
            exact Nat.lt_irrefl _ (w.subLt b _ hv (by simpa [ClassOp.run, copyClass] using h))
        · simpa [ClassOp.run, copyClass, upd, he] using ih x (Nat.lt_of_le_of_ne (Nat.le_of_lt_succ hl) he)
  exact main c hc

/-- C30 fails for a class and its own subclass: with `class Sub(Word)`, after
    `Word.set_superset_class(Sub)` the attribute that `Sub` inherits makes `Sub` its own superset. -/
theorem C30_self_violated :
    ∃ ct, ReachC ct ∧ ∃ c, ct.sup c = some c := by
  refine ⟨_, .step (.setSup cWord (some 9)) (.step (.define "Sub" cWord) .base ?_) ?_, 9, ?_⟩
  · exact (by decide +kernel : cWord < baseClasses.next)
  · refine ⟨(by decide +kernel : cWord < (newClass baseClasses "Sub" cWord).1.next), ?_⟩
    intro x hx
    cases hx
    exact (by decide +kernel : 9 < (newClass baseClasses "Sub" cWord).1.next)
  · decide +kernel

/-- C57 fails: class links do not stay mutual. After `Utt.set_subset_class(Word)` and then
    `Utt.set_subset_class(Syl)`, `Word.superset_class` is still `Utt` while `Utt.subset_class` is
    `Syl`. -/
theorem C57_stale_violated :
    ∃ ct, ReachC ct ∧ ∃ a b, ct.sup b = some a ∧ ct.sub a ≠ some b ∧
      ct.isSub a cInterval = true ∧ ct.isSub b cInterval = true := by
  refine ⟨_, .step (.setSub 9 (some 10)) (.step (.setSub 9 (some cWord))
    (.step (.define "Syl" cInterval) (.step (.define "Utt" cInterval) .base ?_) ?_) ?_) ?_, 9, cWord, ?_⟩
  · exact (by decide +kernel : cInterval < baseClasses.next)
  · exact (by decide +kernel : cInterval < (newClass baseClasses "Utt" cInterval).1.next)
  · exact ⟨(by decide +kernel : 9 < exMore.next), fun x hx => by
      cases hx; exact (by decide +kernel : cWord < exMore.next)⟩
  · exact ⟨(by decide +kernel : 9 < (setSubClass exMore 9 (some cWord)).1.next), fun x hx => by
      cases hx; exact (by decide +kernel : 10 < (setSubClass exMore 9 (some cWord)).1.next)⟩
  · decide +kernel

/-- A non-trivial reachable table: four operations on new classes. -/
example : ReachC (setSubClass (setSupClass exMore cWord (some 9)).1 9 (some 10)).1 := by
  refine .step (.setSub 9 (some 10)) (.step (.setSup cWord (some 9))
    (.step (.define "Syl" cInterval) (.step (.define "Utt" cInterval) .base ?_) ?_) ?_) ?_
  · exact (by decide +kernel : cInterval < baseClasses.next)
  · exact (by decide +kernel : cInterval < (newClass baseClasses "Utt" cInterval).1.next)
  · exact ⟨(by decide +kernel : cWord < exMore.next), fun x hx => by
      cases hx; exact (by decide +kernel : 9 < exMore.next)⟩
  · exact ⟨(by decide +kernel : 9 < (setSupClass exMore cWord (some 9)).1.next), fun x hx => by
      cases hx; exact (by decide +kernel : 10 < (setSupClass exMore cWord (some 9)).1.next)⟩

end ATG
