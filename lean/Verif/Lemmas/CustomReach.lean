import Verif.Props.Classes
/-!
# `custom_classes` as a sequence of class operations
-/
namespace ATG

theorem setSup_next (ct : ClassTab) (c : CRef) (s : Option CRef) : (setSupClass ct c s).1.next = ct.next := by
  cases s with
  | none => rfl
  | some s =>
    simp only [setSupClass, classFuel, setSupClassN, setSubClassN]
    repeat' split
    all_goals rfl

theorem setSub_next (ct : ClassTab) (c : CRef) (s : Option CRef) : (setSubClass ct c s).1.next = ct.next := by
  cases s with
  | none => rfl
  | some s =>
    simp only [setSubClass, classFuel, setSupClassN, setSubClassN]
    repeat' split
    all_goals rfl

theorem ReachC.base_le {ct : ClassTab} (h : ReachC ct) : 9 ≤ ct.next := by
  induction h with
  | base => decide +kernel
  | step op hr hv ih =>
    cases op with
    | setSup c s => show 9 ≤ (setSupClass _ c s).1.next; rw [setSup_next]; exact ih
    | setSub c s => show 9 ≤ (setSubClass _ c s).1.next; rw [setSub_next]; exact ih
    | define n b => exact Nat.le_succ_of_le ih
    | copy n b => exact Nat.le_succ_of_le ih

theorem mkCustom_reach (points : List Nat) : ∀ (names : List String) (ct : ClassTab) (i : Nat), ReachC ct →
    ReachC (mkCustom points ct i names).1 ∧ ct.next ≤ (mkCustom points ct i names).1.next ∧
      ∀ c ∈ (mkCustom points ct i names).2, c < (mkCustom points ct i names).1.next
  | [], ct, i, hr => ⟨hr, Nat.le_refl _, by intro c hc; cases hc⟩
  | nm :: rest, ct, i, hr => by
    have hb : (if points.contains i then cPoint else cInterval) < ct.next := by
      have := hr.base_le
      unfold cPoint cInterval CRef at *
      split <;> omega
    have h1 : ReachC (copyClass ct nm (if points.contains i then cPoint else cInterval)).1 :=
      .step (.copy nm (if points.contains i then cPoint else cInterval)) hr hb
    obtain ⟨h2, h3, h4⟩ := mkCustom_reach points rest _ (i + 1) h1
    have h5 : ct.next < (mkCustom points (copyClass ct nm (if points.contains i then cPoint else cInterval)).1 (i + 1) rest).1.next :=
      Nat.lt_of_succ_le h3
    refine ⟨h2, Nat.le_of_lt h5, ?_⟩
    intro c hc
    rcases List.mem_cons.mp hc with rfl | hc
    · exact h5
    · exact h4 c hc

theorem linkCustom_reach (bottom : CRef) : ∀ (cs : List CRef) (ct : ClassTab), ReachC ct → bottom < ct.next → (∀ c ∈ cs, c < ct.next) →
    ReachC (linkCustom bottom ct cs).1
  | [], ct, hr, _, _ => hr
  | [c], ct, hr, hb, hc => .step (.setSub c (some bottom)) hr ⟨hc c List.mem_cons_self, by intro x hx; cases hx; exact hb⟩
  | c :: d :: rest, ct, hr, hb, hc => by
    have h1 : ReachC (setSubClass ct c (some d)).1 :=
      .step (.setSub c (some d)) hr ⟨hc c List.mem_cons_self, by intro x hx; cases hx; exact hc _ (List.mem_cons_of_mem _ List.mem_cons_self)⟩
    have hn := setSub_next ct c (some d)
    unfold linkCustom
    cases e : setSubClass ct c (some d) with
    | mk ct1 o =>
      rw [e] at h1 hn
      cases o with
      | error x => exact h1
      | ok u =>
        refine linkCustom_reach bottom (d :: rest) ct1 h1 (by rw [hn]; exact hb) ?_
        intro x hx
        rw [hn]; exact hc x (List.mem_cons_of_mem _ hx)

theorem customClassesCore_reach (ct : ClassTab) (names : List String) (points : List Nat) (hr : ReachC ct) :
    ReachC (customClassesCore ct names points).1 := by
  have b := hr.base_le
  have h1 : ReachC (makeTop ct).1 := .step (.define _ cTop) hr (by unfold cTop CRef at *; exact Nat.lt_of_lt_of_le (by decide) b)
  have b1 := h1.base_le
  have h2 : ReachC (makeBottom (makeTop ct).1).1 :=
    .step (.define _ cBottom) h1 (by unfold cBottom CRef at *; exact Nat.lt_of_lt_of_le (by decide) b1)
  obtain ⟨h3, h4, h5⟩ := mkCustom_reach points names (makeBottom (makeTop ct).1).1 0 h2
  have ht : (makeTop ct).2 < (makeBottom (makeTop ct).1).1.next := by
    show ct.next < ct.next + 1 + 1
    omega
  have hbt : (makeBottom (makeTop ct).1).2 < (makeBottom (makeTop ct).1).1.next := by
    show ct.next + 1 < ct.next + 1 + 1
    omega
  unfold customClassesCore
  simp only []
  split
  · exact h3
  · rename_i c r hc
    have hm : ∀ x ∈ c :: r, x < (mkCustom points (makeBottom (makeTop ct).1).1 0 names).1.next := by
      intro x hx
      rw [← hc] at hx
      exact h5 x (List.mem_filter.mp hx).1
    have h6 : ReachC (setSupClass (mkCustom points (makeBottom (makeTop ct).1).1 0 names).1 c (some (makeTop ct).2)).1 :=
      .step (.setSup c (some (makeTop ct).2)) h3 ⟨hm c List.mem_cons_self, by intro x hx; cases hx; exact Nat.lt_of_lt_of_le ht h4⟩
    have hn := setSup_next (mkCustom points (makeBottom (makeTop ct).1).1 0 names).1 c (some (makeTop ct).2)
    cases e : setSupClass (mkCustom points (makeBottom (makeTop ct).1).1 0 names).1 c (some (makeTop ct).2) with
    | mk ct1 o =>
      rw [e] at h6 hn
      cases o with
      | error x => exact h6
      | ok u =>
        have h7 := linkCustom_reach (makeBottom (makeTop ct).1).2 (c :: r) ct1 h6 (by rw [hn]; exact Nat.lt_of_lt_of_le hbt h4)
          (by intro x hx; rw [hn]; exact hm x hx)
        show ReachC ((linkCustom (makeBottom (makeTop ct).1).2 ct1 _).bind _).1
        rw [hc]
        cases e2 : linkCustom (makeBottom (makeTop ct).1).2 ct1 (c :: r) with
        | mk ct2 o2 =>
          rw [e2] at h7
          cases o2 <;> exact h7

/-- the class table after `custom_classes` is a reachable one -/
theorem customClasses_reach (ct : ClassTab) (names : List String) (points : List Nat) (hr : ReachC ct) :
    ReachC (customClasses ct names points).1 := by
  have h := customClassesCore_reach ct names points hr
  unfold customClasses
  cases e : customClassesCore ct names points with
  | mk ct1 o =>
    rw [e] at h
    cases o with
    | error x => exact h
    | ok cs => cases names <;> exact h

end ATG
