import Verif.Lemmas.Numbers
import Verif.Lemmas.Strings
import Verif.Model.Textgrid
/-!
# C80: the names of tops and bottoms
-/
namespace ATG

/-- A call of a function of `custom_classes.py`, or a class statement of the user. -/
inductive MakeCall where
  | custom (names : List String) (points : List Nat)
  | customNamed (names order : List String) (points : List Nat)
  | customIdx (names : List String) (order points : List Nat)
  | clone (c : CRef)
  | statement (name : String) (base : CRef)
  | setSup (c : CRef) (s : Option CRef)
  | setSub (c : CRef) (s : Option CRef)

/-- the class table after the call, whether it raised or not -/
def MakeCall.run (ct : ClassTab) : MakeCall → ClassTab
  | .custom names points => (customClasses ct names points).1
  | .customNamed names order points => (customClassesNamed ct names order points).1
  | .customIdx names order points => (customClassesIdx ct names order points).1
  | .clone c => (cloneClassN (hierFuel ct) ct c false).1
  | .statement name base => (newClass ct name base).1
  | .setSup c s => (setSupClass ct c s).1
  | .setSub c s => (setSubClass ct c s).1

/-- `Top` and `Bottom` themselves are not cloned and not subclassed by the user. -/
def MakeCall.fair : MakeCall → Prop
  | .clone c => c ≠ cTop ∧ c ≠ cBottom
  | .statement _ base => base ≠ cTop ∧ base ≠ cBottom
  | _ => True

theorem Orderly.run {ct : ClassTab} (o : Orderly ct) (k : MakeCall) (hk : k.fair) : Orderly (k.run ct) := by
  cases k with
  | custom names points =>
    refine (o.customCore names points).bind fun ct cs o => ?_
    split <;> exact o
  | customNamed names order points =>
    refine (o.customCore names points).bind fun ct cs o => ?_
    split <;> exact o
  | customIdx names order points =>
    refine (o.customCore names points).bind fun ct cs o => ?_
    split <;> exact o
  | clone c => exact Orderly.cloneN _ c false o hk.1 hk.2
  | statement name base => exact o.more (newClass_more ct name base) (fun e => absurd e hk.1) (fun e => absurd e hk.2)
  | setSup c s => exact o.same (setSupClass_same ct c s)
  | setSub c s => exact o.same (setSubClass_same ct c s)

theorem Orderly.base : Orderly baseClasses := by
  have e1 : subclassesOf baseClasses cTop = [7] := by decide +kernel
  have e2 : subclassesOf baseClasses cBottom = [8] := by decide +kernel
  constructor
  · decide +kernel
  · decide +kernel
  · decide +kernel
  · decide +kernel
  · intro i d hd
    rw [e1] at hd
    obtain ⟨hl, hd⟩ := List.getElem?_eq_some_iff.mp hd
    have : i = 0 := by simp at hl; omega
    subst this
    simp at hd; subst hd
    decide +kernel
  · rw [e1]; simp
  · intro i d hd
    rw [e2] at hd
    obtain ⟨hl, hd⟩ := List.getElem?_eq_some_iff.mp hd
    have : i = 0 := by simp at hl; omega
    subst this
    simp at hd; subst hd
    decide +kernel
  · rw [e2]; simp

/-- **C80**: however classes are made, the tops are called `Top_wp`, `Top_1`, `Top_2`, ... in the order of their
    creation, and the bottoms `Bottom_wp`, `Bottom_1`, `Bottom_2`, ... -/
theorem C80_numbered (ks : List MakeCall) (hk : ∀ k ∈ ks, k.fair) :
    Numbered (ks.foldl MakeCall.run baseClasses) cTop "Top_" ∧
      Numbered (ks.foldl MakeCall.run baseClasses) cBottom "Bottom_" := by
  have : ∀ (ks : List MakeCall) (ct : ClassTab), Orderly ct → (∀ k ∈ ks, k.fair) →
      Orderly (ks.foldl MakeCall.run ct) := by
    intro ks
    induction ks with
    | nil => intro ct o _; exact o
    | cons k ks ih =>
      intro ct o h
      exact ih _ (o.run k (h k (List.mem_cons_self ..))) fun k hk => h k (List.mem_cons_of_mem _ hk)
  exact ⟨(this ks _ Orderly.base hk).tops, (this ks _ Orderly.base hk).bottoms⟩

/-- **C80**: so no two of them have the same name. -/
theorem C80_distinct (ks : List MakeCall) (hk : ∀ k ∈ ks, k.fair) :
    ((subclassesOf (ks.foldl MakeCall.run baseClasses) cTop).map (ks.foldl MakeCall.run baseClasses).name).Nodup ∧
      ((subclassesOf (ks.foldl MakeCall.run baseClasses) cBottom).map
        (ks.foldl MakeCall.run baseClasses).name).Nodup := by
  obtain ⟨h1, h2⟩ := C80_numbered ks hk
  have wp : ∀ i : Nat, toString i ≠ "wp" := by
    intro i h
    have hd : 'w' ∈ (toString i).toList := by rw [h]; decide
    have e : (toString i).toList = Nat.toDigits 10 i := by simp
    rw [e] at hd
    exact absurd (Nat.isDigit_of_mem_toDigits (by decide) (by decide) hd) (by decide)
  have inj : ∀ i j : Nat, toString i = toString j → i = j := fun i j h => toString_inj h
  have append_inj : ∀ {p a b : String}, p ++ a = p ++ b → a = b := fun {p a b} h => by
    have := congrArg String.toList h
    rw [String.toList_append, String.toList_append] at this
    exact String.toList_inj.mp (List.append_cancel_left this)
  have key : ∀ (c : CRef) (p : String) (ct : ClassTab), Numbered ct c p → ((subclassesOf ct c).map ct.name).Nodup := by
    intro c p ct hn
    rw [List.Nodup, List.pairwise_iff_getElem]
    intro i j hi hj hij
    simp only [List.length_map] at hi hj
    rw [List.getElem_map, List.getElem_map, hn i _ (List.getElem?_eq_getElem hi), hn j _ (List.getElem?_eq_getElem hj),
      if_neg (show ¬ j = 0 by omega)]
    split
    · intro e
      exact wp j (append_inj e).symm
    · intro e
      exact absurd (inj i j (append_inj e)) (by omega)
  exact ⟨key _ _ _ h1, key _ _ _ h2⟩

/-- **C80, violated** without the condition: after `class Top_2(Top)` the second set of custom classes gets a top of
    the same name. -/
theorem C80_violated : ¬ ((subclassesOf ([MakeCall.statement "Top_2" cTop, .custom ["A"] []].foldl MakeCall.run baseClasses)
    cTop).map ([MakeCall.statement "Top_2" cTop, .custom ["A"] []].foldl MakeCall.run baseClasses).name).Nodup := by
  decide +kernel

/-- **C80, violated**: and a clone of `Top` is called `Top`. -/
theorem C80_clone_violated : ¬ Numbered (MakeCall.run baseClasses (.clone cTop)) cTop "Top_" := by
  intro h
  have := h 1 9 (by decide +kernel)
  exact absurd this (by decide +kernel)

example : let ct := [MakeCall.custom ["A", "B"] [], .clone 11, .custom ["C"] []].foldl MakeCall.run baseClasses
    (subclassesOf ct cTop).map ct.name = ["Top_wp", "Top_1", "Top_2", "Top_3"] := by decide +kernel

end ATG
