import Verif.Lemmas.Classes
/-!
# Class tables with numbered tops and bottoms
-/
namespace ATG

/-- `C.__subclasses__()`: the direct subclasses in the order of their creation -/
def subclassesOf (ct : ClassTab) (c : CRef) : List CRef :=
  (List.range ct.next).filter fun d => ct.parent d == some c

/-- The first subclass of `c` is called `p ++ "wp"`, the others `p ++ "1"`, `p ++ "2"` and so on. -/
def Numbered (ct : ClassTab) (c : CRef) (p : String) : Prop :=
  ∀ (i : Nat) (d : CRef), (subclassesOf ct c)[i]? = some d →
    ct.name d = if i = 0 then p ++ "wp" else p ++ toString i

/-- what stays so when classes are made by the functions of the package -/
structure Orderly (ct : ClassTab) : Prop where
  next : 9 ≤ ct.next
  root : ct.parent cHierarchyPart = none
  top : ct.parent cTop = some cHierarchyPart
  bottom : ct.parent cBottom = some cHierarchyPart
  tops : Numbered ct cTop "Top_"
  someTop : subclassesOf ct cTop ≠ []
  bottoms : Numbered ct cBottom "Bottom_"
  someBottom : subclassesOf ct cBottom ≠ []

/-- the attributes that matter here -/
def SameClasses (a b : ClassTab) : Prop := b.next = a.next ∧ b.name = a.name ∧ b.parent = a.parent

theorem SameClasses.refl (a : ClassTab) : SameClasses a a := ⟨rfl, rfl, rfl⟩
theorem SameClasses.trans {a b c : ClassTab} (h : SameClasses a b) (k : SameClasses b c) : SameClasses a c :=
  ⟨k.1.trans h.1, k.2.1.trans h.2.1, k.2.2.trans h.2.2⟩

theorem setLinks_same : ∀ (n : Nat) (ct : ClassTab) (c : CRef) (s : Option CRef),
    SameClasses ct (setSupClassN n ct c s).1 ∧ SameClasses ct (setSubClassN n ct c s).1
  | 0, ct, c, s => by simp [setSupClassN, setSubClassN, SameClasses]
  | n + 1, ct, c, none => by simp [setSupClassN, setSubClassN, SameClasses, ClassTab.putSup, ClassTab.putSub]
  | n + 1, ct, c, some s => by
    have h1 := (setLinks_same n (ct.putSup c (some s)) s (some c)).2
    have h2 := (setLinks_same n (ct.putSub c (some s)) s (some c)).1
    constructor
    · unfold setSupClassN
      split
      · exact ⟨rfl, rfl, rfl⟩
      · split
        · dsimp only
          split
          · exact ⟨rfl, rfl, rfl⟩
          · exact SameClasses.trans ⟨rfl, rfl, rfl⟩ h1
        · exact ⟨rfl, rfl, rfl⟩
    · unfold setSubClassN
      split
      · exact ⟨rfl, rfl, rfl⟩
      · split
        · dsimp only
          split
          · exact ⟨rfl, rfl, rfl⟩
          · exact SameClasses.trans ⟨rfl, rfl, rfl⟩ h2
        · exact ⟨rfl, rfl, rfl⟩

theorem setSupClass_same (ct : ClassTab) (c : CRef) (s : Option CRef) : SameClasses ct (setSupClass ct c s).1 :=
  (setLinks_same _ ct c s).1
theorem setSubClass_same (ct : ClassTab) (c : CRef) (s : Option CRef) : SameClasses ct (setSubClass ct c s).1 :=
  (setLinks_same _ ct c s).2

theorem SameClasses.subclasses {a b : ClassTab} (h : SameClasses a b) (c : CRef) :
    subclassesOf b c = subclassesOf a c := by
  unfold subclassesOf; rw [h.1, h.2.2]

theorem Orderly.same {a b : ClassTab} (o : Orderly a) (h : SameClasses a b) : Orderly b where
  next := by rw [h.1]; exact o.next
  root := by rw [h.2.2]; exact o.root
  top := by rw [h.2.2]; exact o.top
  bottom := by rw [h.2.2]; exact o.bottom
  tops := by unfold Numbered; rw [h.subclasses, h.2.1]; exact o.tops
  someTop := by rw [h.subclasses]; exact o.someTop
  bottoms := by unfold Numbered; rw [h.subclasses, h.2.1]; exact o.bottoms
  someBottom := by rw [h.subclasses]; exact o.someBottom

/-- `b` has one class more than `a` -/
structure OneMore (a b : ClassTab) (name : String) (base : CRef) : Prop where
  next : b.next = a.next + 1
  name : b.name = upd a.name a.next name
  parent : b.parent = upd a.parent a.next (some base)

theorem newClass_more (ct : ClassTab) (name : String) (base : CRef) : OneMore ct (newClass ct name base).1 name base :=
  ⟨rfl, rfl, rfl⟩
theorem copyClass_more (ct : ClassTab) (name : String) (base : CRef) : OneMore ct (copyClass ct name base).1 name base :=
  ⟨rfl, rfl, rfl⟩

theorem OneMore.subclasses {a b : ClassTab} {name : String} {base : CRef} (h : OneMore a b name base) (c : CRef) :
    subclassesOf b c = subclassesOf a c ++ if base = c then [a.next] else [] := by
  unfold subclassesOf
  rw [h.next, List.range_succ, List.filter_append, h.parent]
  congr 1
  · apply List.filter_congr
    intro d hd
    have := List.mem_range.mp hd
    rw [upd_ne _ _ _ _ (by unfold CRef at *; omega)]
  · by_cases e : base = c <;> simp [e]

theorem subclassesOf_lt {ct : ClassTab} {c d : CRef} (h : d ∈ subclassesOf ct c) : d < ct.next :=
  List.mem_range.mp (List.mem_filter.mp h).1

theorem Numbered.more {a b : ClassTab} {name : String} {base c : CRef} {p : String} (n : Numbered a c p)
    (h : OneMore a b name base)
    (hb : base = c → subclassesOf a c ≠ [] ∧ name = p ++ toString (subclassesOf a c).length) : Numbered b c p := by
  intro i d hd
  rw [h.subclasses] at hd
  rw [List.getElem?_append] at hd
  by_cases hlt : i < (subclassesOf a c).length
  · rw [if_pos hlt] at hd
    have := subclassesOf_lt (List.mem_of_getElem? hd)
    rw [h.name, upd_ne _ _ _ _ (by unfold CRef at *; omega)]
    exact n i d hd
  · rw [if_neg hlt] at hd
    by_cases e : base = c
    · rw [if_pos e] at hd
      obtain ⟨hne, hname⟩ := hb e
      have hpos := List.length_pos_iff.mpr hne
      obtain ⟨hl, hd⟩ := List.getElem?_eq_some_iff.mp hd
      simp at hl hd
      have hi : i = (subclassesOf a c).length := by omega
      rw [h.name, ← hd, upd_same, if_neg (by omega), hi, hname]
    · rw [if_neg e] at hd; simp at hd

theorem Orderly.more {a b : ClassTab} {name : String} {base : CRef} (o : Orderly a) (h : OneMore a b name base)
    (ht : base = cTop → name = "Top_" ++ toString (subclassesOf a cTop).length)
    (hb : base = cBottom → name = "Bottom_" ++ toString (subclassesOf a cBottom).length) : Orderly b := by
  have hn := o.next
  have hp : ∀ c < 9, b.parent c = a.parent c := fun c hc => by
    rw [h.parent, upd_ne _ _ _ _ (by unfold CRef at *; omega)]
  exact {
    next := by rw [h.next]; omega
    root := (hp _ (by decide)).trans o.root
    top := (hp _ (by decide)).trans o.top
    bottom := (hp _ (by decide)).trans o.bottom
    tops := o.tops.more h fun e => ⟨o.someTop, ht e⟩
    someTop := by rw [h.subclasses]; simp [o.someTop]
    bottoms := o.bottoms.more h fun e => ⟨o.someBottom, hb e⟩
    someBottom := by rw [h.subclasses]; simp [o.someBottom] }

theorem Orderly.makeTop {ct : ClassTab} (o : Orderly ct) : Orderly (makeTop ct).1 :=
  o.more (newClass_more ct _ cTop) (fun _ => rfl) (fun e => absurd e (by decide))

theorem Orderly.makeBottom {ct : ClassTab} (o : Orderly ct) : Orderly (makeBottom ct).1 :=
  o.more (newClass_more ct _ cBottom) (fun e => absurd e (by decide)) (fun _ => rfl)

theorem Orderly.copyClass {ct : ClassTab} (o : Orderly ct) (name : String) (base : CRef) (h1 : base ≠ cTop)
    (h2 : base ≠ cBottom) : Orderly (copyClass ct name base).1 :=
  o.more (copyClass_more ct name base) (fun e => absurd e h1) (fun e => absurd e h2)

theorem Orderly.mkCustom {points : List Nat} : ∀ (names : List String) (i : Nat) {ct : ClassTab}, Orderly ct →
    Orderly (mkCustom points ct i names).1
  | [], _, _, o => o
  | nm :: rest, i, ct, o => by
    unfold ATG.mkCustom
    refine Orderly.mkCustom rest (i + 1) (o.copyClass nm _ ?_ ?_) <;> split <;> decide

theorem Orderly.linkCustom {bottom : CRef} : ∀ (l : List CRef) {ct : ClassTab}, Orderly ct →
    Orderly (linkCustom bottom ct l).1
  | [], _, o => o
  | [c], ct, o => o.same (setSubClass_same ct c _)
  | c :: d :: rest, ct, o => by
    unfold ATG.linkCustom
    have h := o.same (setSubClass_same ct c (some d))
    revert h
    generalize setSubClass ct c (some d) = r
    obtain ⟨ct1, x⟩ := r
    intro h
    cases x with
    | ok a => exact Orderly.linkCustom (d :: rest) h
    | error e => exact h

theorem Orderly.bind {α β} {r : CRes α} {f : ClassTab → α → CRes β} (o : Orderly r.1)
    (hf : ∀ ct a, Orderly ct → Orderly (f ct a).1) : Orderly (r.bind f).1 := by
  obtain ⟨ct, x⟩ := r
  cases x with
  | ok a => exact hf ct a o
  | error e => exact o

theorem Orderly.customCore {ct : ClassTab} (o : Orderly ct) (names : List String) (points : List Nat) :
    Orderly (customClassesCore ct names points).1 := by
  unfold customClassesCore
  dsimp only
  have o3 := Orderly.mkCustom (points := points) names 0 o.makeTop.makeBottom
  split
  · exact o3
  · refine (o3.same (setSupClass_same _ _ _)).bind fun ct _ o => ?_
    exact (Orderly.linkCustom _ o).bind fun ct _ o => o

theorem Orderly.not_interval {ct : ClassTab} (o : Orderly ct) {c : CRef} (h : ct.isSub c cInterval = true) :
    c ≠ cTop ∧ c ≠ cBottom := by
  constructor
  · rintro rfl
    have e : ct.isSub cTop cInterval = false := by
      simp [ClassTab.isSub, ClassTab.isSubN, cTop, cInterval, show ct.parent 1 = some 0 from o.top]
    rw [e] at h; cases h
  · rintro rfl
    have e : ct.isSub cBottom cInterval = false := by
      simp [ClassTab.isSub, ClassTab.isSubN, cBottom, cInterval, show ct.parent 2 = some 0 from o.bottom,
        show ct.parent 0 = none from o.root]
    rw [e] at h; cases h

theorem Orderly.cloneN : ∀ (n : Nat) {ct : ClassTab} (c : CRef) (recurse : Bool), Orderly ct → c ≠ cTop →
    c ≠ cBottom → Orderly (cloneClassN n ct c recurse).1
  | 0, _, _, _, o, _, _ => o
  | n + 1, ct, c, recurse, o, h1, h2 => by
    unfold cloneClassN
    split
    · split
      · exact o
      · split
        · exact o
        · dsimp only
          have o1 := o.copyClass (ct.name c) c h1 h2
          generalize (ATG.copyClass ct (ct.name c) c).2 = d
          generalize (ATG.copyClass ct (ct.name c) c).1 = ct1 at o1 ⊢
          refine Orderly.bind ?_ fun ct2 _ o2 => Orderly.bind ?_ fun ct3 _ o3 => ?_
          · split
            · exact o1
            · exact o1.makeTop.same (setSupClass_same _ _ _)
            · exact o1
          · split
            · exact o2
            · exact o2.makeBottom.same (setSubClass_same _ _ _)
            · exact o2
          · split
            · exact o3
            · rename_i s _
              split
              · rename_i hs
                simp only [Bool.and_eq_true] at hs
                obtain ⟨g1, g2⟩ := o3.not_interval hs.2
                refine Orderly.bind (Orderly.cloneN n s true o3 g1 g2) fun ct4 _ o4 => ?_
                exact (o4.same (setSubClass_same _ _ _)).bind fun _ _ o => o
              · exact o3
    · exact o.copyClass (ct.name c) c h1 h2

end ATG
