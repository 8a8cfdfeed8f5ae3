import Verif.Model.SeqList
/-!
# Lemmas about precedence links
-/
namespace ATG

/-- the heap with new `fol`, `prev` and `intier` attributes -/
abbrev Heap.withFPI (h : Heap) (f p : Ref → Option Link) (i : Ref → Option TRef) : Heap :=
  { h with fol := f, prev := p, intier := i }

theorem upd_eq_self {α} (f : Nat → α) (k : Nat) (v : α) (h : f k = v) : upd f k v = f := by
  funext i; simp only [upd]; split <;> simp_all

theorem setPrevN_ok (n : Nat) (x y : Ref) (h : Heap) (hxy : x ≠ y) (hl : h.label x ≠ "#")
    (hc : h.cls y = h.cls x) :
    setPrevN (n + 3) x (.obj y) h = .ok ()
      (if h.prev x = some (.obj y) then h else
        { h with
          prev := upd h.prev x (some (.obj y))
          fol := if h.label y = "#" then h.fol else upd h.fol y (some (.obj x)) }) := by
  by_cases hp : h.prev x = some (.obj y)
  · simp [setPrevN, M.bind_apply, hl, hp, Ne.symm hxy]
  · by_cases hy : h.label y = "#"
    · simp [setPrevN, setFolN, M.bind_apply, hl, hp, hc, hy, hxy, Ne.symm hxy]
    · by_cases hf : h.fol y = some (.obj x)
      · simp [setPrevN, setFolN, M.bind_apply, hl, hp, hc, hy, hxy, Ne.symm hxy, hf,
          upd_eq_self _ _ _ hf]
      · simp [setPrevN, setFolN, M.bind_apply, hl, hp, hc, hy, hxy, Ne.symm hxy, hf]

theorem setFolN_ok (n : Nat) (x y : Ref) (h : Heap) (hxy : x ≠ y) (hl : h.label x ≠ "#")
    (hc : h.cls y = h.cls x) :
    setFolN (n + 3) x (.obj y) h = .ok ()
      (if h.fol x = some (.obj y) then h else
        { h with
          fol := upd h.fol x (some (.obj y))
          prev := if h.label y = "#" then h.prev else upd h.prev y (some (.obj x)) }) := by
  by_cases hp : h.fol x = some (.obj y)
  · simp [setFolN, M.bind_apply, hl, hp, Ne.symm hxy]
  · by_cases hy : h.label y = "#"
    · simp [setPrevN, setFolN, M.bind_apply, hl, hp, hc, hy, hxy, Ne.symm hxy]
    · by_cases hf : h.prev y = some (.obj x)
      · simp [setPrevN, setFolN, M.bind_apply, hl, hp, hc, hy, hxy, Ne.symm hxy, hf,
          upd_eq_self _ _ _ hf]
      · simp [setPrevN, setFolN, M.bind_apply, hl, hp, hc, hy, hxy, Ne.symm hxy, hf]

theorem setPrev_ok (x y : Ref) (h : Heap) (hxy : x ≠ y) (hl : h.label x ≠ "#")
    (hc : h.cls y = h.cls x) :
    setPrev x (.obj y) h = .ok ()
      (if h.prev x = some (.obj y) then h else
        { h with
          prev := upd h.prev x (some (.obj y))
          fol := if h.label y = "#" then h.fol else upd h.fol y (some (.obj x)) }) :=
  setPrevN_ok 1 x y h hxy hl hc

theorem setFol_ok (x y : Ref) (h : Heap) (hxy : x ≠ y) (hl : h.label x ≠ "#")
    (hc : h.cls y = h.cls x) :
    setFol x (.obj y) h = .ok ()
      (if h.fol x = some (.obj y) then h else
        { h with
          fol := upd h.fol x (some (.obj y))
          prev := if h.label y = "#" then h.prev else upd h.prev y (some (.obj x)) }) :=
  setFolN_ok 1 x y h hxy hl hc

theorem setFinal_ok (x : Ref) (h : Heap) (hl : h.label x ≠ "#") :
    setFinal x h = .ok () { h with fol := upd h.fol x (some .bumper) } := by
  by_cases hp : h.fol x = some .bumper
  · simp [setFinal, setFol, linkFuel, setFolN, M.bind_apply, hl, hp, upd_eq_self _ _ _ hp]
  · simp [setFinal, setFol, linkFuel, setFolN, M.bind_apply, hl, hp]

theorem setInitial_ok (x : Ref) (h : Heap) (hl : h.label x ≠ "#") :
    setInitial x h = .ok () { h with prev := upd h.prev x (some .bumper) } := by
  by_cases hp : h.prev x = some .bumper
  · simp [setInitial, setPrev, linkFuel, setPrevN, M.bind_apply, hl, hp, upd_eq_self _ _ _ hp]
  · simp [setInitial, setPrev, linkFuel, setPrevN, M.bind_apply, hl, hp]

/-- the link a list gives to the successor of `r` -/
def nextIn : List Ref → Ref → Link
  | [], _ => .bumper
  | [_], _ => .bumper
  | x :: y :: l, r => if r = x then .obj y else nextIn (y :: l) r

/-- link to the element before -/
def plink : Option Ref → Link
  | none => .bumper
  | some q => .obj q

/-- the link a list (with `p` before it) gives to the predecessor of `r` -/
def prevIn : Option Ref → List Ref → Ref → Link
  | _, [], _ => .bumper
  | p, x :: l, r => if r = x then plink p else prevIn (some x) l r

/-- `fol` after linking the list `l` -/
def folOf (l : List Ref) (f : Ref → Option Link) : Ref → Option Link :=
  fun r => if r ∈ l then some (nextIn l r) else f r

/-- `prev` after linking the list `l` -/
def prevOf (p : Option Ref) (l : List Ref) (f : Ref → Option Link) : Ref → Option Link :=
  fun r => if r ∈ l then some (prevIn p l r) else f r

@[simp] theorem folOf_nil (f) : folOf [] f = f := by funext r; simp [folOf]
@[simp] theorem prevOf_nil (p f) : prevOf p [] f = f := by funext r; simp [prevOf]

theorem precLoop_ok (pre : Ref → M Unit) (g : Ref → (Ref → Option TRef) → (Ref → Option TRef))
    (hpre : ∀ x h, pre x h = .ok () { h with intier := g x h.intier }) :
    ∀ (l : List Ref) (p : Option Ref) (h : Heap) (c : CRef),
      l.Nodup → (∀ x ∈ l, h.cls x = c) → (∀ x ∈ l, h.label x ≠ "#") →
      (∀ q, p = some q → q ∉ l ∧ h.cls q = c ∧ h.label q ≠ "#" ∧
        ∀ x, l.head? = some x → h.fol q = some (.obj x)) →
      precLoop pre p l h = .ok ()
        (h.withFPI (folOf l h.fol) (prevOf p l h.prev) (l.foldl (fun it x => g x it) h.intier)) := by
  intro l
  induction l with
  | nil =>
    intro p h c _ _ _ _
    simp [precLoop, Heap.withFPI]
  | cons x rest ih =>
    intro p h c hnd hc hl hq
    have hcx := hc x (by simp)
    have hlx := hl x (by simp)
    -- state after the `prev` step
    have step1 : (match p with | none => setInitial x | some q => setPrev x (.obj q))
        { h with intier := g x h.intier } = .ok ()
        { h with intier := g x h.intier, prev := upd h.prev x (some (plink p)) } := by
      cases p with
      | none => simp [setInitial_ok _ _ (show ({ h with intier := g x h.intier } : Heap).label x ≠ "#" from hlx), plink]
      | some q =>
        obtain ⟨hqn, hqc, hql, hqf⟩ := hq q rfl
        have hxq : x ≠ q := by intro e; subst e; simp at hqn
        have hf := hqf x rfl
        show setPrev x (.obj q) _ = _
        rw [setPrev_ok x q { h with intier := g x h.intier } hxq hlx (hqc.trans hcx.symm)]
        simp only [plink, hql, if_false]
        by_cases hp : h.prev x = some (.obj q)
        · simp [hp, upd_eq_self _ _ _ hp]
        · simp [hp, upd_eq_self _ _ _ hf]
    cases rest with
    | nil =>
      have : precLoop pre p [x] h = .ok ()
          { h with intier := g x h.intier, prev := upd h.prev x (some (plink p)),
                   fol := upd h.fol x (some .bumper) } := by
        unfold precLoop
        rw [M.bind_ok (hpre x h)]
        erw [M.bind_ok step1]
        simp only []
        rw [M.bind_ok (setFinal_ok x
          { h with intier := g x h.intier, prev := upd h.prev x (some (plink p)) } hlx)]
        simp [precLoop]
      rw [this]
      congr 1
      simp only [Heap.withFPI, List.foldl]
      congr 1
      · funext r; simp only [folOf, upd]; by_cases e : r = x <;> simp [e, nextIn]
      · funext r; simp only [prevOf, upd]; by_cases e : r = x <;> simp [e, prevIn]
    | cons y rest =>
      have hxy : x ≠ y := by intro e; subst e; simp at hnd
      have hly := hl y (by simp)
      have hcy := hc y (by simp)
      -- state after the `fol` step
      let h2 : Heap := { h with intier := g x h.intier, prev := upd h.prev x (some (plink p)) }
      let h3 : Heap := { h2 with
        fol := upd h2.fol x (some (.obj y))
        prev := if h2.fol x = some (.obj y) then h2.prev else upd h2.prev y (some (.obj x)) }
      have step2 : setFol x (.obj y) h2 = .ok () h3 := by
        rw [setFol_ok x y h2 hxy hlx (hcy.trans hcx.symm)]
        simp only [show h2.label y ≠ "#" from hly, if_false]
        by_cases hp : h2.fol x = some (.obj y)
        · simp [h3, hp, upd_eq_self _ _ _ hp]
        · simp [h3, hp]
      have hrec := ih (some x) h3 c (by simp at hnd; simp [hnd])
        (by intro z hz; exact hc z (by simp at hz; simp [hz]))
        (by intro z hz; exact hl z (by simp at hz; simp [hz]))
        (by
          intro q e
          cases e
          refine ⟨by simp at hnd; simp [hnd], hcx, hlx, ?_⟩
          intro z hz
          simp at hz
          subst hz
          simp [h3])
      unfold precLoop
      rw [M.bind_ok (hpre x h)]
      erw [M.bind_ok step1]
      simp only []
      rw [M.bind_ok step2, hrec]
      congr 1
      simp only [Heap.withFPI, List.foldl, h3, h2]
      have hxn : x ∉ y :: rest := by simp at hnd; simp [hnd]
      congr 1
      · funext r
        simp only [folOf, upd]
        by_cases e : r = x
        · subst e; simp [nextIn, hxn]
        · simp only [e, if_false, List.mem_cons, false_or, nextIn]
      · funext r
        simp only [prevOf]
        by_cases e : r = x
        · subst e
          have hrx : r ≠ y := hxy
          simp only [hxn, if_false]
          simp only [prevIn, List.mem_cons, true_or, if_true]
          split <;> simp [hrx]
        · by_cases e2 : r ∈ y :: rest
          · rw [if_pos e2, if_pos (by simp only [List.mem_cons] at e2 ⊢; exact Or.inr e2)]
            simp only [prevIn, e, if_false]
          · have hry : r ≠ y := by intro ee; subst ee; simp at e2
            have e3 : r ∉ x :: y :: rest := by
              intro hm
              rcases List.mem_cons.mp hm with a | a
              · exact e a
              · exact e2 a
            rw [if_neg e2, if_neg e3]
            split <;> simp [hry, e]

end ATG
