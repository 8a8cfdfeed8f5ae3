import Verif.Lemmas.SetSubs
/-!
# What an operation leaves alone, whatever its outcome
-/
namespace ATG

/-- `m` relates the heap before to the heap after by `R`, whether it raises or not. -/
def Keeps {α} (R : Heap → Heap → Prop) (m : M α) : Prop := ∀ h, R h (m h).heap

/-- reflexive and transitive relations on heaps -/
structure IsPre (R : Heap → Heap → Prop) : Prop where
  refl : ∀ h, R h h
  trans : ∀ a b c, R a b → R b c → R a c

namespace Keeps
variable {R : Heap → Heap → Prop}

theorem pure {α} (hR : IsPre R) (a : α) : Keeps R (Pure.pure a : M α) := fun h => hR.refl h
theorem throw {α} (hR : IsPre R) (e : Err) : Keeps R (M.throw e : M α) := fun h => hR.refl h
theorem bind {α β} (hR : IsPre R) {m : M α} {f : α → M β} (hm : Keeps R m) (hf : ∀ a, Keeps R (f a)) :
    Keeps R (m >>= f) := by
  intro h
  have h1 := hm h
  rw [M.bind_apply]
  cases e : m h with
  | ok a h' =>
    rw [e] at h1
    exact hR.trans _ _ _ h1 (hf a h')
  | err e' h' => rw [e] at h1; exact h1
theorem get_bind {β} {f : Heap → M β} (hf : ∀ h0, Keeps R (f h0)) : Keeps R (M.get >>= f) := by
  intro h; exact hf h h
/-- reading the heap, with the knowledge of which heap it is -/
theorem get_bind' {β} {f : Heap → M β} (hf : ∀ h, R h (f h h).heap) : Keeps R (M.get >>= f) := hf
theorem modify {f : Heap → Heap} (hf : ∀ h, R h (f h)) : Keeps R (M.modify f) := hf
theorem forL {α} (hR : IsPre R) (l : List α) {f : α → M Unit} (hf : ∀ a ∈ l, Keeps R (f a)) :
    Keeps R (M.forL l f) := by
  induction l with
  | nil => exact fun h => hR.refl h
  | cons x xs ih =>
    intro h
    have h1 := hf x (by simp) h
    rw [M.forL_cons]
    cases e : f x h with
    | ok a h' =>
      rw [e] at h1
      exact hR.trans _ _ _ h1 (ih (fun a ha => hf a (by simp [ha])) h')
    | err e' h' => rw [e] at h1; exact h1
theorem ite {α} {c : Prop} [Decidable c] {a b : M α} (ha : Keeps R a) (hb : Keeps R b) :
    Keeps R (if c then a else b) := by split <;> assumption
theorem mono {α} {R' : Heap → Heap → Prop} (hRR : ∀ a b, R a b → R' a b) {m : M α} (hm : Keeps R m) :
    Keeps R' m := fun h => hRR _ _ (hm h)
end Keeps

/-- only `fol` and `prev` may differ -/
def LinkFrame (h h' : Heap) : Prop := h' = { h with fol := h'.fol, prev := h'.prev }
/-- only the attributes that removal touches may differ -/
def RemFrame (h h' : Heap) : Prop :=
  h' = { h with fol := h'.fol, prev := h'.prev, subs := h'.subs, sup := h'.sup, within := h'.within }

theorem LinkFrame.pre : IsPre LinkFrame := by
  constructor
  · intro h; rfl
  · intro a b c h1 h2; unfold LinkFrame at *; rw [h2, h1]
theorem RemFrame.pre : IsPre RemFrame := by
  constructor
  · intro h; rfl
  · intro a b c h1 h2; unfold RemFrame at *; rw [h2, h1]
theorem LinkFrame.rem {h h' : Heap} (e : LinkFrame h h') : RemFrame h h' := by
  unfold LinkFrame RemFrame at *; rw [e]

theorem setFolPrev_frame (n : Nat) : ∀ x l, Keeps LinkFrame (setFolN n x l) ∧ Keeps LinkFrame (setPrevN n x l) := by
  induction n with
  | zero => intro x l; exact ⟨Keeps.throw LinkFrame.pre _, Keeps.throw LinkFrame.pre _⟩
  | succ n ih =>
    intro x l
    constructor
    · unfold setFolN
      apply Keeps.get_bind; intro h0
      refine Keeps.ite (Keeps.throw LinkFrame.pre _) (Keeps.ite (Keeps.pure LinkFrame.pre _)
        (Keeps.ite (Keeps.pure LinkFrame.pre _) ?_))
      cases l with
      | bumper => exact Keeps.modify fun h => rfl
      | obj y =>
        refine Keeps.ite ?_ (Keeps.throw LinkFrame.pre _)
        exact Keeps.bind LinkFrame.pre (Keeps.modify fun h => rfl) fun _ => (ih y _).2
    · unfold setPrevN
      apply Keeps.get_bind; intro h0
      refine Keeps.ite (Keeps.throw LinkFrame.pre _) (Keeps.ite (Keeps.pure LinkFrame.pre _)
        (Keeps.ite (Keeps.pure LinkFrame.pre _) ?_))
      cases l with
      | bumper => exact Keeps.modify fun h => rfl
      | obj y =>
        refine Keeps.ite ?_ (Keeps.throw LinkFrame.pre _)
        exact Keeps.bind LinkFrame.pre (Keeps.modify fun h => rfl) fun _ => (ih y _).1

theorem precLoop_frame {R : Heap → Heap → Prop} (hR : IsPre R) (hl : ∀ a b, LinkFrame a b → R a b)
    (pre : Ref → M Unit) (hpre : ∀ x, Keeps R (pre x)) :
    ∀ (l : List Ref) (p : Option Ref), Keeps R (precLoop pre p l) := by
  intro l
  induction l with
  | nil => intro p; exact Keeps.pure hR _
  | cons x rest ih =>
    intro p
    unfold precLoop
    refine Keeps.bind hR (hpre x) fun _ => Keeps.bind hR ?_ fun _ => Keeps.bind hR ?_ fun _ => ih _
    · cases p with
      | none => exact (setFolPrev_frame _ _ _).2.mono hl
      | some q => exact (setFolPrev_frame _ _ _).2.mono hl
    · cases rest with
      | nil => exact (setFolPrev_frame _ _ _).1.mono hl
      | cons y ys => exact (setFolPrev_frame _ _ _).1.mono hl

theorem setPrecedence_frame (l : List Ref) : Keeps LinkFrame (setPrecedence l) :=
  precLoop_frame LinkFrame.pre (fun _ _ e => e) _ (fun _ => Keeps.pure LinkFrame.pre _) l none

theorem removeN_frame (n : Nat) : (∀ x, Keeps RemFrame (removeSupersetN n x)) ∧
    (∀ w x, Keeps RemFrame (removeFromSubsetN n w x)) := by
  induction n with
  | zero => exact ⟨fun x => Keeps.throw RemFrame.pre _, fun w x => Keeps.throw RemFrame.pre _⟩
  | succ n ih =>
    constructor
    · intro x
      unfold removeSupersetN
      apply Keeps.get_bind; intro h0
      cases h0.sup x with
      | none => exact Keeps.pure RemFrame.pre _
      | some w =>
        refine Keeps.bind RemFrame.pre (Keeps.ite (ih.2 w x) (Keeps.pure RemFrame.pre _)) fun _ =>
          Keeps.modify fun h => rfl
    · intro w x
      unfold removeFromSubsetN
      apply Keeps.get_bind; intro h0
      refine Keeps.ite ?_ (Keeps.pure RemFrame.pre _)
      cases slIndexOf h0 (h0.subs w).vals x with
      | none => exact Keeps.throw RemFrame.pre _
      | some i =>
        refine Keeps.bind RemFrame.pre (Keeps.modify fun h => rfl) fun _ =>
          Keeps.bind RemFrame.pre (ih.1 x) fun _ => Keeps.bind RemFrame.pre (Keeps.modify fun h => rfl) fun _ =>
          Keeps.get_bind fun h1 => (setPrecedence_frame _).mono fun _ _ => LinkFrame.rem

theorem removeSuperset_frame (x : Ref) : Keeps RemFrame (removeSuperset x) := by
  intro h; unfold removeSuperset; exact (removeN_frame _).1 x h

/-- Removal of `x` touches no list but that of its superset, and touches the superset attribute of no
    other entry. -/
theorem removeN_only (n : Nat) : ∀ (x : Ref) (h : Heap),
    ((∀ v, h.sup x ≠ some v → (removeSupersetN n x h).heap.subs v = h.subs v) ∧
     (∀ r, r ≠ x → (removeSupersetN n x h).heap.sup r = h.sup r) ∧
     ((removeSupersetN n x h).heap.sup x = none ∨ (removeSupersetN n x h).heap.sup x = h.sup x)) ∧
    (∀ w, (h.sup x = none ∨ h.sup x = some w) →
     (∀ v, v ≠ w → (removeFromSubsetN n w x h).heap.subs v = h.subs v) ∧
     (∀ r, r ≠ x → (removeFromSubsetN n w x h).heap.sup r = h.sup r) ∧
     ((removeFromSubsetN n w x h).heap.sup x = none ∨ (removeFromSubsetN n w x h).heap.sup x = h.sup x)) := by
  induction n with
  | zero =>
    intro x h
    refine ⟨⟨fun _ _ => rfl, fun _ _ => rfl, Or.inr rfl⟩, fun w _ => ⟨fun _ _ => rfl, fun _ _ => rfl, Or.inr rfl⟩⟩
  | succ n ih =>
    intro x h
    constructor
    · unfold removeSupersetN
      rw [M.bind_apply, M.get_apply]
      simp only []
      cases e : h.sup x with
      | none => simp [Res.heap, e]
      | some w =>
        simp only []
        by_cases c : slContains h (h.subs w).vals x = true
        · rw [if_pos c, M.bind_apply]
          have h2 := (ih x h).2 w (Or.inr e)
          cases q : removeFromSubsetN n w x h with
          | ok a h1 =>
            rw [q] at h2
            simp only [Res.heap, M.modify_apply] at h2 ⊢
            refine ⟨?_, ?_, Or.inl (by simp)⟩
            · intro v hv; exact h2.1 v (by intro q; apply hv; rw [q])
            · intro r hr; simp only [upd_ne _ _ _ _ hr]; exact h2.2.1 r hr
          | err e' h1 =>
            rw [q] at h2
            simp only [Res.heap] at h2 ⊢
            refine ⟨?_, h2.2.1, ?_⟩
            · intro v hv; exact h2.1 v (by intro q; apply hv; rw [q])
            · rw [← e]; exact h2.2.2
        · rw [if_neg c, M.bind_apply]
          simp only [M.pure_apply, M.modify_apply, Res.heap]
          refine ⟨fun _ _ => by trivial, ?_, Or.inl (by simp)⟩
          intro r hr; simp only [upd_ne _ _ _ _ hr]
    · intro w hw
      unfold removeFromSubsetN
      rw [M.bind_apply, M.get_apply]
      simp only []
      by_cases c : slContains h (h.subs w).vals x = true
      · rw [if_pos c]
        cases q : slIndexOf h (h.subs w).vals x with
        | none => exact ⟨fun _ _ => rfl, fun _ _ => rfl, Or.inr rfl⟩
        | some i =>
          simp only []
          rw [M.bind_apply]
          simp only [putSubs, M.modify_apply]
          rw [M.bind_apply]
          generalize hh1 : ({ h with
            subs := upd h.subs w ⟨(h.subs w).vals.eraseIdx i, (h.subs w).ecls⟩ } : Heap) = h1
          have hs1 : ∀ v, v ≠ w → h1.subs v = h.subs v := by
            intro v hv; subst hh1; simp [upd, hv]
          have hp1 : h1.sup = h.sup := by subst hh1; rfl
          have h2 := (ih x h1).1
          rw [hp1] at h2
          cases q2 : removeSupersetN n x h1 with
          | err e' h2' =>
            rw [q2] at h2
            simp only [Res.heap] at h2 ⊢
            refine ⟨?_, h2.2.1, h2.2.2⟩
            intro v hv
            rw [h2.1 v (by rcases hw with hw | hw <;> rw [hw] <;> simp [Ne.symm hv]), hs1 v hv]
          | ok a h2' =>
            rw [q2] at h2
            simp only [Res.heap] at h2
            simp only []
            rw [M.bind_apply]
            simp only [M.modify_apply]
            rw [M.bind_apply]
            simp only [M.get_apply]
            have h3 := setPrecedence_frame (h2'.subs w).vals { h2' with
              sup := upd h2'.sup x none, within := upd h2'.within x none }
            unfold LinkFrame at h3
            rw [h3]
            refine ⟨?_, ?_, Or.inl (by simp)⟩
            · intro v hv
              show h2'.subs v = _
              rw [h2.1 v (by rcases hw with hw | hw <;> rw [hw] <;> simp [Ne.symm hv]), hs1 v hv]
            · intro r hr
              show upd h2'.sup x none r = _
              simp only [upd_ne _ _ _ _ hr]; exact h2.2.1 r hr
      · rw [if_neg c]
        exact ⟨fun _ _ => rfl, fun _ _ => rfl, Or.inr rfl⟩

theorem removeSuperset_only (x : Ref) (h : Heap) :
    (∀ v, h.sup x ≠ some v → (removeSuperset x h).heap.subs v = h.subs v) ∧
    (∀ r, r ≠ x → (removeSuperset x h).heap.sup r = h.sup r) := by
  unfold removeSuperset
  have := (removeN_only (match h.sup x with | none => 1 | some w => removeFuel h w) x h).1
  exact ⟨this.1, this.2.1⟩

/-- Adoption does not touch the list of the adopting interval. -/
theorem adoptAll_subs (w : Ref) (l : List Ref) : Keeps (fun h h' => h'.subs w = h.subs w ∧ RemFrame h h') (adoptAll w l) := by
  have hR : IsPre (fun h h' : Heap => h'.subs w = h.subs w ∧ RemFrame h h') :=
    ⟨fun h => ⟨rfl, rfl⟩, fun a b c h1 h2 => ⟨h2.1.trans h1.1, RemFrame.pre.trans _ _ _ h1.2 h2.2⟩⟩
  unfold adoptAll
  apply Keeps.forL hR
  intro el _
  apply Keeps.get_bind'
  intro h
  by_cases e : h.sup el = some w
  · rw [if_pos e]; exact hR.refl h
  · rw [if_neg e]
    have h1 : (removeSuperset el h).heap.subs w = h.subs w ∧ RemFrame h (removeSuperset el h).heap :=
      ⟨(removeSuperset_only el h).1 w e, removeSuperset_frame el h⟩
    rw [M.bind_apply]
    cases q : removeSuperset el h with
    | ok a h' =>
      rw [q] at h1
      exact hR.trans _ _ _ h1 ⟨rfl, rfl⟩
    | err e' h' => rw [q] at h1; exact h1

end ATG
