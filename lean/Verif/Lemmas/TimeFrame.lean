import Verif.Lemmas.Program
import Verif.Spec.Program
/-!
# Relations between times and labels before and after

`Moved S E`: the existing entries keep their labels, and their starts and ends are related by `S` and `E`.
-/
namespace ATG

/-- existing entries keep their labels and have starts and ends related by `S` and `E` -/
def Moved (S E : Time → Time → Prop) (h h' : Heap) : Prop :=
  h.nE ≤ h'.nE ∧ ∀ x, x < h.nE → S (h.start x) (h'.start x) ∧ E (h.stop x) (h'.stop x) ∧ h'.label x = h.label x

/-- the same for the entries below `n` -/
def Past (S E : Time → Time → Prop) (n : Nat) (h h' : Heap) : Prop := n ≤ h.nE → n ≤ h'.nE ∧
  ∀ x, x < n → S (h.start x) (h'.start x) ∧ E (h.stop x) (h'.stop x) ∧ h'.label x = h.label x

/-- reflexive and transitive -/
structure Pre (S : Time → Time → Prop) : Prop where
  refl : ∀ a, S a a
  trans : ∀ a b c, S a b → S b c → S a c

section
variable {S E : Time → Time → Prop}

theorem Moved.pre (hS : Pre S) (hE : Pre E) : IsPre (Moved S E) where
  refl h := ⟨Nat.le_refl _, fun _ _ => ⟨hS.refl _, hE.refl _, rfl⟩⟩
  trans a b c h1 h2 := ⟨Nat.le_trans h1.1 h2.1, fun x hx => by
    have k1 := h1.2 x hx
    have k2 := h2.2 x (Nat.lt_of_lt_of_le hx h1.1)
    exact ⟨hS.trans _ _ _ k1.1 k2.1, hE.trans _ _ _ k1.2.1 k2.2.1, k2.2.2.trans k1.2.2⟩⟩

theorem Past.pre (hS : Pre S) (hE : Pre E) (n : Nat) : IsPre (Past S E n) where
  refl h := fun hn => ⟨hn, fun x _ => ⟨hS.refl _, hE.refl _, rfl⟩⟩
  trans a b c p q := fun hn => by
    obtain ⟨p1, p2⟩ := p hn
    obtain ⟨q1, q2⟩ := q p1
    exact ⟨q1, fun x hx => ⟨hS.trans _ _ _ (p2 x hx).1 (q2 x hx).1, hE.trans _ _ _ (p2 x hx).2.1 (q2 x hx).2.1,
      (q2 x hx).2.2.trans (p2 x hx).2.2⟩⟩

theorem Past.of {n : Nat} {h h' : Heap} (w : Moved S E h h') : Past S E n h h' := fun hn =>
  ⟨Nat.le_trans hn w.1, fun x hx => w.2 x (Nat.lt_of_lt_of_le hx hn)⟩

theorem Past.moved {h h' : Heap} (w : Past S E h.nE h h') : Moved S E h h' := w (Nat.le_refl _)

theorem Moved.stable (hS : Pre S) (hE : Pre E) : Stable (Moved S E) where
  pre := Moved.pre hS hE
  same e0 _ e1 e2 e3 _ _ := ⟨by rw [e0]; exact Nat.le_refl _, fun x _ =>
    ⟨by rw [e1]; exact hS.refl _, by rw [e2]; exact hE.refl _, by rw [e3]⟩⟩
  entry c s e l h := by
    refine ⟨Nat.le_succ _, fun x hx => ⟨?_, ?_, ?_⟩⟩
    · have : (ATG.newEntry c s e l h).heap.start x = h.start x := upd_ne _ _ _ _ (Nat.ne_of_lt hx)
      rw [this]; exact hS.refl _
    · have : (ATG.newEntry c s e l h).heap.stop x = h.stop x := upd_ne _ _ _ _ (Nat.ne_of_lt hx)
      rw [this]; exact hE.refl _
    · exact upd_ne _ _ _ _ (Nat.ne_of_lt hx)
  cast c r h := by
    unfold castTo
    split <;> exact ⟨Nat.le_refl _, fun _ _ => ⟨hS.refl _, hE.refl _, rfl⟩⟩
  fol h x l _ _ _ := ⟨Nat.le_refl _, fun _ _ => ⟨hS.refl _, hE.refl _, rfl⟩⟩
  prev h x l _ _ _ := ⟨Nat.le_refl _, fun _ _ => ⟨hS.refl _, hE.refl _, rfl⟩⟩

theorem Moved.snappable (hS : Pre S) (hE : Pre E) (mS : ∀ a b, a ≤ b → S a b) (mE : ∀ a b, b ≤ a → E a b) :
    Snappable (Moved S E) where
  toStable := Moved.stable hS hE
  snap h u x y := by
    refine ⟨Nat.le_refl _, fun z _ => ⟨mS _ _ ?_, mE _ _ ?_, rfl⟩⟩
    · show h.start z ≤ upd (upd h.start u _) x _ z
      unfold upd
      split
      · rename_i e; rw [e]; grind
      · split
        · rename_i e; rw [e]; grind
        · grind
    · show upd (upd h.stop u _) y _ z ≤ h.stop z
      unfold upd
      split
      · rename_i e; rw [e]; grind
      · split
        · rename_i e; rw [e]; grind
        · grind

end

instance : Stable Still := by
  have := Moved.stable (S := fun a b => b = a) (E := fun a b => b = a) ⟨fun _ => rfl, fun _ _ _ p q => q.trans p⟩
    ⟨fun _ => rfl, fun _ _ _ p q => q.trans p⟩
  exact this

theorem newEntries_new (c : CRef) : ∀ (l : List (Time × Time × String)) (h : Heap) rs h',
    newEntries c l h = .ok rs h' → ∀ r ∈ rs, h.nE ≤ r
  | [], h, rs, h', e => by cases e; simp
  | (s, t, lab) :: l, h, rs, h', e => by
    unfold newEntries at e
    rw [M.bind_ok (show newEntry c s t lab h = .ok h.nE _ from rfl)] at e
    generalize hq : newEntries c l _ = q at e
    rw [M.bind_apply, hq] at e
    cases q with
    | err er hh => simp at e
    | ok rs' h2 =>
      injection e with e1 e2
      subst e1
      intro r hr
      rcases List.mem_cons.mp hr with rfl | hr
      · exact Nat.le_refl _
      · exact Nat.le_of_succ_le (newEntries_new c l _ rs' h2 hq r hr)

theorem Moved.interleaveGroup {S E : Time → Time → Prop} (hS : Pre S) (hE : Pre E) [Snappable (Moved S E)]
    (g : GRef) (new : CRef) (down copy : Option CRef) (labels : Bool) :
    Keeps (Moved S E) (interleaveGroup g new down copy labels) := by
  unfold ATG.interleaveGroup
  apply Keeps.get_bind'
  intro h
  cases (h.gtiers g).find? (fun t => some (h.tcls t) == copy) with
  | none => exact (Moved.pre hS hE).refl h
  | some ct =>
    dsimp only
    apply Past.moved
    generalize hr : newEntries new ((h.tseq ct).vals.map fun x => (h.start x, h.stop x, h.label x)) h = r
    have h1 := Past.of (n := h.nE) (Prog.newEntries (R := Moved S E) new
      ((h.tseq ct).vals.map fun x => (h.start x, h.stop x, h.label x)) h)
    rw [hr] at h1
    cases r with
    | err e h' => rw [M.bind_err hr]; exact h1
    | ok es h' =>
      have hnew := newEntries_new new _ h es h' hr
      rw [M.bind_ok hr]
      have pp := Past.pre hS hE h.nE
      refine pp.trans _ _ _ h1 ?_
      generalize h' = h2
      have up : ∀ {α} {m : M α}, Keeps (Moved S E) m → Keeps (Past S E h.nE) m := fun k => k.mono fun _ _ => Past.of
      refine Keeps.bind pp (up (Prog.newTier _ _)) (fun t => ?_) h2
      refine Keeps.bind pp (Keeps.ite (Keeps.pure pp _)
        (Keeps.forL pp _ fun x hx => Keeps.modify fun k hn => ⟨hn, fun y hy =>
          ⟨hS.refl _, hE.refl _, upd_ne _ _ _ _ fun q => ?_⟩⟩)) (fun _ => ?_)
      · rw [q] at hy; exact absurd hy (Nat.not_lt.mpr (hnew x hx))
      · exact up (Keeps.get_bind fun _ => Prog.bind (Prog.of_modify fun _ => Stable.same rfl rfl rfl rfl rfl rfl rfl)
          fun _ => Prog.bind (Prog.forL _ fun _ => Prog.refreshTier _) fun _ => Prog.newGroup _)

end ATG
