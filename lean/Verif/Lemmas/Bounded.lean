import Verif.Props.Links
import Verif.Model.Tier
import Verif.Lemmas.Frame
import Verif.Spec.Bounded
/-!
# Bounding the recursion of `append`
-/
namespace ATG

/-- `m` raises no `RecursionError`, and relates the heaps by `R` if it returns. -/
def Tame {α} (R : Heap → Heap → Prop) (m : M α) : Prop :=
  ∀ h, (∀ a h', m h = .ok a h' → R h h') ∧ ∀ e h', m h = .err e h' → e ≠ .recursionError

namespace Tame
variable {R : Heap → Heap → Prop}

theorem pure {α} (hR : IsPre R) (a : α) : Tame R (Pure.pure a : M α) := fun h =>
  ⟨fun _ _ e => by injection e with _ e; subst e; exact hR.refl _, fun _ _ e => by cases e⟩
theorem throw {α} (er : Err) (he : er ≠ .recursionError) : Tame R (M.throw er : M α) := fun h =>
  ⟨fun _ _ e => (by cases e), fun _ _ e => by injection e with e _; subst e; exact he⟩
theorem bind {α β} (hR : IsPre R) {m : M α} {f : α → M β} (hm : Tame R m) (hf : ∀ a, Tame R (f a)) : Tame R (m >>= f) := by
  intro h
  rw [M.bind_apply]
  cases e : m h with
  | ok a h1 =>
    exact ⟨fun b h' q => hR.trans _ _ _ ((hm h).1 a h1 e) ((hf a h1).1 b h' q), fun er h' q => (hf a h1).2 er h' q⟩
  | err er h1 =>
    refine ⟨fun b h' q => (by cases q), fun er' h' q => ?_⟩
    injection q with q _
    subst q
    exact (hm h).2 er h1 e
theorem get_bind {β} {f : Heap → M β} (hf : ∀ h0, Tame R (f h0)) : Tame R (M.get >>= f) := fun h => hf h h
theorem modify {f : Heap → Heap} (hf : ∀ h, R h (f h)) : Tame R (M.modify f) := fun h =>
  ⟨fun _ _ e => by injection e with _ e; subst e; exact hf h, fun _ _ e => by cases e⟩
theorem forL {α} (hR : IsPre R) (l : List α) {f : α → M Unit} (hf : ∀ a ∈ l, Tame R (f a)) : Tame R (M.forL l f) := by
  induction l with
  | nil => exact pure hR _
  | cons x xs ih =>
    intro h
    rw [M.forL_cons]
    have ih' := ih fun a ha => hf a (by simp [ha])
    cases e : f x h with
    | ok a h1 =>
      exact ⟨fun b h' q => hR.trans _ _ _ ((hf x (by simp) h).1 a h1 e) ((ih' h1).1 b h' q), fun er h' q => (ih' h1).2 er h' q⟩
    | err er h1 =>
      refine ⟨fun b h' q => (by cases q), fun er' h' q => ?_⟩
      injection q with q _
      subst q
      exact (hf x (by simp) h).2 er h1 e
theorem ite {α} {c : Prop} [Decidable c] {a b : M α} (ha : Tame R a) (hb : Tame R b) : Tame R (if c then a else b) := by
  split <;> assumption
end Tame

/-- times, labels, relations, groups and the entries of tiers are the same -/
structure Calm (h h' : Heap) : Prop where
  start : h'.start = h.start
  stop : h'.stop = h.stop
  label : h'.label = h.label
  subs : h'.subs = h.subs
  sup : h'.sup = h.sup
  gtiers : h'.gtiers = h.gtiers
  gcont : h'.gcont = h.gcont
  twithin : h'.twithin = h.twithin
  point : h'.isPoint = h.isPoint
  tseq : ∀ t, (h'.tseq t).vals = (h.tseq t).vals

theorem Calm.pre : IsPre Calm where
  refl _ := ⟨rfl, rfl, rfl, rfl, rfl, rfl, rfl, rfl, rfl, fun _ => rfl⟩
  trans _ _ _ p q := ⟨q.start.trans p.start, q.stop.trans p.stop, q.label.trans p.label, q.subs.trans p.subs, q.sup.trans p.sup,
    q.gtiers.trans p.gtiers, q.gcont.trans p.gcont, q.twithin.trans p.twithin, q.point.trans p.point, fun t => (q.tseq t).trans (p.tseq t)⟩

theorem Calm.link {h h' : Heap} (e : LinkFrame h h') : Calm h h' := by
  unfold LinkFrame at e
  rw [e]
  exact ⟨rfl, rfl, rfl, rfl, rfl, rfl, rfl, rfl, rfl, fun _ => rfl⟩

theorem setFol_out (x : Ref) (l : Link) (h : Heap) :
    (∀ h', setFol x l h ≠ .err .recursionError h') ∧ ∀ h', setPrev x l h ≠ .err .recursionError h' := by
  constructor
  · intro h'
    by_cases e0 : l = .obj x
    · subst e0; simp [setFol, linkFuel, setFolN, M.bind_apply]
    by_cases e1 : h.label x = "#"
    · simp [setFol, linkFuel, setFolN, M.bind_apply, e0, e1]
    cases l with
    | bumper => by_cases e2 : h.fol x = some .bumper <;> simp [setFol, linkFuel, setFolN, M.bind_apply, e1, e2]
    | obj y =>
      have hxy : x ≠ y := fun e => e0 (by rw [e])
      have hne : y ≠ x := fun e => hxy e.symm
      by_cases hc : h.cls y = h.cls x
      · rw [setFol_ok x y h hxy e1 hc]; simp
      · by_cases e2 : h.fol x = some (.obj y) <;> simp [setFol, linkFuel, setFolN, M.bind_apply, hne, e1, hc, e2]
  · intro h'
    by_cases e0 : l = .obj x
    · subst e0; simp [setPrev, linkFuel, setPrevN, M.bind_apply]
    by_cases e1 : h.label x = "#"
    · simp [setPrev, linkFuel, setPrevN, M.bind_apply, e0, e1]
    cases l with
    | bumper => by_cases e2 : h.prev x = some .bumper <;> simp [setPrev, linkFuel, setPrevN, M.bind_apply, e1, e2]
    | obj y =>
      have hxy : x ≠ y := fun e => e0 (by rw [e])
      have hne : y ≠ x := fun e => hxy e.symm
      by_cases hc : h.cls y = h.cls x
      · rw [setPrev_ok x y h hxy e1 hc]; simp
      · by_cases e2 : h.prev x = some (.obj y) <;> simp [setPrev, linkFuel, setPrevN, M.bind_apply, hne, e1, hc, e2]

theorem tame_of {α} {R : Heap → Heap → Prop} {m : M α} (k : Keeps R m) (o : ∀ h h', m h ≠ .err .recursionError h') : Tame R m := by
  intro h
  refine ⟨fun a h' e => ?_, fun e h' q r => o h h' (by rw [q, r])⟩
  have := k h
  rw [e] at this
  exact this

theorem setFol_tame (x : Ref) (l : Link) : Tame Calm (setFol x l) :=
  tame_of ((setFolPrev_frame _ x l).1.mono fun _ _ => Calm.link) fun h => (setFol_out x l h).1
theorem setPrev_tame (x : Ref) (l : Link) : Tame Calm (setPrev x l) :=
  tame_of ((setFolPrev_frame _ x l).2.mono fun _ _ => Calm.link) fun h => (setFol_out x l h).2

theorem precLoop_tame {pre : Ref → M Unit} (hpre : ∀ x, Tame Calm (pre x)) :
    ∀ (l : List Ref) (p : Option Ref), Tame Calm (precLoop pre p l)
  | [], _ => Tame.pure Calm.pre _
  | x :: rest, p => by
    unfold precLoop
    refine Tame.bind Calm.pre (hpre x) fun _ => Tame.bind Calm.pre ?_ fun _ => Tame.bind Calm.pre ?_ fun _ => precLoop_tame hpre rest _
    · cases p with
      | none => exact setPrev_tame _ _
      | some q => exact setPrev_tame _ _
    · cases rest with
      | nil => exact setFol_tame _ _
      | cons y ys => exact setFol_tame _ _

theorem setContainsSeq_tame (t : TRef) : Tame Calm (setContainsSeq t) := by
  unfold setContainsSeq
  exact Tame.bind Calm.pre (Tame.modify fun h => ⟨rfl, rfl, rfl, rfl, rfl, rfl, rfl, rfl, rfl, fun _ => rfl⟩) fun _ => Tame.get_bind fun _ =>
    Tame.forL Calm.pre _ fun _ _ => Tame.modify fun h => ⟨rfl, rfl, rfl, rfl, rfl, rfl, rfl, rfl, rfl, fun _ => rfl⟩

theorem isSubO_tame (c : Option CRef) (d : CRef) : Tame Calm (isSubO c d) := by
  intro h
  unfold isSubO
  cases c with
  | none => exact ⟨fun _ _ e => (by cases e), fun e h' q => by injection q with q _; subst q; decide⟩
  | some c => exact ⟨fun _ _ e => (by injection e with _ e; subst e; exact Calm.pre.refl _), fun e h' q => by cases q⟩

theorem tierPrecedence_tame (t : TRef) : Tame Calm (tierPrecedence t) := by
  unfold tierPrecedence
  refine Tame.get_bind fun _ => Tame.bind Calm.pre (precLoop_tame (fun x => ?_) _ _) fun _ => Tame.ite (setContainsSeq_tame t)
    (Tame.bind Calm.pre (isSubO_tame _ _) fun _ => Tame.ite (setContainsSeq_tame t) (Tame.pure Calm.pre _))
  exact Tame.modify fun h => ⟨rfl, rfl, rfl, rfl, rfl, rfl, rfl, rfl, rfl, fun _ => rfl⟩

theorem castTo_tame (c : CRef) (x : Ref) : Tame Calm (castTo c x) := by
  intro h
  unfold castTo
  split
  · rename_i hp
    refine ⟨fun _ _ e => ?_, fun e h' q => by cases q⟩
    injection e with _ e
    subst e
    refine ⟨rfl, rfl, rfl, rfl, rfl, rfl, rfl, rfl, ?_, fun _ => rfl⟩
    funext y
    unfold Heap.isPoint at hp ⊢
    show h.ct.isSub (upd h.cls x c y) cPoint = _
    unfold upd
    split
    · rename_i q; rw [q]; exact hp
    · rfl
  · exact ⟨fun _ _ e => (by cases e), fun e h' q => by injection q with q _; subst q; decide⟩

theorem slMk_tame (l : List Ref) : Tame Calm (slMk l) := by
  intro h
  unfold slMk
  split
  · exact ⟨fun _ _ e => (by injection e with _ e; subst e; exact Calm.pre.refl _), fun e h' q => by cases q⟩
  · split
    · exact ⟨fun _ _ e => (by injection e with _ e; subst e; exact Calm.pre.refl _), fun e h' q => by cases q⟩
    · exact ⟨fun _ _ e => (by cases e), fun e h' q => by injection q with q _; subst q; decide⟩

theorem slMk_perm {l : List Ref} {h : Heap} {sl : SL} {h' : Heap} (e : slMk l h = .ok sl h') : sl.vals.Perm l := by
  unfold slMk at e
  split at e
  · injection e with e _; subst e; exact List.Perm.refl _
  · split at e
    · injection e with e _; subst e; exact slSort_perm _ _
    · cases e

/-- adding an entry that has no equal in the list -/
theorem slAdd_one {t : TRef} {x : Ref} {h : Heap} (hx : slContains h (h.tseq t).vals x = false) :
    (∀ e h', slAdd (putSeq t) (h.tseq t) [x] h = .err e h' → e ≠ .recursionError) ∧
    ∀ sl h', slAdd (putSeq t) (h.tseq t) [x] h = .ok sl h' → Calm h h' ∧ sl.vals.Perm ((h.tseq t).vals ++ [x]) := by
  have hf : [x].filter (fun y => !slContains h (h.tseq t).vals y) = [x] := by simp [hx]
  -- the part after the class has been determined
  have rest : ∀ c : CRef, Tame Calm (do
      M.forL ((h.tseq t).vals ++ [x]) (fun y => do
        let h ← M.get
        if h.cls y = c then pure () else castTo c y)
      slMk ((h.tseq t).vals ++ [x]) : M SL) := fun c =>
    Tame.bind Calm.pre (Tame.forL Calm.pre _ fun y _ => Tame.get_bind fun _ => Tame.ite (Tame.pure Calm.pre _) (castTo_tame _ _))
      fun _ => slMk_tame _
  have perm : ∀ (c : CRef) (k : Heap) sl h', (do
      M.forL ((h.tseq t).vals ++ [x]) (fun y => do
        let h ← M.get
        if h.cls y = c then pure () else castTo c y)
      slMk ((h.tseq t).vals ++ [x]) : M SL) k = .ok sl h' → sl.vals.Perm ((h.tseq t).vals ++ [x]) := by
    intro c k sl h' e
    rw [M.bind_apply] at e
    split at e
    · exact slMk_perm e
    · cases e
  have key : slAdd (putSeq t) (h.tseq t) [x] h = (do
      let c ← (match (h.tseq t).ecls with
        | none => do
          putSeq t ⟨(h.tseq t).vals, some (h.cls x)⟩
          pure (h.cls x)
        | some c =>
          if h.ct.isSub (h.cls x) c || h.ct.isSub c (h.cls x) then pure c
          else M.throw .valueError)
      M.forL ((h.tseq t).vals ++ [x]) (fun y => do
        let h ← M.get
        if h.cls y = c then pure () else castTo c y)
      slMk ((h.tseq t).vals ++ [x]) : M SL) h := by
    unfold slAdd
    refine Eq.trans (M.bind_ok (M.get_apply h)) ?_
    rw [hf]
    dsimp only
    rw [if_pos (by simp [sameClass])]
    cases (h.tseq t).ecls <;> rfl
  rw [key]
  cases hq : (h.tseq t).ecls with
  | none =>
    dsimp only
    have e0 : (do
        putSeq t ⟨(h.tseq t).vals, some (h.cls x)⟩
        pure (h.cls x) : M CRef) h = .ok (h.cls x) { h with tseq := upd h.tseq t ⟨(h.tseq t).vals, some (h.cls x)⟩ } := rfl
    rw [M.bind_ok e0]
    have c0 : Calm h { h with tseq := upd h.tseq t ⟨(h.tseq t).vals, some (h.cls x)⟩ } := by
      refine ⟨rfl, rfl, rfl, rfl, rfl, rfl, rfl, rfl, rfl, fun u => ?_⟩
      show (upd h.tseq t _ u).vals = _
      unfold upd
      split
      · rename_i q; rw [q]
      · rfl
    exact ⟨fun e h' q => (rest _ _).2 e h' q, fun sl h' q => ⟨Calm.pre.trans _ _ _ c0 ((rest _ _).1 sl h' q), perm _ _ _ _ q⟩⟩
  | some c =>
    dsimp only
    split
    · rw [M.bind_ok (M.pure_apply c h)]
      exact ⟨fun e h' q => (rest _ _).2 e h' q, fun sl h' q => ⟨(rest _ _).1 sl h' q, perm _ _ _ _ q⟩⟩
    · rw [M.bind_err (M.throw_apply _ h)]
      exact ⟨fun e h' q => (by injection q with q _; subst q; decide), fun sl h' q => (by cases q)⟩

/-- as `Calm`, but the tier `t` has the entries `l` in some order -/
structure Replaced (t : TRef) (l : List Ref) (h h' : Heap) : Prop where
  start : h'.start = h.start
  stop : h'.stop = h.stop
  label : h'.label = h.label
  subs : h'.subs = h.subs
  sup : h'.sup = h.sup
  gtiers : h'.gtiers = h.gtiers
  gcont : h'.gcont = h.gcont
  twithin : h'.twithin = h.twithin
  point : h'.isPoint = h.isPoint
  new : (h'.tseq t).vals.Perm l
  tseq : ∀ u, u ≠ t → (h'.tseq u).vals = (h.tseq u).vals

theorem Replaced.calm {t : TRef} {l : List Ref} {a b c : Heap} (p : Replaced t l a b) (q : Calm b c) : Replaced t l a c :=
  ⟨q.start.trans p.start, q.stop.trans p.stop, q.label.trans p.label, q.subs.trans p.subs, q.sup.trans p.sup,
    q.gtiers.trans p.gtiers, q.gcont.trans p.gcont, q.twithin.trans p.twithin, q.point.trans p.point, (by rw [q.tseq]; exact p.new),
    fun u hu => (q.tseq u).trans (p.tseq u hu)⟩

theorem Replaced.after {t : TRef} {l : List Ref} {a b c : Heap} (p : Calm a b) (q : Replaced t l b c) : Replaced t l a c :=
  ⟨q.start.trans p.start, q.stop.trans p.stop, q.label.trans p.label, q.subs.trans p.subs, q.sup.trans p.sup,
    q.gtiers.trans p.gtiers, q.gcont.trans p.gcont, q.twithin.trans p.twithin, q.point.trans p.point, q.new,
    fun u hu => (q.tseq u hu).trans (p.tseq u)⟩

theorem replaceSeq_run (t : TRef) (sl : SL) (h : Heap) : ∃ h', replaceSeq t sl h = .ok () h' ∧ Replaced t sl.vals h h' := by
  refine ⟨_, rfl, ?_⟩
  refine ⟨rfl, rfl, rfl, rfl, rfl, rfl, rfl, rfl, rfl, ?_, fun u hu => ?_⟩
  · show (upd h.tseq t sl t).vals.Perm _
    rw [upd_same]
  · show (upd h.tseq t sl u).vals = _
    rw [upd_ne _ _ _ _ hu]

theorem tierSetSeq_run (t : TRef) (sl : SL) (h : Heap) :
    (∀ e h', tierSetSeq t sl h = .err e h' → e ≠ .recursionError) ∧
    ∀ h', tierSetSeq t sl h = .ok () h' → Replaced t sl.vals h h' := by
  have key : tierSetSeq t sl h = (if h.isPointTier t then replaceSeq t sl else do
    let sl ← slMk sl.vals
    replaceSeq t sl
    tierPrecedence t) h := by
    unfold tierSetSeq
    exact M.bind_ok (M.get_apply h)
  rw [key]
  split
  · obtain ⟨h1, e1, r1⟩ := replaceSeq_run t sl h
    rw [e1]
    exact ⟨fun e h' q => (by cases q), fun h' q => (by injection q with _ q; subst q; exact r1)⟩
  · rw [M.bind_apply]
    split
    · rename_i sl' h1 e1
      obtain ⟨h2, e2, r2⟩ := replaceSeq_run t sl' h1
      rw [M.bind_ok e2]
      have c1 := (slMk_tame sl.vals h).1 _ _ e1
      refine ⟨fun e h' q => (tierPrecedence_tame t h2).2 e h' q, fun h' q => ?_⟩
      have r := (r2.after c1).calm ((tierPrecedence_tame t h2).1 () h' q)
      exact ⟨r.start, r.stop, r.label, r.subs, r.sup, r.gtiers, r.gcont, r.twithin, r.point, r.new.trans (slMk_perm e1), r.tseq⟩
    · rename_i e1 h1 q1
      refine ⟨fun e h' q => ?_, fun h' q => (by cases q)⟩
      injection q with q _
      subst q
      exact (slMk_tame sl.vals h).2 _ _ q1

/-- tiers only gain entries of `E` -/
structure Gains (E : List Ref) (h h' : Heap) : Prop where
  start : h'.start = h.start
  stop : h'.stop = h.stop
  label : h'.label = h.label
  subs : h'.subs = h.subs
  sup : h'.sup = h.sup
  gtiers : h'.gtiers = h.gtiers
  gcont : h'.gcont = h.gcont
  twithin : h'.twithin = h.twithin
  point : h'.isPoint = h.isPoint
  keep : ∀ t, ∀ y ∈ (h.tseq t).vals, y ∈ (h'.tseq t).vals
  new : ∀ t, ∀ y ∈ (h'.tseq t).vals, y ∈ (h.tseq t).vals ∨ y ∈ E

theorem Gains.pre (E : List Ref) : IsPre (Gains E) where
  refl _ := ⟨rfl, rfl, rfl, rfl, rfl, rfl, rfl, rfl, rfl, fun _ _ q => q, fun _ _ q => .inl q⟩
  trans _ _ _ p q := ⟨q.start.trans p.start, q.stop.trans p.stop, q.label.trans p.label, q.subs.trans p.subs, q.sup.trans p.sup,
    q.gtiers.trans p.gtiers, q.gcont.trans p.gcont, q.twithin.trans p.twithin, q.point.trans p.point, fun t y hy => q.keep t y (p.keep t y hy),
    fun t y hy => by
      rcases q.new t y hy with r | r
      · exact p.new t y r
      · exact .inr r⟩

theorem Gains.reach {h h' : Heap} {T : List TRef} {E : List Ref} (f : Gains E h h') (r : Reach h T E) : Reach h' T E :=
  ⟨by rw [f.subs]; exact r.subs, by rw [f.sup]; exact r.sup, by rw [f.twithin, f.gtiers]; exact r.tiers⟩

theorem Gains.tup {h h' : Heap} {E : List Ref} (f : Gains E h h') (x : Ref) : h'.tup x = h.tup x := by
  unfold Heap.tup
  rw [f.start, f.stop, f.label, f.point]

theorem Gains.distinct {h h' : Heap} {T : List TRef} {E : List Ref} (f : Gains E h h') (r : Distinct h T E) : Distinct h' T E := by
  refine ⟨fun x hx y hy q => r.entries x hx y hy (by rwa [f.tup, f.tup] at q), fun t ht y hy x hx q => ?_⟩
  rw [f.tup, f.tup] at q
  rcases f.new t y hy with p | p
  · exact r.tiers t ht y p x hx q
  · exact r.entries y p x hx q

theorem filter_length_le {α} {p q : α → Bool} : ∀ (l : List α), (∀ a ∈ l, q a = true → p a = true) →
    (l.filter q).length ≤ (l.filter p).length
  | [], _ => Nat.le_refl _
  | a :: l, hi => by
    have ih := filter_length_le l fun b hb => hi b (by simp [hb])
    have ha := hi a (by simp)
    cases hq : q a <;> cases hp : p a <;> simp [hq, hp] <;> grind

theorem filter_length_lt {α} {p q : α → Bool} : ∀ (l : List α), (∀ a ∈ l, q a = true → p a = true) →
    (∃ a ∈ l, p a = true ∧ q a = false) → (l.filter q).length < (l.filter p).length
  | [], _, ⟨_, h, _⟩ => by cases h
  | a :: l, hi, ⟨b, hb, pb, qb⟩ => by
    have hi' : ∀ a ∈ l, q a = true → p a = true := fun c hc => hi c (by simp [hc])
    have le := filter_length_le l hi'
    rcases List.mem_cons.mp hb with e | hb
    · subst e
      simp [pb, qb]
      omega
    · have ih := filter_length_lt l hi' ⟨b, hb, pb, qb⟩
      have ha := hi a (by simp)
      cases hq : q a <;> cases hp : p a <;> simp [hq, hp] <;> grind

theorem Gains.absent_le {h h' : Heap} {T : List TRef} {E : List Ref} (f : Gains E h h') :
    (absent h' T E).length ≤ (absent h T E).length := by
  refine filter_length_le _ ?_
  rintro ⟨t, x⟩ _ q
  simp only [Bool.not_eq_true', List.contains_eq_mem, decide_eq_false_iff_not] at q ⊢
  exact fun p => q (f.keep t x p)

theorem Gains.absent_lt {h h' : Heap} {T : List TRef} {E : List Ref} (f : Gains E h h') {t : TRef} {x : Ref} (ht : t ∈ T) (hx : x ∈ E)
    (ho : x ∉ (h.tseq t).vals) (hi : x ∈ (h'.tseq t).vals) : (absent h' T E).length < (absent h T E).length := by
  refine filter_length_lt _ ?_ ⟨(t, x), List.mem_flatMap.mpr ⟨t, ht, List.mem_map.mpr ⟨x, hx, rfl⟩⟩, by simpa using ho, by simpa using hi⟩
  rintro ⟨t, x⟩ _ q
  simp only [Bool.not_eq_true', List.contains_eq_mem, decide_eq_false_iff_not] at q ⊢
  exact fun p => q (f.keep t x p)

/-- `m`, run in `k`, raises no `RecursionError`, and makes tiers only gain entries of `E` if it returns. -/
def Fine (E : List Ref) (m : M Unit) (k : Heap) : Prop :=
  (∀ e h', m k = .err e h' → e ≠ .recursionError) ∧ ∀ h', m k = .ok () h' → Gains E k h'

theorem Fine.pure (E : List Ref) (k : Heap) : Fine E (Pure.pure ()) k :=
  ⟨fun e h' q => (by cases q), fun h' q => (by injection q with _ q; subst q; exact (Gains.pre E).refl _)⟩

theorem Fine.throw (E : List Ref) {er : Err} (he : er ≠ .recursionError) (k : Heap) : Fine E (M.throw er) k :=
  ⟨fun e h' q => (by injection q with q _; subst q; exact he), fun h' q => (by cases q)⟩

theorem Fine.get {E : List Ref} {f : Heap → M Unit} {k : Heap} (h : Fine E (f k) k) : Fine E (M.get >>= f) k := h

/-- a step with its own postcondition -/
theorem Fine.step {α} {E : List Ref} {m : M α} {f : α → M Unit} {k : Heap} (hm : ∀ e h', m k = .err e h' → e ≠ .recursionError)
    (hf : ∀ a h', m k = .ok a h' → Gains E k h' ∧ Fine E (f a) h') : Fine E (m >>= f) k := by
  unfold Fine
  rw [M.bind_apply]
  cases e : m k with
  | ok a h1 =>
    obtain ⟨g, f1⟩ := hf a h1 e
    exact ⟨f1.1, fun h' q => (Gains.pre E).trans _ _ _ g (f1.2 h' q)⟩
  | err er h1 => exact ⟨fun e' h' q => (by injection q with q _; subst q; exact hm _ _ e), fun h' q => (by cases q)⟩

theorem Fine.bind {E : List Ref} {m : M Unit} {f : Unit → M Unit} {k : Heap} (hm : Fine E m k)
    (hf : ∀ h', Gains E k h' → Fine E (f ()) h') : Fine E (m >>= f) k :=
  Fine.step hm.1 fun _ h' e => ⟨hm.2 h' e, hf h' (hm.2 h' e)⟩

theorem Fine.forL {α} {E : List Ref} {f : α → M Unit} : ∀ (l : List α) (k : Heap),
    (∀ a ∈ l, ∀ h', Gains E k h' → Fine E (f a) h') → Fine E (M.forL l f) k
  | [], k, _ => Fine.pure E k
  | a :: l, k, hf => Fine.bind (hf a (by simp) k ((Gains.pre E).refl _)) fun h' g =>
      Fine.forL l h' fun b hb h2 g2 => hf b (by simp [hb]) h2 ((Gains.pre E).trans _ _ _ g g2)

theorem pyGet_mem {α} {l : List α} {i : Int} {a : α} (e : pyGet l i = some a) : a ∈ l := by
  unfold pyGet at e
  split at e
  · exact List.mem_of_getElem? e
  · split at e
    · exact List.mem_of_getElem? e
    · cases e

theorem siblingTier_run (g : GRef) (t : TRef) (d : Int) (h : Heap) :
    (∀ e h', siblingTier g t d h = .err e h' → e ≠ .recursionError) ∧
    ∀ u h', siblingTier g t d h = .ok u h' → h' = h ∧ u ∈ h.gtiers g := by
  unfold siblingTier
  rw [M.bind_ok (M.get_apply h)]
  have hw : ∀ e, tierWithinIndex h t = .error e → e ≠ .recursionError := by
    intro e q
    unfold tierWithinIndex at q
    split at q
    · cases q
    · split at q
      · cases q
      · split at q
        · cases q
        · injection q with q; subst q; decide
  cases hi : tierWithinIndex h t with
  | error e => exact ⟨fun e' h' q => (by injection q with q _; subst q; exact hw _ hi), fun u h' q => (by cases q)⟩
  | ok o =>
    cases o with
    | none => exact ⟨fun e' h' q => (by injection q with q _; subst q; decide), fun u h' q => (by cases q)⟩
    | some i =>
      dsimp only
      cases hp : pyGet (h.gtiers g) (i + d) with
      | none => exact ⟨fun e' h' q => (by injection q with q _; subst q; decide), fun u h' q => (by cases q)⟩
      | some t' =>
        exact ⟨fun e' h' q => (by cases q), fun u h' q => (by injection q with q1 q2; subst q1; exact ⟨q2.symm, pyGet_mem hp⟩)⟩

theorem withinTruthy_eq {h : Heap} {t : TRef} {g : GRef} (q : withinTruthy h t = some g) : h.twithin t = some g := by
  unfold withinTruthy at q
  split at q
  · cases q
  · rename_i g' hg'
    split at q
    · injection q with q; rw [← q]; exact hg'
    · cases q

/-- fuel above the number of absent pairs suffices -/
theorem tierAppendN_bounded (T : List TRef) (E : List Ref) : ∀ (n : Nat) (t : TRef) (x : Ref) (h : Heap), t ∈ T → x ∈ E →
    Reach h T E → Distinct h T E → (absent h T E).length < n → Fine E (tierAppendN n t x) h
  | 0, _, _, _, _, _, _, _, hn => absurd hn (Nat.not_lt_zero _)
  | n + 1, t, x, h, ht, hx, r, d, hn => by
    have ih := tierAppendN_bounded T E n
    unfold tierAppendN
    refine Fine.get ?_
    split
    case isFalse => exact Fine.throw E (by decide) h
    split
    case isTrue => exact Fine.pure E h
    rename_i ho
    have ho' : x ∉ (h.tseq t).vals := by simpa using ho
    have hs : slContains h (h.tseq t).vals x = false := by
      unfold slContains
      simp only [Bool.or_eq_false_iff, List.contains_eq_mem, decide_eq_false_iff_not, List.any_eq_false, beq_iff_eq]
      exact ⟨ho', fun y hy q => ho' (by rw [← d.tiers t ht y hy x hx q]; exact hy)⟩
    obtain ⟨ae, ao⟩ := slAdd_one hs
    refine Fine.step ae fun sl h1 e1 => ?_
    obtain ⟨c1, p1⟩ := ao _ _ e1
    have g1 : Gains E h h1 := ⟨c1.start, c1.stop, c1.label, c1.subs, c1.sup, c1.gtiers, c1.gcont, c1.twithin, c1.point,
      fun u y hy => by rw [c1.tseq u]; exact hy, fun u y hy => by rw [c1.tseq u] at hy; exact .inl hy⟩
    refine ⟨g1, ?_⟩
    obtain ⟨be, bo⟩ := tierSetSeq_run t sl h1
    refine Fine.step be fun _ h2 e2 => ?_
    have r2 := bo _ e2
    have hmem : ∀ y, y ∈ (h2.tseq t).vals ↔ y ∈ (h.tseq t).vals ∨ y = x := by
      intro y
      rw [(r2.new.trans p1).mem_iff]
      simp
    have g2 : Gains E h1 h2 := by
      refine ⟨r2.start, r2.stop, r2.label, r2.subs, r2.sup, r2.gtiers, r2.gcont, r2.twithin, r2.point, fun u y hy => ?_, fun u y hy => ?_⟩
      · by_cases q : u = t
        · subst q; rw [c1.tseq] at hy; exact (hmem y).mpr (.inl hy)
        · rw [r2.tseq u q]; exact hy
      · by_cases q : u = t
        · subst q
          rcases (hmem y).mp hy with p | p
          · rw [c1.tseq]; exact .inl p
          · exact .inr (p ▸ hx)
        · rw [r2.tseq u q] at hy; exact .inl hy
    refine ⟨g2, ?_⟩
    have f2 := (Gains.pre E).trans _ _ _ g1 g2
    have hlt : (absent h2 T E).length < n := by
      have := f2.absent_lt ht hx ho' ((hmem x).mpr (.inr rfl))
      omega
    -- a call for a relative, on a tier of the group
    have call : ∀ (k : Heap) (g : GRef) (i : Int) (y : Ref), Gains E h2 k → k.twithin t = some g → y ∈ E →
        Fine E (do let u ← siblingTier g t i; tierAppendN n u y) k := by
      intro k g i y fk hg hy
      obtain ⟨se, so⟩ := siblingTier_run g t i k
      refine Fine.step se fun u h3 e3 => ?_
      obtain ⟨eh, hu⟩ := so _ _ e3
      subst eh
      have fk' := (Gains.pre E).trans _ _ _ f2 fk
      exact ⟨(Gains.pre E).refl _, ih u y _ ((fk'.reach r).tiers t ht g hg u hu) hy (fk'.reach r) (fk'.distinct d)
        (Nat.lt_of_le_of_lt fk.absent_le hlt)⟩
    refine Fine.get (Fine.bind ?_ fun k fk => Fine.get ?_)
    · split
      · split
        · exact Fine.pure E h2
        · rename_i g hg
          exact Fine.forL _ _ fun y hy k fk => call k g 1 y fk (by rw [fk.twithin]; exact withinTruthy_eq hg)
            ((f2.reach r).subs x hx y hy)
      · exact Fine.pure E h2
    · split
      · exact Fine.pure E k
      · rename_i s hs'
        split
        · split
          · exact Fine.pure E k
          · rename_i g hg
            exact call k g (-1) s fk (withinTruthy_eq hg) ((((Gains.pre E).trans _ _ _ f2 fk).reach r).sup x hx s hs')
        · exact Fine.pure E k

end ATG
