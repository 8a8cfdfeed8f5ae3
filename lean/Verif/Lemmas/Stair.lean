import Verif.Model.Show
import Verif.Spec.Stair
import Verif.Spec.Homely
import Verif.Spec.Interleave
import Verif.Lemmas.Trim
/-!
# Lemmas about the shown structure
-/
namespace ATG

/-- the stair from step `k` on -/
def stairFrom : Nat → List String → List String
  | _, [] => []
  | k, n :: ns => (tabsOf k ++ n ++ "(\n") :: stairFrom (k + 1) ns

theorem tabsOf_eq : ∀ n, tabsOf n = String.ofList (List.replicate (2 * n) ' ')
  | 0 => by simp [tabsOf]
  | n + 1 => by
    rw [tabsOf, tabsOf_eq n, show 2 * (n + 1) = 2 * n + 1 + 1 by omega, List.replicate_succ, List.replicate_succ,
      show ("  " : String) = String.ofList [' ', ' '] from rfl, ← String.ofList_append]
    rfl

theorem stairFrom_eq : ∀ (ns : List String) (k : Nat), stairFrom k ns =
    ns.mapIdx fun i n => String.ofList (List.replicate (2 * (i + k)) ' ') ++ n ++ "(\n"
  | [], k => by simp [stairFrom]
  | n :: ns, k => by
    rw [stairFrom, stairFrom_eq ns (k + 1), List.mapIdx_cons, tabsOf_eq]
    congr 1
    · simp
    · congr 1
      funext i m
      rw [show i + (k + 1) = i + 1 + k by omega]

theorem stair_eq (ns : List String) : stair ns = stairFrom 0 ns := by
  rw [stairFrom_eq]; rfl

theorem nameOfClass_ok {h : Heap} {o : Option CRef} {c : CRef} (e : o = some c) : nameOfClass h o = .ok (h.ct.name c) := by
  rw [e]; rfl

theorem structureFrom_ok (h : Heap) (q : CRef) : ∀ (ts : List TRef) (idx : Nat), ts ≠ [] → idx ≠ 0 →
    ts.getLast?.bind h.tsub = some q →
    structureFrom h (idx + ts.length) idx ts = .ok (stairFrom (idx + 1) (ts.map (fun t => h.ct.name (h.tcls t)) ++ [h.ct.name q]))
  | [], _, ne, _, _ => absurd rfl ne
  | [t], idx, _, hi, hl => by
    have hl : h.tsub t = some q := hl
    unfold structureFrom
    rw [show lineAbove h idx t = .ok [] from if_neg hi, show lineBelow h (idx + [t].length) idx t = _ from if_pos (by simp),
      nameOfClass_ok hl]
    rfl
  | t :: t' :: ts, idx, _, hi, hl => by
    have ih := structureFrom_ok h q (t' :: ts) (idx + 1) (by simp) (by omega) (by simpa using hl)
    rw [show idx + 1 + (t' :: ts).length = idx + (t :: t' :: ts).length by simp; omega] at ih
    unfold structureFrom
    rw [show lineAbove h idx t = .ok [] from if_neg hi,
      show lineBelow h (idx + (t :: t' :: ts).length) idx t = .ok [] from if_neg (by simp), ih]
    rfl

theorem showStructure_ok (h : Heap) (g : GRef) (p q : CRef) (gp : h.gpoint g = false)
    (hp : (h.gtiers g).head?.bind h.tsup = some p) (hq : (h.gtiers g).getLast?.bind h.tsub = some q) :
    showStructure h g = .ok (stair (h.ct.name p :: (h.gtiers g).map (fun t => h.ct.name (h.tcls t)) ++ [h.ct.name q])) := by
  rw [stair_eq]
  unfold showStructure
  rw [gp, if_neg (by simp)]
  generalize h.gtiers g = ts at hp hq
  match ts, hp, hq with
  | [t], hp, hq =>
    have hp : h.tsup t = some p := hp
    have hq : h.tsub t = some q := hq
    unfold structureFrom
    rw [show lineAbove h 0 t = _ from if_pos rfl, show lineBelow h [t].length 0 t = _ from if_pos (by simp), nameOfClass_ok hp,
      nameOfClass_ok hq]
    rfl
  | t :: t' :: ts, hp, hq =>
    have hp : h.tsup t = some p := hp
    have ih := structureFrom_ok h q (t' :: ts) 1 (by simp) (by omega) (by simpa using hq)
    rw [show 1 + (t' :: ts).length = (t :: t' :: ts).length by simp; omega] at ih
    unfold structureFrom
    rw [show lineAbove h 0 t = _ from if_pos rfl, show lineBelow h (t :: t' :: ts).length 0 t = .ok [] from if_neg (by simp), ih,
      nameOfClass_ok hp]
    rfl

theorem lineAbove_cases (h : Heap) (idx : Nat) (t : TRef) :
    (∃ l, lineAbove h idx t = .ok l) ∨ lineAbove h idx t = .error .attributeError := by
  unfold lineAbove
  split
  · cases h.tsup t with
    | none => exact Or.inr rfl
    | some c => exact Or.inl ⟨_, rfl⟩
  · exact Or.inl ⟨_, rfl⟩

theorem structureFrom_error (h : Heap) : ∀ (ts : List TRef) (idx : Nat), ts ≠ [] → ts.getLast?.bind h.tsub = none →
    structureFrom h (idx + ts.length) idx ts = .error .attributeError
  | [], _, ne, _ => absurd rfl ne
  | [t], idx, _, hl => by
    have hl : h.tsub t = none := hl
    unfold structureFrom
    rcases lineAbove_cases h idx t with ⟨l, e⟩ | e
    · rw [e, show lineBelow h (idx + [t].length) idx t = _ from if_pos (by simp), hl]; rfl
    · rw [e]; rfl
  | t :: t' :: ts, idx, _, hl => by
    have ih := structureFrom_error h (t' :: ts) (idx + 1) (by simp) (by simpa using hl)
    rw [show idx + 1 + (t' :: ts).length = idx + (t :: t' :: ts).length by simp; omega] at ih
    unfold structureFrom
    rcases lineAbove_cases h idx t with ⟨l, e⟩ | e
    · rw [e, show lineBelow h (idx + (t :: t' :: ts).length) idx t = .ok [] from if_neg (by simp), ih]; rfl
    · rw [e]; rfl

/-- classes and what tiers and groups know of them are the same -/
structure SameKinds (h h' : Heap) : Prop where
  ct : h'.ct = h.ct
  tcls : h'.tcls = h.tcls
  tsup : h'.tsup = h.tsup
  tsub : h'.tsub = h.tsub
  gpoint : h'.gpoint = h.gpoint

theorem SameKinds.pre : IsPre SameKinds :=
  ⟨fun _ => ⟨rfl, rfl, rfl, rfl, rfl⟩, fun _ _ _ a b => ⟨b.ct.trans a.ct, b.tcls.trans a.tcls, b.tsup.trans a.tsup, b.tsub.trans a.tsub,
    b.gpoint.trans a.gpoint⟩⟩

theorem Skel.sameKinds {h h' : Heap} (e : Skel h h') : SameKinds h h' ∧ h'.gtiers = h.gtiers := by
  unfold Skel at e
  exact ⟨⟨by rw [e], by rw [e], by rw [e], by rw [e], by rw [e]⟩, by rw [e]⟩

theorem SameKinds.setContainsGroup (g : GRef) (l : List TRef) : Keeps SameKinds (setContainsGroup g l) := by
  unfold ATG.setContainsGroup
  exact Keeps.bind pre (fun _ => ⟨rfl, rfl, rfl, rfl, rfl⟩) fun _ => Keeps.forL pre _ fun _ _ _ => ⟨rfl, rfl, rfl, rfl, rfl⟩

/-- a group that has been initialised has the arranged tiers -/
theorem groupInit_tiers {g : GRef} {l : List TRef} {d : Bool} {h h' : Heap} {u : Unit} (e : groupInit g l d h = .ok u h') :
    ∃ arr b, arrange h l = .ok (arr, b) ∧ h'.gtiers g = arr ∧ SameKinds h h' := by
  unfold groupInit at e
  rw [show (M.get >>= _ : M Unit) h = _ from M.bind_ok (M.get_apply h)] at e
  cases ea : arrange h l with
  | error x => rw [ea] at e; cases e
  | ok q =>
    obtain ⟨arr, b⟩ := q
    rw [ea] at e
    refine ⟨arr, b, rfl, ?_⟩
    have key : ∀ (m : M Unit), Keeps SameKinds m → ∀ (rest : M Unit), Keeps Skel rest →
        (do m; M.modify (fun h => { h with gtiers := upd h.gtiers g arr }); rest : M Unit) h = .ok u h' →
        h'.gtiers g = arr ∧ SameKinds h h' := by
      intro m hm rest hr e
      have h1 := hm h
      rw [M.bind_apply] at e
      cases em : m h with
      | err x k => rw [em] at e; cases e
      | ok a k =>
        rw [em] at h1 e
        have e : (M.modify (fun h => { h with gtiers := upd h.gtiers g arr }) >>= fun _ => rest) k = .ok u h' := e
        rw [M.bind_ok (M.modify_apply _ _)] at e
        have h2 := hr { k with gtiers := upd k.gtiers g arr }
        rw [e] at h2
        obtain ⟨s, t⟩ := Skel.sameKinds h2
        have t : h'.gtiers = upd k.gtiers g arr := t
        exact ⟨by rw [t, upd_same], SameKinds.pre.trans _ _ _ h1 ⟨s.ct, s.tcls, s.tsup, s.tsub, s.gpoint⟩⟩
    exact key _ (Keeps.ite (SameKinds.setContainsGroup _ _) (Keeps.pure SameKinds.pre _)) _ (Keeps.bind Skel.pre
      (Keeps.forL Skel.pre _ fun _ _ => Keeps.get_bind fun _ => Keeps.forL Skel.pre _ fun _ _ => Skel.removeSuperset _) fun _ =>
      Skel.relateChain _ _) e

theorem arrangeUp_some {h : Heap} {ts : List TRef} : ∀ {n : Nat} {s t : TRef}, arrangeUp h ts n s = .ok t → ∃ p, h.tsup t = some p
  | 0, _, _, e => by cases e
  | n + 1, s, t, e => by
    unfold arrangeUp at e
    cases q : h.tsup s with
    | none => rw [q] at e; cases e
    | some c =>
      simp only [q] at e
      split at e
      · cases e; exact ⟨c, q⟩
      · split at e
        · cases e; exact ⟨c, q⟩
        · exact arrangeUp_some e

theorem arrangeDown_ends {h : Heap} {ts : List TRef} : ∀ {n : Nat} {s : TRef} {l : List TRef} {b : Bool},
    arrangeDown h ts n s = .ok (l, b) → l.head? = some s ∧ ∃ q, l.getLast?.bind h.tsub = some q
  | 0, _, _, _, e => by cases e
  | n + 1, s, l, b, e => by
    unfold arrangeDown at e
    cases q : h.tsub s with
    | none => rw [q] at e; cases e
    | some c =>
      simp only [q] at e
      split at e
      · cases e; exact ⟨rfl, c, q⟩
      · split at e
        · cases e; exact ⟨rfl, c, q⟩
        · split at e
          · cases e
          · rename_i l' b' e'
            cases e
            obtain ⟨h1, c', h2⟩ := arrangeDown_ends e'
            refine ⟨rfl, c', ?_⟩
            cases l' with
            | nil => cases h1
            | cons x xs => rw [List.getLast?_cons_cons]; exact h2

theorem arrange_ends {h : Heap} {ts l : List TRef} {b : Bool} (e : arrange h ts = .ok (l, b)) :
    ∃ p q, l.head?.bind h.tsup = some p ∧ l.getLast?.bind h.tsub = some q := by
  unfold arrange at e
  split at e
  · cases e
  · split at e
    · cases e
    · rename_i top e1
      obtain ⟨p, hp⟩ := arrangeUp_some e1
      obtain ⟨h1, q, h2⟩ := arrangeDown_ends e
      exact ⟨p, q, by rw [h1]; exact hp, h2⟩

theorem shows_init {h h' : Heap} {g : GRef} {l : List TRef} {d : Bool} {u : Unit} (fr : TiersFresh h l) (gp : h.gpoint g = false)
    (e : groupInit g l d h = .ok u h') :
    ∃ p q, ((h'.gtiers g).map h'.tcls).head?.bind h'.ct.sup = some p ∧ ((h'.gtiers g).map h'.tcls).getLast?.bind h'.ct.sub = some q ∧
      showStructure h' g = .ok (stair (h'.ct.name p :: (h'.gtiers g).map (fun t => h'.ct.name (h'.tcls t)) ++ [h'.ct.name q])) := by
  obtain ⟨arr, b, ea, et, s⟩ := groupInit_tiers e
  obtain ⟨p, q, hp, hq⟩ := arrange_ends ea
  have sub := arrange_sub ea
  refine ⟨p, q, ?_, ?_, showStructure_ok h' g p q (by rw [s.gpoint]; exact gp) (by rw [et, s.tsup]; exact hp)
    (by rw [et, s.tsub]; exact hq)⟩
  · rw [et, List.head?_map, s.ct, s.tcls]
    cases k : arr.head? with
    | none => rw [k] at hp; cases hp
    | some t =>
      rw [k] at hp
      exact (fr t (sub t (List.mem_of_mem_head? (Option.mem_def.mpr k)))).1.symm.trans hp
  · rw [et, List.getLast?_map, s.ct, s.tcls]
    cases k : arr.getLast? with
    | none => rw [k] at hq; cases hq
    | some t =>
      rw [k] at hq
      exact (fr t (sub t (List.mem_of_mem_getLast? (Option.mem_def.mpr k)))).2.symm.trans hq

end ATG
