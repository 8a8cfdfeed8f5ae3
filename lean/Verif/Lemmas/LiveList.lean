import Verif.Lemmas.SetSubs
import Verif.Model.Program
/-!
# The loop over a subset list that shrinks under it
-/
namespace ATG

/-- the elements at positions 0, 2, 4, ... -/
def everyOther {α} : List α → List α
  | [] => []
  | [x] => [x]
  | x :: _ :: rest => x :: everyOther rest

theorem mem_everyOther {α} : ∀ (l : List α), l.Nodup → ∀ (i : Nat) (x : α), l[i]? = some x →
    (x ∈ everyOther l ↔ i % 2 = 0)
  | [], _, i, x, h => by simp at h
  | [y], _, i, x, h => by
    obtain ⟨hlt, -⟩ := List.getElem?_eq_some_iff.mp h
    have : i = 0 := by simp at hlt; omega
    subst this
    simp at h
    simp [everyOther, h]
  | y :: z :: rest, hnd, i, x, h => by
    rw [List.nodup_cons, List.nodup_cons] at hnd
    unfold everyOther
    have sub : ∀ (l : List α) a, a ∈ everyOther l → a ∈ l := by
      intro l
      induction l using everyOther.induct with
      | case1 => intro a h; simp [everyOther] at h
      | case2 b => intro a h; simpa [everyOther] using h
      | case3 b c r ih =>
        intro a h
        unfold everyOther at h
        rcases List.mem_cons.mp h with h | h
        · simp [h]
        · simp [ih a h]
    match i, h with
    | 0, h => simp at h; simp [h]
    | 1, h =>
      simp at h; subst h
      simp only [List.mem_cons]
      constructor
      · rintro (e | e)
        · exact absurd (by simp [e]) hnd.1
        · exact absurd (sub _ _ e) hnd.2.1
      · intro e; omega
    | i + 2, h =>
      have h' : rest[i]? = some x := by simpa using h
      rw [List.mem_cons, mem_everyOther rest hnd.2.2 i x h']
      have hx : x ∈ rest := List.mem_of_getElem? h'
      constructor
      · rintro (e | e)
        · subst e; exact absurd (List.mem_cons_of_mem _ hx) hnd.1
        · omega
      · intro e; exact Or.inr (by omega)

theorem AgreeX.adopted {U : Ref → Prop} {h : Heap} {w : Ref} (ax : AgreeX U h w) (l : List Ref) (f p : Ref → Option Link) :
    AgreeX U (adopted h w l f p) w := by
  refine ⟨?_, ?_, ?_⟩
  · intro v hv x
    show x ∈ (adoptedSubs h w l v).vals → (if x ∈ l then some w else h.sup x) = some v
    unfold adoptedSubs
    rw [if_neg hv]
    show x ∈ (h.subs v).vals.filter (· ∉ l) → _
    rw [List.mem_filter]
    by_cases e : x ∈ l
    · simp [e]
    · simpa [e] using ax.down v hv x
  · intro v hv x hu
    show (if x ∈ l then some w else h.sup x) = some v → x ∈ (adoptedSubs h w l v).vals
    unfold adoptedSubs
    rw [if_neg hv]
    show _ → x ∈ (h.subs v).vals.filter (· ∉ l)
    rw [List.mem_filter]
    by_cases e : x ∈ l
    · simp [e, Ne.symm hv]
    · simpa [e] using ax.up v hv x hu
  · intro v hv
    have e : ((ATG.adopted h w l f p).subs v).vals = (h.subs v).vals.filter (· ∉ l) := by
      show (adoptedSubs h w l v).vals = _
      unfold adoptedSubs
      rw [if_neg hv]
    rw [e]
    exact ((ax.good v hv).sub List.filter_sublist).congr rfl rfl rfl rfl rfl

theorem adoptAll_cons (w x : Ref) (xs : List Ref) (h h1 : Heap) (e : adoptAll w [x] h = .ok () h1) :
    adoptAll w (x :: xs) h = adoptAll w xs h1 := by
  unfold adoptAll at e ⊢
  rw [M.forL_cons] at e ⊢
  revert e
  generalize (do
    let h ← M.get
    if h.sup x = some w then pure ()
    else do
      removeSuperset x
      M.modify fun h => { h with sup := upd h.sup x (some w) } : M Unit) h = r
  intro e
  cases r with
  | ok a h2 =>
    simp only [M.forL_nil] at e ⊢
    cases e
    rfl
  | err er h2 => simp at e

theorem drop_filter_ne {l : List Ref} (hnd : l.Nodup) {i : Nat} {x : Ref} (hx : l[i]? = some x) :
    (l.filter (· ∉ [x])).drop (i + 1) = l.drop (i + 2) := by
  have e : l.filter (· ∉ [x]) = l.erase x := by
    rw [hnd.erase_eq_filter]; congr 1; funext r; by_cases e : r = x <;> simp [e]
  obtain ⟨hlt, hx'⟩ := List.getElem?_eq_some_iff.mp hx
  have e2 : l.erase x = l.eraseIdx i := by
    rw [← hx', List.erase_eq_eraseIdx_of_idxOf]
    exact hnd.idxOf_getElem i hlt
  rw [e, e2, List.eraseIdx_eq_take_drop_succ, List.drop_append]
  have : (l.take i).length = i := by rw [List.length_take]; omega
  rw [this, List.drop_of_length_le (by omega), List.nil_append, List.drop_drop]
  congr 1; omega

/-- the loop over the live list takes every other element over -/
theorem adoptLive_eq (w v : Ref) (hv : v ≠ w) : ∀ (n i : Nat) (h : Heap), AgreeX (fun _ => True) h w →
    (h.subs v).vals.length ≤ n + i → adoptLive w v n i h = adoptAll w (everyOther ((h.subs v).vals.drop i)) h
  | 0, i, h, _, hle => by
    rw [List.drop_of_length_le (by omega)]
    rfl
  | n + 1, i, h, ax, hle => by
    unfold adoptLive
    refine Eq.trans (M.bind_ok (M.get_apply h)) ?_
    cases hx : (h.subs v).vals[i]? with
    | none =>
      rw [List.drop_of_length_le (List.getElem?_eq_none_iff.mp hx)]
      rfl
    | some x =>
      obtain ⟨f, p, e1, -, -⟩ := adoptAll_ok w [x] (fun _ _ => trivial) h ax
      obtain ⟨hlt, hx'⟩ := List.getElem?_eq_some_iff.mp hx
      have hnd := (ax.good v hv).nodup
      have hdrop : everyOther ((h.subs v).vals.drop i) = x :: everyOther ((h.subs v).vals.drop (i + 2)) := by
        rw [List.drop_eq_getElem_cons hlt, hx']
        cases hr : (h.subs v).vals.drop (i + 1) with
        | nil =>
          have hl := congrArg List.length hr
          rw [List.length_drop] at hl
          simp at hl
          rw [List.drop_of_length_le (i := i + 2) (by omega)]
          rfl
        | cons y ys =>
          have : (h.subs v).vals.drop (i + 2) = ys := by
            have := congrArg (List.drop 1) hr
            rw [List.drop_drop] at this
            simpa using this
          rw [this]; rfl
      have hsubs : ((adopted h w [x] f p).subs v).vals = (h.subs v).vals.filter (· ∉ [x]) := by
        show (adoptedSubs h w [x] v).vals = _
        unfold adoptedSubs
        rw [if_neg hv]
      have hsup : h.sup x ≠ some w := by
        rw [ax.down v hv x (List.mem_of_getElem? hx)]
        simpa using hv
      rw [hdrop, adoptAll_cons w x _ h _ e1]
      have body : (if h.sup x = some w then pure () else do
          removeSuperset x
          M.modify fun h => { h with sup := upd h.sup x (some w) } : M Unit) h = .ok () (adopted h w [x] f p) := by
        rw [← e1]
        unfold adoptAll
        rw [M.forL_cons]
        have : (do
            let h ← M.get
            if h.sup x = some w then pure ()
            else do
              removeSuperset x
              M.modify fun h => { h with sup := upd h.sup x (some w) } : M Unit) h =
            (if h.sup x = some w then pure () else do
              removeSuperset x
              M.modify fun h => { h with sup := upd h.sup x (some w) } : M Unit) h := M.bind_ok (M.get_apply h)
        rw [this]
        generalize (if h.sup x = some w then pure () else do
              removeSuperset x
              M.modify fun h => { h with sup := upd h.sup x (some w) } : M Unit) h = r
        cases r <;> rfl
      refine Eq.trans (M.bind_ok body) ?_
      rw [adoptLive_eq w v hv n (i + 1) _ (ax.adopted [x] f p) (by
        rw [hsubs]
        have := List.length_filter_lt_length_iff_exists (p := (· ∉ [x])) (l := (h.subs v).vals)
        have h2 := this.mpr ⟨x, List.mem_of_getElem? hx, by simp⟩
        omega), hsubs, drop_filter_ne hnd hx]

end ATG
