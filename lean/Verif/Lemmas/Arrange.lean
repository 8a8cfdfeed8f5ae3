import Verif.Spec.Group
import Verif.Lemmas.Skeleton
/-!
# Arranging tiers by class
-/
namespace ATG

theorem find_class (h : Heap) (tiers : List TRef) (t : TRef) (ht : t ∈ tiers)
    (hd : ∀ s ∈ tiers, h.tcls s = h.tcls t → s = t) :
    tiers.find? (fun s => h.tcls s == h.tcls t) = some t := by
  cases e : tiers.find? (fun s => h.tcls s == h.tcls t) with
  | none => have := List.find?_eq_none.mp e t ht; simp at this
  | some s =>
    have h1 := List.find?_some e
    have h2 := List.mem_of_find?_eq_some e
    rw [hd s h2 (by simpa using h1)]

theorem arrangeUp_spec (h : Heap) (tiers : List TRef) (n : Nat) : ∀ s t, arrangeUp h tiers n s = .ok t →
    (t = s ∨ t ∈ tiers) ∧ ∃ c, h.tsup t = some c ∧ (h.ct.isSub c cTop = true ∨ ∀ t' ∈ tiers, h.tcls t' ≠ c) := by
  induction n with
  | zero => intro s t e; simp [arrangeUp] at e
  | succ n ih =>
    intro s t e
    unfold arrangeUp at e
    cases hs : h.tsup s with
    | none => rw [hs] at e; simp at e
    | some c =>
      rw [hs] at e
      simp only [] at e
      by_cases hc : h.ct.isSub c cTop = true
      · rw [if_pos hc] at e
        cases e
        exact ⟨Or.inl rfl, c, hs, Or.inl hc⟩
      · rw [if_neg hc] at e
        cases hf : tiers.find? (fun t => h.tcls t == c) with
        | none =>
          rw [hf] at e
          cases e
          refine ⟨Or.inl rfl, c, hs, Or.inr ?_⟩
          intro t' ht'
          have := List.find?_eq_none.mp hf t' ht'
          simpa using this
        | some s' =>
          rw [hf] at e
          obtain ⟨h1, h2⟩ := ih s' t e
          refine ⟨Or.inr ?_, h2⟩
          rcases h1 with h1 | h1
          · rw [h1]; exact List.mem_of_find?_eq_some hf
          · exact h1

theorem arrangeDown_spec (h : Heap) (tiers : List TRef) (n : Nat) : ∀ s l b, arrangeDown h tiers n s = .ok (l, b) →
    l[0]? = some s ∧ (∀ t ∈ l, t = s ∨ t ∈ tiers) ∧
    (∀ i t t', l[i]? = some t → l[i + 1]? = some t' → h.tsub t = some (h.tcls t')) ∧
    ∃ t c, l[l.length - 1]? = some t ∧ h.tsub t = some c ∧
      (if b then h.ct.isSub c cBottom = true else ∀ t' ∈ tiers, h.tcls t' ≠ c) := by
  induction n with
  | zero => intro s l b e; simp [arrangeDown] at e
  | succ n ih =>
    intro s l b e
    unfold arrangeDown at e
    cases hs : h.tsub s with
    | none => rw [hs] at e; simp at e
    | some c =>
      rw [hs] at e
      simp only [] at e
      by_cases hc : h.ct.isSub c cBottom = true
      · rw [if_pos hc] at e
        cases e
        exact ⟨rfl, by simp, by intro i t t' h1 h2; simp at h2, s, c, rfl, hs, by simpa using hc⟩
      · rw [if_neg hc] at e
        cases hf : tiers.find? (fun t => h.tcls t == c) with
        | none =>
          rw [hf] at e
          cases e
          refine ⟨rfl, by simp, by intro i t t' h1 h2; simp at h2, s, c, rfl, hs, ?_⟩
          simp only [Bool.false_eq_true, if_false]
          intro t' ht'
          have := List.find?_eq_none.mp hf t' ht'
          simpa using this
        | some s' =>
          rw [hf] at e
          simp only [] at e
          cases hr : arrangeDown h tiers n s' with
          | error e' => rw [hr] at e; simp at e
          | ok r =>
            obtain ⟨l', b'⟩ := r
            rw [hr] at e
            simp only [Except.ok.injEq, Prod.mk.injEq] at e
            obtain ⟨rfl, rfl⟩ := e
            obtain ⟨h1, h2, h3, t, c', h4, h5, h6⟩ := ih s' l' b' hr
            have hcl : h.tcls s' = c := by have := List.find?_some hf; simpa using this
            refine ⟨rfl, ?_, ?_, t, c', ?_, h5, h6⟩
            · intro t ht
              rcases List.mem_cons.mp ht with ht | ht
              · exact Or.inl ht
              · refine Or.inr ?_
                rcases h2 t ht with h7 | h7
                · rw [h7]; exact List.mem_of_find?_eq_some hf
                · exact h7
            · intro i t t' g1 g2
              cases i with
              | zero =>
                simp at g1 g2
                rw [h1] at g2
                cases g1; cases g2
                rw [hs, hcl]
              | succ i => exact h3 i t t' (by simpa using g1) (by simpa using g2)
            · cases l' with
              | nil => simp at h1
              | cons a l' => simpa using h4

theorem ClassChain.find {h : Heap} {ts tiers : List TRef} (ch : ClassChain h ts) (hp : tiers.Perm ts) (t : TRef)
    (ht : t ∈ ts) : tiers.find? (fun s => h.tcls s == h.tcls t) = some t := by
  apply find_class h tiers t (hp.mem_iff.mpr ht)
  intro s hs e
  have hs' := hp.mem_iff.mp hs
  have hd := ch.distinct
  rw [List.nodup_iff_pairwise_ne, List.pairwise_map] at hd
  apply Decidable.byContradiction
  intro hne
  have key : ∀ l : List TRef, l.Pairwise (fun a b => h.tcls a ≠ h.tcls b) → s ∈ l → t ∈ l → False := by
    intro l
    induction l with
    | nil => intro _ hm; simp at hm
    | cons a l ih =>
      intro hpw h1 h2
      rw [List.pairwise_cons] at hpw
      rcases List.mem_cons.mp h1 with h3 | h3 <;> rcases List.mem_cons.mp h2 with h4 | h4
      · exact hne (h3.trans h4.symm)
      · rw [← h3] at hpw; exact hpw.1 t h4 e
      · rw [← h4] at hpw; exact hpw.1 s h3 e.symm
      · exact ih hpw.2 h3 h4
  exact key ts hd hs' ht

theorem ClassChain.up {h : Heap} {ts tiers : List TRef} (ch : ClassChain h ts) (hp : tiers.Perm ts) :
    ∀ (i : Nat) (t t0 : TRef), ts[i]? = some t → ts[0]? = some t0 → ∀ n, i < n →
      arrangeUp h tiers n t = .ok t0 := by
  intro i
  induction i with
  | zero =>
    intro t t0 h1 h2 n hn
    rw [h1] at h2; cases h2
    obtain ⟨c, hc, hcc⟩ := ch.top t h1
    cases n with
    | zero => omega
    | succ n =>
      unfold arrangeUp
      rw [hc]
      simp only []
      by_cases htop : h.ct.isSub c cTop = true
      · rw [if_pos htop]
      · rw [if_neg htop]
        rcases hcc with hcc | hcc
        · exact absurd hcc htop
        · rw [List.find?_eq_none.mpr]
          intro s hs; simpa using hcc s (hp.mem_iff.mp hs)
  | succ i ih =>
    intro t t0 h1 h2 n hn
    have hi : i < ts.length := by have := (List.getElem?_eq_some_iff.mp h1).1; omega
    have h3 : ts[i]? = some ts[i] := List.getElem?_eq_getElem hi
    cases n with
    | zero => omega
    | succ n =>
      unfold arrangeUp
      rw [(ch.down i _ t h3 h1).2]
      simp only []
      rw [if_neg (by rw [(ch.inner i _ t h3 h1).1]; simp)]
      rw [ch.find hp _ (List.mem_of_getElem? h3)]
      exact ih _ t0 h3 h2 n (by omega)

theorem ClassChain.dn {h : Heap} {ts tiers : List TRef} (ch : ClassChain h ts) (hp : tiers.Perm ts) :
    ∀ (k i : Nat) (t : TRef), ts[i]? = some t → i + k + 1 = ts.length → ∀ n, k < n →
      ∃ b, arrangeDown h tiers n t = .ok (ts.drop i, b) := by
  intro k
  induction k with
  | zero =>
    intro i t h1 hk n hn
    have hlast : ts[ts.length - 1]? = some t := by rw [← h1]; congr 1; omega
    have hdrop : ts.drop i = [t] := by
      have hi : i < ts.length := by omega
      rw [List.drop_eq_getElem_cons hi, List.drop_eq_nil_of_le (by omega)]
      rw [List.getElem?_eq_getElem hi] at h1
      cases h1; rfl
    obtain ⟨c, hc, hcc⟩ := ch.bottom t hlast
    cases n with
    | zero => omega
    | succ n =>
      unfold arrangeDown
      rw [hc, hdrop]
      simp only []
      by_cases hb : h.ct.isSub c cBottom = true
      · rw [if_pos hb]; exact ⟨true, rfl⟩
      · rw [if_neg hb]
        rcases hcc with hcc | hcc
        · exact absurd hcc hb
        · rw [List.find?_eq_none.mpr (by intro s hs; simpa using hcc s (hp.mem_iff.mp hs))]
          exact ⟨false, rfl⟩
  | succ k ih =>
    intro i t h1 hk n hn
    have hi : i + 1 < ts.length := by omega
    have h3 : ts[i + 1]? = some ts[i + 1] := List.getElem?_eq_getElem hi
    cases n with
    | zero => omega
    | succ n =>
      obtain ⟨b, hb⟩ := ih (i + 1) _ h3 (by omega) n (by omega)
      refine ⟨b, ?_⟩
      unfold arrangeDown
      rw [(ch.down i t _ h1 h3).1]
      simp only []
      rw [if_neg (by rw [(ch.inner i t _ h1 h3).2]; simp)]
      rw [ch.find hp _ (List.mem_of_getElem? h3)]
      simp only []
      rw [hb]
      simp only []
      have hi' : i < ts.length := by omega
      rw [List.drop_eq_getElem_cons hi']
      rw [List.getElem?_eq_getElem hi'] at h1
      cases h1; rfl

theorem ClassChain.arrange {h : Heap} {ts tiers : List TRef} (ch : ClassChain h ts) (hp : tiers.Perm ts)
    (hne : ts ≠ []) : ∃ b, arrange h tiers = .ok (ts, b) := by
  unfold ATG.arrange
  cases tiers with
  | nil => exact absurd (List.Perm.eq_nil hp.symm) hne
  | cons a rest =>
    simp only []
    have hlen := hp.length_eq
    have ha : a ∈ ts := hp.mem_iff.mp (by simp)
    obtain ⟨i, hi, hia⟩ := List.mem_iff_getElem.mp ha
    have hpos : 0 < ts.length := by omega
    rw [ch.up hp i a ts[0] (by rw [← hia]; exact List.getElem?_eq_getElem hi)
      (List.getElem?_eq_getElem hpos) _ (by omega)]
    simp only []
    obtain ⟨b, hb⟩ := ch.dn hp (ts.length - 1) 0 ts[0] (List.getElem?_eq_getElem hpos) (by omega)
      ((a :: rest).length + 1) (by omega)
    exact ⟨b, by simpa using hb⟩

end ATG
