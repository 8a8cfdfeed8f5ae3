import Verif.Lemmas.Classes
/-!
# Lemmas on cloning and listing class hierarchies
-/
namespace ATG

theorem isSub_refl (ct : ClassTab) (c : CRef) : ct.isSub c c = true := by
  unfold ClassTab.isSub; cases c <;> simp [ClassTab.isSubN]

theorem isSub_trans {ct : ClassTab} (w : WFC ct) {d e : CRef} (h2 : ct.isSub d e = true) :
    ∀ (n : Nat) (c : CRef), c ≤ n → c < ct.next → ct.isSub c d = true → ct.isSub c e = true := by
  intro n
  induction n with
  | zero =>
    intro c hc hl h
    have h0 : c = 0 := Nat.le_zero.1 hc
    subst h0
    have : (0 : CRef) = d := by simpa [ClassTab.isSub, ClassTab.isSubN] using h
    exact this ▸ h2
  | succ n ih =>
    intro c hc hl h
    by_cases he : c = d
    · exact he ▸ h2
    · cases hp : ct.parent c with
      | none =>
        have : c = d := by
          unfold ClassTab.isSub at h
          cases c <;> simpa [ClassTab.isSubN, hp] using h
        exact absurd this he
      | some p =>
        have hlt := w.down c p hl hp
        rw [isSub_parent w d hl hp] at h
        have hpd : ct.isSub p d = true := by simpa [he] using h
        rw [isSub_parent w e hl hp, ih p (Nat.le_of_lt_succ (Nat.lt_of_lt_of_le hlt hc))
          (Nat.lt_trans hlt hl) hpd, Bool.or_true]

theorem sup_none {ct : ClassTab} {c : CRef} (ho : ct.ownSup c = none) (hp : ct.parent c = none) :
    ct.sup c = none := by
  unfold ClassTab.sup; cases c <;> simp [ClassTab.getSupN, ho, hp]

theorem top_hier {ct : ClassTab} (w : WFC ct) : ct.isSub cTop cHierarchyPart = true := by
  have h : (1 : CRef) < ct.next := Nat.lt_of_lt_of_le (by decide) w.base
  have := isSub_parent w cHierarchyPart h w.p1
  show ct.isSub 1 cHierarchyPart = true
  rw [this]; simp [ClassTab.isSub, ClassTab.isSubN, cHierarchyPart]
theorem bottom_hier {ct : ClassTab} (w : WFC ct) : ct.isSub cBottom cHierarchyPart = true := by
  have h : (2 : CRef) < ct.next := Nat.lt_of_lt_of_le (by decide) w.base
  have := isSub_parent w cHierarchyPart h w.p2
  show ct.isSub 2 cHierarchyPart = true
  rw [this]; simp [ClassTab.isSub, ClassTab.isSubN, cHierarchyPart]
theorem interval_hier {ct : ClassTab} (w : WFC ct) : ct.isSub cInterval cHierarchyPart = true := by
  have h : (3 : CRef) < ct.next := Nat.lt_of_lt_of_le (by decide) w.base
  have := isSub_parent w cHierarchyPart h w.p3
  show ct.isSub 3 cHierarchyPart = true
  rw [this]; simp [ClassTab.isSub, ClassTab.isSubN, cHierarchyPart]

/-- A class fit to be in a hierarchy. -/
def Fit (ct : ClassTab) (c : CRef) : Prop :=
  c < ct.next ∧ ct.isSub c cInterval = true ∧ ct.isSub c cTop = false ∧ ct.isSub c cBottom = false ∧
    hasSubstr "Top" (ct.name c) = false ∧ hasSubstr "Bottom" (ct.name c) = false

/-- The classes of the list are linked downwards and the last is above a bottom class. -/
def Down (ct : ClassTab) : List CRef → Prop
  | [] => False
  | [c] => Fit ct c ∧ ∃ b, ct.sub c = some b ∧ ct.isSub b cBottom = true
  | c :: d :: r => Fit ct c ∧ ct.sub c = some d ∧ ct.sup d = some c ∧ Down ct (d :: r)

theorem Down.head {ct : ClassTab} {c : CRef} {l : List CRef} (h : Down ct (c :: l)) : Fit ct c := by
  cases l with
  | nil => exact h.1
  | cons d r => exact h.1

theorem fit_ext {ct ct' : ClassTab} (w : WFC ct) (e : Ext ct ct') {c : CRef} (h : Fit ct c) :
    Fit ct' c := by
  obtain ⟨a, b, c', d, f, g⟩ := h
  exact ⟨Nat.lt_of_lt_of_le a e.le, by rw [isSub_ext w e _ _ a, b], by rw [isSub_ext w e _ _ a, c'],
    by rw [isSub_ext w e _ _ a, d], by rw [e.name _ a, f], by rw [e.name _ a, g]⟩

theorem down_ext {ct ct' : ClassTab} (w : WFC ct) (e : Ext ct ct') : ∀ {l : List CRef},
    Down ct l → Down ct' l := by
  intro l
  induction l with
  | nil => exact id
  | cons c r ih =>
    cases r with
    | nil =>
      rintro ⟨f, b, hb, hb'⟩
      exact ⟨fit_ext w e f, b, by rw [sub_ext w e _ f.1, hb],
        by rw [isSub_ext w e _ _ (sub_lt w c c b (Nat.le_refl _) f.1 hb), hb']⟩
    | cons d r =>
      rintro ⟨f, h1, h2, h3⟩
      exact ⟨fit_ext w e f, by rw [sub_ext w e _ f.1, h1], by rw [sup_ext w e _ h3.head.1, h2], ih h3⟩

/-! ## Lookups on a new class -/

theorem sup_copy {ct : ClassTab} (w : WFC ct) (nm : String) {c : CRef} (hc : c < ct.next)
    (v : Option (Option CRef)) (hv : ∀ s, v = some (some s) → s < ct.next) :
    (addClass ct nm c (ct.ownSup c) v).sup ct.next = ct.sup c := by
  have w' := wfc_addClass w nm hc (u := ct.ownSup c) (v := v) (fun s h => w.supLt c s hc h) hv
  cases ho : ct.ownSup c with
  | some u =>
    rw [sup_own ho]
    exact sup_own (by simp [addClass])
  | none =>
    rw [ho] at w'
    rw [sup_parent w' (p := c) (Nat.lt_succ_self _) (by simp [addClass]) (by simp [addClass])]
    exact sup_ext w (ext_addClass ct nm c none v) c hc
theorem sub_copy {ct : ClassTab} (w : WFC ct) (nm : String) {c : CRef} (hc : c < ct.next)
    (u : Option (Option CRef)) (hu : ∀ s, u = some (some s) → s < ct.next) :
    (addClass ct nm c u (ct.ownSub c)).sub ct.next = ct.sub c := by
  have w' := wfc_addClass w nm hc (u := u) (v := ct.ownSub c) hu (fun s h => w.subLt c s hc h)
  cases ho : ct.ownSub c with
  | some u =>
    rw [sub_own ho]
    exact sub_own (by simp [addClass])
  | none =>
    rw [ho] at w'
    rw [sub_parent w' (p := c) (Nat.lt_succ_self _) (by simp [addClass]) (by simp [addClass])]
    exact sub_ext w (ext_addClass ct nm c u none) c hc
theorem isSub_new {ct : ClassTab} (w : WFC ct) (nm : String) {c : CRef} (hc : c < ct.next)
    {u v : Option (Option CRef)} (hu : ∀ s, u = some (some s) → s < ct.next)
    (hv : ∀ s, v = some (some s) → s < ct.next) (x : CRef) :
    (addClass ct nm c u v).isSub ct.next x = (ct.next == x || ct.isSub c x) := by
  have w' := wfc_addClass w nm hc hu hv
  rw [isSub_parent w' x (p := c) (Nat.lt_succ_self _) (by simp [addClass]),
    isSub_ext w (ext_addClass ct nm c u v) c x hc]
theorem sup_new {ct : ClassTab} (w : WFC ct) (nm : String) {c : CRef} (hc : c < ct.next) :
    (addClass ct nm c none none).sup ct.next = ct.sup c := by
  have w' := wfc_addClass w nm hc (u := none) (v := none) (by simp) (by simp)
  rw [sup_parent w' (p := c) (Nat.lt_succ_self _) (by simp [addClass]) (by simp [addClass])]
  exact sup_ext w (ext_addClass ct nm c none none) c hc
theorem sub_new {ct : ClassTab} (w : WFC ct) (nm : String) {c : CRef} (hc : c < ct.next) :
    (addClass ct nm c none none).sub ct.next = ct.sub c := by
  have w' := wfc_addClass w nm hc (u := none) (v := none) (by simp) (by simp)
  rw [sub_parent w' (p := c) (Nat.lt_succ_self _) (by simp [addClass]) (by simp [addClass])]
  exact sub_ext w (ext_addClass ct nm c none none) c hc

/-! ## Giving a class a fresh top or bottom -/

theorem linkTop {ct : ClassTab} (w : WFC ct) {d : CRef} (hd : d < ct.next)
    (hn : hasSubstr "Top" (ct.name d) = false) (hh : ct.isSub d cHierarchyPart = true)
    (hs : ct.sub cTop ≠ some d) :
    ∃ ct', setSupClass (makeTop ct).1 d (some (makeTop ct).2) = (ct', .ok ()) ∧ WFC ct' ∧
      ct'.next = ct.next + 1 ∧
      (∀ c < ct.next, ct'.name c = ct.name c ∧ ct'.parent c = ct.parent c ∧
        ct'.ownSub c = ct.ownSub c ∧ (c ≠ d → ct'.ownSup c = ct.ownSup c)) ∧
      ct'.ownSup d = some (some ct.next) ∧ ct'.ownSub ct.next = some (some d) ∧
      ct'.isSub ct.next cTop = true ∧ hasSubstr "Bottom" (ct'.name ct.next) = false := by
  have h1 : (1 : CRef) < ct.next := Nat.lt_of_lt_of_le (by decide) w.base
  let nm := "Top_" ++ toString (nSubclasses ct cTop)
  let ct1 := addClass ct nm cTop none none
  have w1 : WFC ct1 := wfc_addClass w nm h1 (by simp) (by simp)
  have e1 : Ext ct ct1 := ext_addClass ct nm cTop none none
  have ht : ct1.isSub ct.next cTop = true :=
    (isSub_new w nm (c := cTop) h1 (u := none) (v := none) (by simp) (by simp) cTop).trans
      (by rw [isSub_refl, Bool.or_true])
  have hth : ct1.isSub ct.next cHierarchyPart = true :=
    isSub_trans w1 (top_hier w1) ct.next ct.next (Nat.le_refl _) (Nat.lt_succ_self _) ht
  have hne : ct.next ≠ d := Nat.ne_of_gt hd
  have hnb : hasSubstr "Bottom" (ct1.name ct.next) = false := by
    have : ct1.name ct.next = nm := by simp [ct1, addClass]
    rw [this]; exact top_no_bottom _
  have eq := setSupClass_new (ct := ct1) (c := d) (s := ct.next)
    (by rw [e1.name d hd]; exact hn)
    hnb
    hth (by rw [isSub_ext w e1 d _ hd]; exact hh) hne
    (by rw [show ct1.sub ct.next = ct.sub cTop from sub_new w nm h1]; exact hs)
  refine ⟨_, eq, ?_, rfl, ?_, ?_, ?_, ?_, hnb⟩
  · exact wfc_putSub (wfc_putSup w1 d ct.next (Nat.lt_succ_self _)) ct.next d (Nat.lt_succ_of_lt hd)
  · intro c hc
    have hcn : c ≠ ct.next := Nat.ne_of_lt hc
    refine ⟨e1.name c hc, e1.parent c hc, ?_, ?_⟩
    · simpa [ClassTab.putSub, ClassTab.putSup, upd, hcn] using e1.ownSub c hc
    · intro hcd; simpa [ClassTab.putSub, ClassTab.putSup, upd, hcd] using e1.ownSup c hc
  · simp [ClassTab.putSub, ClassTab.putSup]
  · simp [ClassTab.putSub, ClassTab.putSup]
  · simpa using ht

theorem linkBottom {ct : ClassTab} (w : WFC ct) {d : CRef} (hd : d < ct.next)
    (hn : hasSubstr "Bottom" (ct.name d) = false) (hh : ct.isSub d cHierarchyPart = true)
    (hs : ct.sup cBottom ≠ some d) :
    ∃ ct', setSubClass (makeBottom ct).1 d (some (makeBottom ct).2) = (ct', .ok ()) ∧ WFC ct' ∧
      ct'.next = ct.next + 1 ∧
      (∀ c < ct.next, ct'.name c = ct.name c ∧ ct'.parent c = ct.parent c ∧
        ct'.ownSup c = ct.ownSup c ∧ (c ≠ d → ct'.ownSub c = ct.ownSub c)) ∧
      ct'.ownSub d = some (some ct.next) ∧ ct'.ownSup ct.next = some (some d) ∧
      ct'.isSub ct.next cBottom = true ∧ hasSubstr "Top" (ct'.name ct.next) = false := by
  have h1 : (2 : CRef) < ct.next := Nat.lt_of_lt_of_le (by decide) w.base
  let nm := "Bottom_" ++ toString (nSubclasses ct cBottom)
  let ct1 := addClass ct nm cBottom none none
  have w1 : WFC ct1 := wfc_addClass w nm h1 (by simp) (by simp)
  have e1 : Ext ct ct1 := ext_addClass ct nm cBottom none none
  have ht : ct1.isSub ct.next cBottom = true :=
    (isSub_new w nm (c := cBottom) h1 (u := none) (v := none) (by simp) (by simp) cBottom).trans
      (by rw [isSub_refl, Bool.or_true])
  have hth : ct1.isSub ct.next cHierarchyPart = true :=
    isSub_trans w1 (bottom_hier w1) ct.next ct.next (Nat.le_refl _) (Nat.lt_succ_self _) ht
  have hne : ct.next ≠ d := Nat.ne_of_gt hd
  have hnb : hasSubstr "Top" (ct1.name ct.next) = false := by
    have : ct1.name ct.next = nm := by simp [ct1, addClass]
    rw [this]; exact bottom_no_top _
  have eq := setSubClass_new (ct := ct1) (c := d) (s := ct.next)
    (by rw [e1.name d hd]; exact hn)
    hnb
    hth (by rw [isSub_ext w e1 d _ hd]; exact hh) hne
    (by rw [show ct1.sup ct.next = ct.sup cBottom from sup_new w nm h1]; exact hs)
  refine ⟨_, eq, ?_, rfl, ?_, ?_, ?_, ?_, hnb⟩
  · exact wfc_putSup (wfc_putSub w1 d ct.next (Nat.lt_succ_self _)) ct.next d (Nat.lt_succ_of_lt hd)
  · intro c hc
    have hcn : c ≠ ct.next := Nat.ne_of_lt hc
    refine ⟨e1.name c hc, e1.parent c hc, ?_, ?_⟩
    · simpa [ClassTab.putSub, ClassTab.putSup, upd, hcn] using e1.ownSup c hc
    · intro hcd; simpa [ClassTab.putSub, ClassTab.putSup, upd, hcd] using e1.ownSub c hc
  · simp [ClassTab.putSub, ClassTab.putSup]
  · simp [ClassTab.putSub, ClassTab.putSup]
  · simpa using ht

/-! ## Cloning -/

/-- The first step of `clone_class` on the copy `d` of `c`. -/
theorem clone_step1 {ct0 ct : ClassTab} (w0 : WFC ct0) (w : WFC ct) (e : Ext ct0 ct) {d p : CRef}
    (hd : d < ct.next) (hd0 : ct0.next ≤ d) (hn : hasSubstr "Top" (ct.name d) = false)
    (hh : ct.isSub d cHierarchyPart = true) (hp : ct.sup d = some p) :
    ∃ ct' p', (match subO ct (ct.sup d) cTop with
        | .error e => ((ct, .error e) : CRes Unit)
        | .ok true => setSupClass (makeTop ct).1 d (some (makeTop ct).2)
        | .ok false => (ct, .ok ())) = (ct', .ok ()) ∧ WFC ct' ∧ Ext ct0 ct' ∧ ct.next ≤ ct'.next ∧
      ct'.name d = ct.name d ∧ ct'.parent d = ct.parent d ∧ ct'.ownSub d = ct.ownSub d ∧
      ct'.sup d = some p' ∧
      (ct.isSub p cTop = true → ct'.isSub p' cTop = true ∧ ct0.next ≤ p' ∧ p' < ct'.next ∧
        ct'.ownSup d = some (some p') ∧ hasSubstr "Bottom" (ct'.name p') = false) ∧
      (ct.isSub p cTop = false → p' = p) := by
  cases ht : ct.isSub p cTop with
  | false =>
    exact ⟨ct, p, by simp [subO, hp, ht], w, e, Nat.le_refl _, rfl, rfl, rfl, hp, by simp, by simp⟩
  | true =>
    have h1 : (1 : CRef) < ct0.next := Nat.lt_of_lt_of_le (by decide) w0.base
    have hs : ct.sub cTop ≠ some d := by
      intro h
      rw [sub_ext w0 e cTop h1] at h
      exact absurd (sub_lt w0 _ _ d (Nat.le_refl _) h1 h) (Nat.not_lt.2 hd0)
    obtain ⟨ct', eq, w', hnx, hold, h4, h5, h6, h7⟩ := linkTop w hd hn hh hs
    have hold' := hold d hd
    refine ⟨ct', ct.next, by simp [subO, hp, ht, eq], w', ?_, ?_, hold'.1, hold'.2.1, hold'.2.2.1,
      sup_own h4, fun _ => ⟨h6, e.le, by rw [hnx]; exact Nat.lt_succ_self _, h4, h7⟩, by simp⟩
    · refine ⟨Nat.le_trans e.le (by rw [hnx]; exact Nat.le_succ _), ?_, ?_, ?_, ?_⟩ <;>
      · intro c hc
        have hc' := Nat.lt_of_lt_of_le hc e.le
        have hcd : c ≠ d := Nat.ne_of_lt (Nat.lt_of_lt_of_le hc hd0)
        have := hold c hc'
        first
          | exact this.1.trans (e.name c hc)
          | exact this.2.1.trans (e.parent c hc)
          | exact (this.2.2.2 hcd).trans (e.ownSup c hc)
          | exact this.2.2.1.trans (e.ownSub c hc)
    · rw [hnx]; exact Nat.le_succ _

/-- The second step of `clone_class` on the copy `d` of `c`. -/
theorem clone_step2 {ct0 ct : ClassTab} (w0 : WFC ct0) (w : WFC ct) (e : Ext ct0 ct) {d p : CRef}
    (hd : d < ct.next) (hd0 : ct0.next ≤ d) (hn : hasSubstr "Bottom" (ct.name d) = false)
    (hh : ct.isSub d cHierarchyPart = true) (hp : ct.sub d = some p) :
    ∃ ct' p', (match subO ct (ct.sub d) cBottom with
        | .error e => ((ct, .error e) : CRes Unit)
        | .ok true => setSubClass (makeBottom ct).1 d (some (makeBottom ct).2)
        | .ok false => (ct, .ok ())) = (ct', .ok ()) ∧ WFC ct' ∧ Ext ct0 ct' ∧ ct.next ≤ ct'.next ∧
      ct'.name d = ct.name d ∧ ct'.parent d = ct.parent d ∧
      (∀ c < ct.next, ct'.ownSup c = ct.ownSup c ∧ ct'.parent c = ct.parent c ∧ ct'.name c = ct.name c) ∧
      ct'.sub d = some p' ∧
      (ct.isSub p cBottom = true → ct'.isSub p' cBottom = true ∧ ct0.next ≤ p' ∧ ct'.sup p' = some d ∧
        ct'.ownSub d = some (some p') ∧ hasSubstr "Top" (ct'.name p') = false) ∧
      (ct.isSub p cBottom = false → ct' = ct ∧ p' = p) := by
  cases ht : ct.isSub p cBottom with
  | false =>
    exact ⟨ct, p, by simp [subO, hp, ht], w, e, Nat.le_refl _, rfl, rfl, fun _ _ => ⟨rfl, rfl, rfl⟩, hp,
      by simp, by simp⟩
  | true =>
    have h1 : (2 : CRef) < ct0.next := Nat.lt_of_lt_of_le (by decide) w0.base
    have hs : ct.sup cBottom ≠ some d := by
      intro h
      rw [sup_ext w0 e cBottom h1] at h
      exact absurd (sup_lt w0 _ _ d (Nat.le_refl _) h1 h) (Nat.not_lt.2 hd0)
    obtain ⟨ct', eq, w', hnx, hold, h4, h5, h6, h7⟩ := linkBottom w hd hn hh hs
    have hold' := hold d hd
    refine ⟨ct', ct.next, by simp [subO, hp, ht, eq], w', ?_, ?_, hold'.1, hold'.2.1,
      fun c hc => ⟨(hold c hc).2.2.1, (hold c hc).2.1, (hold c hc).1⟩,
      sub_own h4, fun _ => ⟨h6, e.le, sup_own h5, h4, h7⟩, by simp⟩
    · refine ⟨Nat.le_trans e.le (by rw [hnx]; exact Nat.le_succ _), ?_, ?_, ?_, ?_⟩ <;>
      · intro c hc
        have hc' := Nat.lt_of_lt_of_le hc e.le
        have hcd : c ≠ d := Nat.ne_of_lt (Nat.lt_of_lt_of_le hc hd0)
        have := hold c hc'
        first
          | exact this.1.trans (e.name c hc)
          | exact this.2.1.trans (e.parent c hc)
          | exact this.2.2.1.trans (e.ownSup c hc)
          | exact (this.2.2.2 hcd).trans (e.ownSub c hc)
    · rw [hnx]; exact Nat.le_succ _

/-- Like `Down`, with all links set on the classes themselves. -/
def DownO (ct : ClassTab) : List CRef → Prop
  | [] => False
  | [c] => Fit ct c ∧ ∃ b, ct.ownSub c = some (some b) ∧ ct.isSub b cBottom = true
  | c :: d :: r => Fit ct c ∧ ct.ownSub c = some (some d) ∧ ct.ownSup d = some (some c) ∧
      DownO ct (d :: r)

theorem DownO.head {ct : ClassTab} {c : CRef} {l : List CRef} (h : DownO ct (c :: l)) : Fit ct c := by
  cases l with
  | nil => exact h.1
  | cons d r => exact h.1

theorem DownO.down {ct : ClassTab} : ∀ {l : List CRef}, DownO ct l → Down ct l := by
  intro l
  induction l with
  | nil => exact id
  | cons c r ih =>
    cases r with
    | nil => exact fun ⟨f, b, h1, h2⟩ => ⟨f, b, sub_own h1, h2⟩
    | cons d r => exact fun ⟨f, h1, h2, h3⟩ => ⟨f, sub_own h1, sup_own h2, ih h3⟩

theorem DownO.fit {ct : ClassTab} : ∀ {l : List CRef}, DownO ct l → ∀ c ∈ l, Fit ct c := by
  intro l
  induction l with
  | nil => intro h; exact h.elim
  | cons c r ih =>
    cases r with
    | nil => intro h x hx; rw [List.mem_singleton] at hx; subst hx; exact h.1
    | cons d r =>
      intro h x hx
      rcases List.mem_cons.1 hx with rfl | hx
      · exact h.1
      · exact ih h.2.2.2 x hx

theorem fit_congr {ct ct' : ClassTab} (hx : ct'.next = ct.next) (hn : ct'.name = ct.name)
    (hp : ct'.parent = ct.parent) {c : CRef} (h : Fit ct c) : Fit ct' c := by
  unfold Fit at *
  rw [isSub_congr hp, isSub_congr hp, isSub_congr hp, hn, hx]
  exact h

/-- Links that are not part of the list may change. -/
theorem downO_frame {ct ct' : ClassTab} (hx : ct'.next = ct.next) (hn : ct'.name = ct.name)
    (hp : ct'.parent = ct.parent) : ∀ {l : List CRef}, (∀ c ∈ l, ct'.ownSub c = ct.ownSub c) →
    (∀ c ∈ l.tail, ct'.ownSup c = ct.ownSup c) → DownO ct l → DownO ct' l := by
  intro l
  induction l with
  | nil => exact fun _ _ h => h
  | cons c r ih =>
    cases r with
    | nil =>
      rintro h1 _ ⟨f, b, h3, h4⟩
      exact ⟨fit_congr hx hn hp f, b, by rw [h1 c (by simp), h3], by rw [isSub_congr hp, h4]⟩
    | cons d r =>
      rintro h1 h2 ⟨f, h3, h4, h5⟩
      refine ⟨fit_congr hx hn hp f, by rw [h1 c (by simp), h3], by rw [h2 d (by simp), h4], ?_⟩
      exact ih (fun x hx => h1 x (List.mem_cons_of_mem _ hx))
        (fun x hx => h2 x (by simp at hx ⊢; exact Or.inr hx)) h5

theorem CRes.bind_ok {α β} (ct : ClassTab) (a : α) (f : ClassTab → α → CRes β) :
    CRes.bind (ct, .ok a) f = f ct a := rfl

/-- `clone_class` up to the recursive call; `d` is the copy. -/
theorem clone_start {ct : ClassTab} (w : WFC ct) {c d p q : CRef} (n : Nat) {recurse : Bool}
    (hd : d = ct.next) (hf : Fit ct c) (hsup : ct.sup c = some p) (hpl : p < ct.next)
    (hsub : ct.sub c = some q) (hql : q < ct.next)
    (hrec : recurse = true ∨ ct.isSub p cTop = true) :
    ∃ ct2 p' q', cloneClassN (n + 1) ct c recurse =
        (if ct2.sup q' ≠ some d && ct2.isSub q' cInterval then
          (cloneClassN n ct2 q' true).bind fun ct3 s' =>
            (setSubClass ct3 d (some s')).bind fun ct4 _ => (ct4, .ok d)
        else (ct2, .ok d)) ∧ WFC ct2 ∧ Ext ct ct2 ∧ d < ct2.next ∧ Fit ct2 d ∧
      ct2.name d = ct.name c ∧ ct2.sup d = some p' ∧
      (ct.isSub p cTop = true → ct2.isSub p' cTop = true ∧ ct.next ≤ p' ∧ p' < ct2.next ∧
        ct2.ownSup d = some (some p') ∧ hasSubstr "Bottom" (ct2.name p') = false) ∧
      (ct.isSub p cTop = false → p' = p) ∧
      (ct.isSub q cBottom = true → ct2.isSub q' cBottom = true ∧ ct2.sup q' = some d ∧
        ct2.ownSub d = some (some q') ∧ hasSubstr "Top" (ct2.name q') = false) ∧
      (ct.isSub q cBottom = false → q' = q) := by
  obtain ⟨hcl, hci, hct, hcb, hnt, hnb⟩ := hf
  have hu : ∀ s, ct.ownSup c = some (some s) → s < ct.next := fun s h => w.supLt c s hcl h
  have hv : ∀ s, ct.ownSub c = some (some s) → s < ct.next := fun s h => w.subLt c s hcl h
  generalize hct1 : addClass ct (ct.name c) c (ct.ownSup c) (ct.ownSub c) = ct1
  have w1 : WFC ct1 := hct1 ▸ wfc_addClass w (ct.name c) hcl hu hv
  have e1 : Ext ct ct1 := hct1 ▸ ext_addClass ct (ct.name c) c _ _
  have hdl : d < ct1.next := by rw [← hct1, hd]; exact Nat.lt_succ_self _
  have s1 : ct1.sup d = some p := by
    rw [← hct1, hd, ← hsup]; exact sup_copy w _ hcl _ hv
  have s2 : ct1.sub d = some q := by
    rw [← hct1, hd, ← hsub]; exact sub_copy w _ hcl _ hu
  have hi : ∀ x, ct1.isSub d x = (d == x || ct.isSub c x) := by
    intro x; rw [← hct1, hd]; exact isSub_new w _ hcl hu hv x
  have hn1 : ct1.name d = ct.name c := by rw [← hct1, hd]; simp [addClass]
  have hd5 : 5 ≤ d := hd ▸ w.base
  have hii : ct1.isSub d cInterval = true := by rw [hi, hci, Bool.or_true]
  have hih : ct1.isSub d cHierarchyPart = true :=
    isSub_trans w1 (interval_hier w1) d d (Nat.le_refl _) hdl hii
  have hit : ct1.isSub d cTop = false := by
    rw [hi, hct, Bool.or_false]; exact beq_eq_false_iff_ne.2 (fun h => by rw [h] at hd5; exact absurd hd5 (by decide))
  have hib : ct1.isSub d cBottom = false := by
    rw [hi, hcb, Bool.or_false]; exact beq_eq_false_iff_ne.2 (fun h => by rw [h] at hd5; exact absurd hd5 (by decide))
  have hd0 : ct.next ≤ d := by rw [hd]; exact Nat.le_refl _
  obtain ⟨ctA, p', eA, wA, xA, hlA, nA, pA, oA, sA, tA, fA⟩ := clone_step1 w w1 e1 hdl hd0
    (by rw [hn1]; exact hnt) hih s1
  have hdA : d < ctA.next := Nat.lt_of_lt_of_le hdl hlA
  have hpar : ct1.parent d = some c := by rw [← hct1, hd]; simp [addClass]
  have hiA : ∀ x, ctA.isSub d x = ct1.isSub d x := by
    intro x
    rw [isSub_parent wA x hdA (pA.trans hpar), isSub_ext w xA c x hcl, hi]
  have s2A : ctA.sub d = some q := by
    cases ho : ct1.ownSub d with
    | some v => rw [sub_own ho] at s2; exact (sub_own (oA.trans ho)).trans s2
    | none =>
      rw [sub_parent w1 hdl hpar ho, sub_ext w e1 c hcl] at s2
      rw [sub_parent wA hdA (pA.trans hpar) (oA.trans ho), sub_ext w xA c hcl, s2]
  obtain ⟨ctB, q', eB, wB, xB, hlB, nB, pB, oB, sB, tB, fB⟩ := clone_step2 w wA xA hdA hd0
    (by rw [nA, hn1]; exact hnb) (by rw [hiA]; exact hih) s2A
  have hdB : d < ctB.next := Nat.lt_of_lt_of_le hdA hlB
  have hiB : ∀ x, ctB.isSub d x = ct1.isSub d x := by
    intro x
    rw [isSub_parent wB x hdB (pB.trans (pA.trans hpar)), isSub_ext w xB c x hcl, hi]
  have hsB : ctB.sup d = some p' := by
    cases ho : ctA.ownSup d with
    | some v => rw [sup_own ho] at sA; exact (sup_own ((oB d hdA).1.trans ho)).trans sA
    | none =>
      rw [sup_parent wA hdA (pA.trans hpar) ho, sup_ext w xA c hcl] at sA
      rw [sup_parent wB hdB (pB.trans (pA.trans hpar)) ((oB d hdA).1.trans ho), sup_ext w xB c hcl, sA]
  have hpT : ct1.isSub p cTop = ct.isSub p cTop := isSub_ext w e1 p _ hpl
  have hqB : ctA.isSub q cBottom = ct.isSub q cBottom := isSub_ext w xA q _ hql
  have hmono : ∀ x y, x < ctA.next → ctB.isSub x y = ctA.isSub x y := by
    have : ∀ (m : Nat) (x y : CRef), x ≤ m → x < ctA.next → ctB.isSub x y = ctA.isSub x y := by
      intro m
      induction m with
      | zero =>
        intro x y hx _
        have h0 : x = 0 := Nat.le_zero.1 hx
        subst h0; rfl
      | succ m ih =>
        intro x y hx hxl
        have hxB := Nat.lt_of_lt_of_le hxl hlB
        cases hp : ctA.parent x with
        | none =>
          unfold ClassTab.isSub
          cases x <;> simp [ClassTab.isSubN, hp, (oB _ hxl).2.1]
        | some r =>
          have hlt := wA.down x r hxl hp
          rw [isSub_parent wA y hxl hp, isSub_parent wB y hxB ((oB x hxl).2.1.trans hp),
            ih r y (Nat.le_of_lt_succ (Nat.lt_of_lt_of_le hlt hx)) (Nat.lt_trans hlt hxl)]
    exact fun x y h => this x x y (Nat.le_refl _) h
  refine ⟨ctB, p', q', ?_, wB, xB, hdB, ?_, ?_, hsB, ?_, ?_, ?_, ?_⟩
  · have hcond : (!ct.isSub p cTop && !recurse) = false := by
      rcases hrec with h | h <;> simp [h]
    subst hd
    rw [cloneClassN, if_pos hci, hsup]
    simp only [subO]
    rw [if_neg (by rw [hcond]; exact Bool.false_ne_true)]
    simp only [copyClass_eq, hct1]
    refine Eq.trans (congrArg (fun r => CRes.bind r _) eA) ?_
    simp only [CRes.bind_ok]
    refine Eq.trans (congrArg (fun r => CRes.bind r _) eB) ?_
    simp only [CRes.bind, sB]
  · refine ⟨hdB, ?_, ?_, ?_, ?_, ?_⟩
    · rw [hiB, hii]
    · rw [hiB, hit]
    · rw [hiB, hib]
    · rw [nB, nA, hn1, hnt]
    · rw [nB, nA, hn1, hnb]
  · rw [nB, nA, hn1]
  · intro h
    obtain ⟨a, b, c', d', e'⟩ := tA (by rw [hpT, h])
    exact ⟨by rw [hmono p' _ c', a], b, Nat.lt_of_lt_of_le c' hlB, (oB d hdA).1.trans d', by rw [(oB p' c').2.2]; exact e'⟩
  · intro h; exact fA (by rw [hpT, h])
  · intro h
    obtain ⟨a, b, c', d', e'⟩ := tB (by rw [hqB, h])
    exact ⟨a, c', d', e'⟩
  · intro h; exact (fB (by rw [hqB, h])).2

/-- `clone_class` on a suffix of a hierarchy. -/
theorem clone_down : ∀ (rest : List CRef) (n : Nat) (ct : ClassTab) (c p : CRef) (recurse : Bool),
    rest.length < n → WFC ct → Down ct (c :: rest) → ct.sup c = some p → p < ct.next →
    (recurse = true ∨ ct.isSub p cTop = true) →
    ∃ ct' rest' p', cloneClassN n ct c recurse = (ct', .ok ct.next) ∧ WFC ct' ∧ Ext ct ct' ∧
      DownO ct' (ct.next :: rest') ∧ rest'.map ct'.name = rest.map ct.name ∧
      ct'.name ct.next = ct.name c ∧ ct.next < ct'.next ∧
      (∀ x ∈ rest', ct.next < x ∧ x < ct'.next) ∧ rest'.Nodup ∧
      ct'.sup ct.next = some p' ∧
      (ct.isSub p cTop = true → ct'.isSub p' cTop = true ∧ ct.next ≤ p' ∧ ct'.ownSup ct.next = some (some p') ∧
        hasSubstr "Bottom" (ct'.name p') = false) ∧
      (ct.isSub p cTop = false → p' = p) ∧
      ∀ x b, (ct.next :: rest').getLast? = some x → ct'.ownSub x = some (some b) → hasSubstr "Top" (ct'.name b) = false := by
  intro rest
  induction rest with
  | nil =>
    intro n ct c p recurse hn w hd hsup hpl hrec
    obtain ⟨n, rfl⟩ : ∃ m, n = m + 1 := ⟨n - 1, by omega⟩
    obtain ⟨hf, b, hb, hbb⟩ := hd
    obtain ⟨ct2, p', q', eq, w2, x2, hl, f2, hnm, hs, ht, hnt, hq, hnq⟩ :=
      clone_start w n rfl hf hsup hpl hb (sub_lt w c c b (Nat.le_refl _) hf.1 hb) hrec
    obtain ⟨a1, a2, a3, a4⟩ := hq hbb
    refine ⟨ct2, [], p', ?_, w2, x2, ⟨f2, q', a3, a1⟩, rfl, hnm, hl, by simp, List.nodup_nil, hs,
      fun h => ⟨(ht h).1, (ht h).2.1, (ht h).2.2.2⟩, hnt, ?_⟩
    · rw [eq]; simp [a2]
    · intro x b hx hb
      have : ct.next = x := by simpa using hx
      rw [← this, a3] at hb
      rw [← Option.some.inj (Option.some.inj hb)]; exact a4
  | cons s rest ih =>
    intro n ct c p recurse hn w hd hsup hpl hrec
    obtain ⟨n, rfl⟩ : ∃ m, n = m + 1 := ⟨n - 1, by omega⟩
    obtain ⟨hf, hb, hsc, hdr⟩ := hd
    have hsf := hdr.head
    obtain ⟨ct2, p', q', eq, w2, x2, hl, f2, hnm, hs, ht, hnt, hq, hnq⟩ :=
      clone_start w n rfl hf hsup hpl hb hsf.1 hrec
    have : q' = s := hnq hsf.2.2.2.1
    subst this
    have hsup2 : ct2.sup q' = some c := by rw [sup_ext w x2 _ hsf.1, hsc]
    have hcn : c ≠ ct.next := Nat.ne_of_lt hf.1
    have hsi : ct2.isSub q' cInterval = true := by rw [isSub_ext w x2 _ _ hsf.1]; exact hsf.2.1
    rw [if_pos (by simp [hsup2, hcn, hsi])] at eq
    have hcT : ct2.isSub c cTop = false := by rw [isSub_ext w x2 _ _ hf.1]; exact hf.2.2.1
    obtain ⟨ct3, rest', p3, e3, w3, x3, d3, n3, nm3, l3, b3, nd3, s3, t3, f3, g3⟩ :=
      ih n ct2 q' c true (by simp at hn; omega) w2 (down_ext w x2 hdr) hsup2
        (Nat.lt_of_lt_of_le hf.1 x2.le) (Or.inl rfl)
    have hp3 : p3 = c := f3 hcT
    subst hp3
    have hdl3 : ct.next < ct3.next := Nat.lt_trans hl l3
    have fd : Fit ct3 ct.next := fit_ext w2 x3 f2
    have hne : ct2.next ≠ ct.next := Nat.ne_of_gt hl
    have fs := d3.head
    have e4 := setSubClass_new (ct := ct3) (c := ct.next) (s := ct2.next) fd.2.2.2.2.2 fs.2.2.2.2.1
      (isSub_trans w3 (interval_hier w3) _ _ (Nat.le_refl _) fs.1 fs.2.1)
      (isSub_trans w3 (interval_hier w3) _ _ (Nat.le_refl _) fd.1 fd.2.1) hne
      (by rw [s3]; intro h; exact hcn (Option.some.inj h))
    generalize hct4 : (ct3.putSub ct.next (some ct2.next)).putSup ct2.next (some ct.next) = ct4 at e4
    have w4 : WFC ct4 := hct4 ▸ wfc_putSup (wfc_putSub w3 _ _ l3) _ _ hdl3
    have x4 : Ext ct ct4 := hct4 ▸
      ext_putSup (ext_putSub (x2.trans x3) _ (Nat.le_refl _)) _ x2.le
    have hx4 : ct4.next = ct3.next := by rw [← hct4]; rfl
    have hn4 : ct4.name = ct3.name := by rw [← hct4]; rfl
    have hp4 : ct4.parent = ct3.parent := by rw [← hct4]; rfl
    have hsub4 : ∀ x, x ≠ ct.next → ct4.ownSub x = ct3.ownSub x := by
      intro x hx; rw [← hct4]; simp [ClassTab.putSup, ClassTab.putSub, upd, hx]
    have hsup4 : ∀ x, x ≠ ct2.next → ct4.ownSup x = ct3.ownSup x := by
      intro x hx; rw [← hct4]; simp [ClassTab.putSup, ClassTab.putSub, upd, hx]
    have hd4 : ct4.sup ct.next = some p' := by
      have h3 : ct3.sup ct.next = some p' := by rw [sup_ext w2 x3 _ hl, hs]
      have o4 := hsup4 ct.next hne.symm
      cases ho : ct3.ownSup ct.next with
      | some v => rw [sup_own ho] at h3; exact (sup_own (o4.trans ho)).trans h3
      | none =>
        cases hpp : ct3.parent ct.next with
        | none =>
          rw [sup_none ho hpp] at h3; cases h3
        | some r =>
          have hr2 : ct2.parent ct.next = some r := by rw [← x3.parent _ hl]; exact hpp
          have hr : r < ct.next := w2.down _ _ hl hr2
          rw [sup_parent w3 hdl3 hpp ho, sup_ext w (x2.trans x3) r hr] at h3
          rw [sup_parent w4 (by rw [hx4]; exact hdl3) (by rw [hp4]; exact hpp) (o4.trans ho),
            sup_ext w x4 r hr, h3]
    refine ⟨ct4, ct2.next :: rest', p', ?_, w4, x4, ⟨fit_congr hx4 hn4 hp4 fd, ?_, ?_, ?_⟩, ?_, ?_, ?_,
      ?_, ?_, hd4, ?_, hnt, ?_⟩
    · rw [eq, e3]; simp only [CRes.bind_ok, e4]
    · rw [← hct4]; simp [ClassTab.putSup, ClassTab.putSub]
    · rw [← hct4]; simp [ClassTab.putSup, ClassTab.putSub]
    · refine downO_frame hx4 hn4 hp4 ?_ ?_ d3
      · intro x hx
        refine hsub4 x ?_
        rcases List.mem_cons.1 hx with rfl | hx
        · exact hne
        · exact Nat.ne_of_gt (Nat.lt_trans hl (b3 x hx).1)
      · intro x hx
        exact hsup4 x (Nat.ne_of_gt (b3 x hx).1)
    · rw [hn4, List.map_cons, List.map_cons, nm3, n3, x2.name _ hsf.1]
      congr 1
      refine List.map_congr_left ?_
      intro x hx
      have : ∀ {l : List CRef}, Down ct l → ∀ y ∈ l, y < ct.next := by
        intro l
        induction l with
        | nil => intro h; exact h.elim
        | cons a r ih =>
          cases r with
          | nil => intro h y hy; rw [List.mem_singleton] at hy; subst hy; exact h.1.1
          | cons b r =>
            intro h y hy
            rcases List.mem_cons.1 hy with rfl | hy
            · exact h.1.1
            · exact ih h.2.2.2 y hy
      exact x2.name x (this hdr x (List.mem_cons_of_mem _ hx))
    · rw [hn4, x3.name _ hl, hnm]
    · rw [hx4]; exact hdl3
    · intro x hx
      rw [hx4]
      rcases List.mem_cons.1 hx with rfl | hx
      · exact ⟨hl, l3⟩
      · exact ⟨Nat.lt_trans hl (b3 x hx).1, (b3 x hx).2⟩
    · refine List.nodup_cons.2 ⟨fun h => ?_, nd3⟩
      exact Nat.lt_irrefl _ (b3 _ h).1
    · intro h
      obtain ⟨a, b, c', d', e'⟩ := ht h
      refine ⟨?_, b, ?_, ?_⟩
      · rw [isSub_congr hp4, isSub_ext w2 x3 _ _ c', a]
      · rw [hsup4 _ hne.symm, x3.ownSup _ hl, d']
      · rw [hn4, x3.name _ c', e']
    · intro x b hx hb
      have hx' : (ct2.next :: rest').getLast? = some x := by simpa [List.getLast?_cons] using hx
      rw [hn4]
      refine g3 x b hx' ?_
      rw [← hsub4 x ?_]; exact hb
      rcases List.mem_cons.1 (List.mem_of_getLast? hx') with rfl | hm
      · exact hne
      · exact Nat.ne_of_gt (Nat.lt_trans hl (b3 x hm).1)

/-- The links of the classes are set on these themselves, and the classes above and below have ordinary names. -/
structure OwnRow (ct : ClassTab) (l : List CRef) : Prop where
  sup : ∀ c ∈ l, ∃ b, ct.ownSup c = some (some b)
  sub : ∀ c ∈ l, ∃ b, ct.ownSub c = some (some b)
  top : ∀ c p, l.head? = some c → ct.ownSup c = some (some p) → hasSubstr "Bottom" (ct.name p) = false
  bottom : ∀ c p, l.getLast? = some c → ct.ownSub c = some (some p) → hasSubstr "Top" (ct.name p) = false

theorem OwnRow.ext {ct ct' : ClassTab} {l : List CRef} (o : OwnRow ct l) (w : WFC ct) (hl : ∀ c ∈ l, c < ct.next)
    (x : Ext ct ct') : OwnRow ct' l := by
  refine ⟨fun c hc => ?_, fun c hc => ?_, fun c p hc hp => ?_, fun c p hc hp => ?_⟩
  · rw [x.ownSup c (hl c hc)]; exact o.sup c hc
  · rw [x.ownSub c (hl c hc)]; exact o.sub c hc
  · have hm := hl c (List.mem_of_head? hc)
    rw [x.ownSup c hm] at hp
    rw [x.name p (w.supLt c p hm hp)]
    exact o.top c p hc hp
  · have hm := hl c (List.mem_of_getLast? hc)
    rw [x.ownSub c hm] at hp
    rw [x.name p (w.subLt c p hm hp)]
    exact o.bottom c p hc hp

theorem DownO.sub {ct : ClassTab} : ∀ {l : List CRef}, DownO ct l → ∀ c ∈ l, ∃ b, ct.ownSub c = some (some b) := by
  intro l
  induction l with
  | nil => intro h; exact h.elim
  | cons c r ih =>
    cases r with
    | nil =>
      rintro ⟨_, b, h1, _⟩ x hx
      rw [List.mem_singleton] at hx
      subst hx
      exact ⟨b, h1⟩
    | cons d r =>
      intro h x hx
      rcases List.mem_cons.1 hx with rfl | hx
      · exact ⟨d, h.2.1⟩
      · exact ih h.2.2.2 x hx

theorem DownO.sup {ct : ClassTab} : ∀ {l : List CRef}, DownO ct l → ∀ c ∈ l.tail, ∃ b, ct.ownSup c = some (some b) := by
  intro l
  induction l with
  | nil => intro h; exact h.elim
  | cons c r ih =>
    cases r with
    | nil => intro _ x hx; cases hx
    | cons d r =>
      intro h x hx
      rcases List.mem_cons.1 hx with rfl | hx
      · exact ⟨c, h.2.2.1⟩
      · exact ih h.2.2.2 x hx

end ATG
