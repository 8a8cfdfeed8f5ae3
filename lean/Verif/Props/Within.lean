import Verif.Lemmas.Within
import Verif.Props.Group
/-!
# C40, C41: paths and ids
-/
namespace ATG

/-! ## C40 -/

/-- C40: a path that is returned leads from an outermost container to the object. -/
theorem C40_path (h : Heap) (n : Node) (p : List Nat) (e : withinPath h n = .ok p) :
    ∃ r, Outermost h r ∧ Path h r p n := by
  obtain ⟨r, h1, h2⟩ := getPathN_path _ (withinPath_ok.mp e)
  rw [List.reverse_reverse] at h2
  exact ⟨r, h1, h2⟩

/-- C40: two objects under the same outermost container never have the same path. -/
theorem C40_distinct (h : Heap) (r n m : Node) (hr : Outermost h r) (hn : Under h r n) (hm : Under h r m) (p : List Nat)
    (e1 : withinPath h n = .ok p) (e2 : withinPath h m = .ok p) : n = m := by
  obtain ⟨r1, o1, p1⟩ := C40_path h n p e1
  obtain ⟨r2, o2, p2⟩ := C40_path h m p e2
  obtain ⟨q1, hn⟩ := hn
  obtain ⟨q2, hm⟩ := hm
  have a := hn.root p1 hr o1
  have b := hm.root p2 hr o2
  subst a; subst b
  exact p1.unique p2

theorem Path.outward {h : Heap} {m n : Node} {s : List Nat} (hp : Path h m s n) : ∀ (k : Nat) (p : List Nat),
    getPathN h k n = .ok p → ∃ q s', getPathN h k m = .ok q ∧ p = s' ++ q ∧ s'.length = s.length := by
  induction hp with
  | here => intro k p e; exact ⟨p, [], e, rfl, rfl⟩
  | @down m' n' s l i hp h1 h2 h3 ih =>
    intro k p e
    cases k with
    | zero => simp [getPathN] at e
    | succ k =>
      obtain ⟨j, q, e1, e2, -⟩ := getPathN_step h1 h2 e
      obtain ⟨q', s', e3, e4, e5⟩ := ih k q e1
      exact ⟨q', j :: s', getPathN_mono k e3, by rw [e2, e4]; rfl, by simp [e5]⟩

/-- C40: the path of a container is a prefix of the path of what it contains, a proper one unless they are
    the same. -/
theorem C40_prefix (h : Heap) (m n : Node) (s p : List Nat) (hp : Path h m s n) (e : withinPath h n = .ok p) :
    ∃ q s', withinPath h m = .ok q ∧ p = q ++ s' ∧ s'.length = s.length := by
  obtain ⟨q, s', e1, e2, e3⟩ := hp.outward _ _ (withinPath_ok.mp e)
  refine ⟨q.reverse, s'.reverse, ?_, ?_, by simp [e3]⟩
  · rw [withinPath_ok, List.reverse_reverse]; exact e1
  · rw [← List.reverse_append, ← e2, List.reverse_reverse]

/-- C40: when no `contains` lists an object twice, the path that is returned is the list of the positions of
    the object and its containers. -/
theorem C40_computed (h : Heap) (r n : Node) (p : List Nat) (hr : Outermost h r) (hp : Path h r p n)
    (hd : ∀ m l, Under h r m → h.containsOf m = some l → l.Nodup) (hl : p.length < pathFuel) :
    withinPath h n = .ok p := by
  have key : ∀ k, p.length < k → getPathN h k n = .ok p.reverse := by
    induction hp with
    | here =>
      intro k hk
      cases k with
      | zero => simp at hk
      | succ k =>
        unfold getPathN
        rw [withinIndex_none.mpr hr]
        rfl
    | @down m n p l i hp h1 h2 h3 ih =>
      intro k hk
      rw [List.length_append] at hk hl
      simp only [List.length_cons, List.length_nil] at hk hl
      cases k with
      | zero => omega
      | succ k =>
        rw [List.reverse_append]
        exact getPathN_child h1 h2 (hd m l ⟨p, hp⟩ h2) h3 (ih (by omega) k (by omega))
  exact withinPath_ok.mpr (key _ hl)

theorem Path.trans {h : Heap} {r m n : Node} {p q : List Nat} (a : Path h r p m) (b : Path h m q n) :
    Path h r (p ++ q) n := by
  induction b with
  | here => rw [List.append_nil]; exact a
  | down b h1 h2 h3 ih => rw [← List.append_assoc]; exact Path.down ih h1 h2 h3

/-- C40 for tiers that fit together, down to the `Bottom` class: after the group is made, its `i`-th tier has
    the path `[i]` from the group, the `j`-th entry of the top tier `[0, j]`, and every entry of the `i`-th
    tier a path of length `i + 2`, which is that of its superset interval and its position there.
    `_partial`: without a tier for the lowest class the tiers are not under their group
    (`C40_incomplete_violated`). Missing: tiers that do not fit together. -/
theorem C40_group_partial (g : GRef) (tiers ts : List TRef) (delay : Bool) (h : Heap) (ch : ClassChain h ts)
    (hp : tiers.Perm ts) (hne : ts ≠ []) (al : AlignedTiers h ts) (td : Tidy h)
    (hb : ∀ t c, ts[ts.length - 1]? = some t → h.tsub t = some c → h.ct.isSub c cBottom = true)
    (htop : ∀ t, ts[0]? = some t → h.tcont t = .alias ∧
      ∀ x ∈ (h.tseq t).vals, h.within x = some (.tier t) ∧ h.sup x = none) :
    ∃ h', groupInit g tiers delay h = .ok () h' ∧ h'.gwithin = h.gwithin ∧
      (∀ i t, ts[i]? = some t → Path h' (.group g) [i] (.tier t)) ∧
      (∀ t j x, ts[0]? = some t → (h.tseq t).vals[j]? = some x → Path h' (.group g) [0, j] (.entry x)) ∧
      (∀ i t t', ts[i]? = some t → ts[i + 1]? = some t' → ∀ u ∈ (h.tseq t).vals, ∀ j x, (h'.subs u).vals[j]? = some x →
        Path h' (.entry u) [j] (.entry x)) ∧
      (∀ i t, ts[i]? = some t → ∀ x ∈ (h.tseq t).vals, ∃ p, Path h' (.group g) p (.entry x) ∧ p.length = i + 2) := by
  obtain ⟨b, ha⟩ := ch.arrange hp hne
  have hmem : ∀ t ∈ ts, t ∈ tiers := fun t ht => hp.mem_iff.mpr ht
  have hbt : b = true := by
    cases hl : ts[ts.length - 1]? with
    | none =>
      have : 0 < ts.length := List.length_pos_iff.mpr hne
      rw [List.getElem?_eq_none_iff] at hl; omega
    | some t =>
      obtain ⟨c, hc, -⟩ := ch.bottom t hl
      rw [← arrange_complete ha t c hl hc]
      exact hb t c hl hc
  subst hbt
  obtain ⟨h1, h', e, f, r⟩ := groupInit_run g tiers ts delay true h ha hmem al (td.on fun _ => True) (fun _ _ => trivial)
  obtain ⟨h2, e2, -, s, rc, -⟩ := groupInit_related g tiers ts delay true h ha hmem al (td.on fun _ => True) (fun _ _ => trivial)
  have e12 : h2 = h' := by rw [e] at e2; cases e2; rfl
  subst e12
  have e0 := seated_frame h g ts true
  have hgc : h2.gcont g = some ts := by
    rw [r.frame, f.frame]; simp [seated, contained]
  have htw : ∀ t ∈ ts, h2.twithin t = some g := by
    intro t ht
    rw [r.frame, f.frame]; simp [seated, contained, ht]
  have hseq : h2.tseq = h.tseq := s.tseq
  have htier : ∀ i t, ts[i]? = some t → Path h2 (.group g) [i] (.tier t) := by
    intro i t hi
    refine Path.down (p := []) (l := ts.map .tier) Path.here ?_ ?_ ?_
    · show (h2.twithin t).map Node.group = _
      rw [htw t (List.mem_of_getElem? hi)]; rfl
    · show (h2.gcont g).map _ = _
      rw [hgc]; rfl
    · rw [List.getElem?_map, hi]; rfl
  have htopw : ∀ t, ts[0]? = some t → h2.tcont t = .alias ∧ ∀ x ∈ (h.tseq t).vals, h2.within x = some (.tier t) := by
    intro t ht
    refine ⟨by rw [r.frame, f.frame, e0]; exact (htop t ht).1, ?_⟩
    intro x hx
    rw [(r.otherLower x (chain_lower_notTop al t ht x hx)).2.1, f.within, if_neg, e0]
    · exact ((htop t ht).2 x hx).1
    · rw [e0]; intro q; exact q.2 ((htop t ht).2 x hx).2
  have hent : ∀ t j x, ts[0]? = some t → (h.tseq t).vals[j]? = some x → Path h2 (.group g) [0, j] (.entry x) := by
    intro t j x ht hx
    refine Path.down (p := [0]) (l := (h.tseq t).vals.map .entry) (htier 0 t ht) ?_ ?_ ?_
    · simp [Heap.withinOf, (htopw t ht).2 x (List.mem_of_getElem? hx)]
    · simp [Heap.containsOf, (htopw t ht).1, hseq]
    · rw [List.getElem?_map, hx]; rfl
  have hsub : ∀ i t t', ts[i]? = some t → ts[i + 1]? = some t' → ∀ u ∈ (h.tseq t).vals, ∀ j x,
      (h2.subs u).vals[j]? = some x → Path h2 (.entry u) [j] (.entry x) := by
    intro i t t' g1 g2 u hu j x hx
    have hu' : u ∈ (h2.tseq t).vals := by rw [hseq]; exact hu
    refine Path.down (p := []) (l := (h2.subs u).vals.map .entry) Path.here ?_ ?_ ?_
    · simp [Heap.withinOf, (rc.sup i t t' g1 g2 u hu' x (List.mem_of_getElem? hx)).2]
    · simp [Heap.containsOf, rc.contains i t t' g1 g2 u hu']
    · rw [List.getElem?_map, hx]; rfl
  refine ⟨h2, e, by rw [r.frame, f.frame, e0], htier, hent, hsub, ?_⟩
  intro i
  induction i with
  | zero =>
    intro t ht x hx
    obtain ⟨j, hj⟩ := List.mem_iff_getElem?.mp hx
    exact ⟨[0, j], hent t j x ht hj, rfl⟩
  | succ i ih =>
    intro t' ht' x hx
    have hi : i < ts.length := by
      have := (List.getElem?_eq_some_iff.mp ht').1; omega
    have ht : ts[i]? = some ts[i] := List.getElem?_eq_getElem hi
    obtain ⟨u, hu, hxu⟩ := rc.covered i ts[i] t' ht ht' x (by rw [hseq]; exact hx)
    rw [hseq] at hu
    obtain ⟨p, hp1, hp2⟩ := ih ts[i] ht u hu
    obtain ⟨j, hj⟩ := List.mem_iff_getElem?.mp hxu
    refine ⟨p ++ [j], hp1.trans (hsub i ts[i] t' ht ht' u hu j x hj), ?_⟩
    rw [List.length_append, hp2]; simp

/-- C40: assigning the groups of a textgrid puts them under it. -/
theorem C40_textgrid (a : ARef) (gs : List GRef) (hne : gs ≠ []) (h : Heap) :
    ∃ h', setGroups a gs h = .ok () h' ∧ ∀ (i : Nat) g, gs[i]? = some g → Path h' (.textgrid a) [i] (.group g) := by
  have key : ∀ (l : List GRef) (h : Heap), M.forL l
      (fun g => M.modify fun h => { h with gwithin := upd h.gwithin g (some a) }) h =
      .ok () { h with gwithin := fun g => if g ∈ l then some a else h.gwithin g } := by
    intro l
    induction l with
    | nil => intro h; simp
    | cons t ts ih =>
      intro h
      rw [M.forL_cons]
      simp only [M.modify]
      rw [ih]
      congr 2
      funext s
      by_cases e : s ∈ ts
      · simp [e]
      · by_cases e2 : s = t <;> simp [e, e2, upd]
  cases gs with
  | nil => exact absurd rfl hne
  | cons g0 gs =>
    refine ⟨{ h with agroups := upd h.agroups a (g0 :: gs), acont := upd h.acont a (g0 :: gs),
                     gwithin := fun g => if g ∈ g0 :: gs then some a else h.gwithin g }, ?_, ?_⟩
    · unfold setGroups setContainsA
      mstep (show M.modify _ h = .ok () _ from rfl)
      mstep M.get_apply _
      mstep (show M.modify _ _ = .ok () _ from rfl)
      rw [key]
      simp only [upd_same]
    · intro i g hi
      refine Path.down (p := []) (l := (g0 :: gs).map .group) Path.here ?_ ?_ ?_
      · show ((if g ∈ g0 :: gs then some a else h.gwithin g) : Option ARef).map Node.textgrid = _
        rw [if_pos (List.mem_of_getElem? hi)]; rfl
      · show some ((upd h.acont a (g0 :: gs) a).map Node.group) = _
        rw [upd_same]
      · rw [List.getElem?_map, hi]; rfl

/-- a textgrid of two speakers, each with a tier of words only -/
def mkTwoSpeakers : M ARef := newAtg [("w1", [(0, 1, "a"), (1, 2, "b")]), ("w2", [(0, 2, "c")])] (.nested [[cWord], [cWord]])

/-- the heap with that textgrid -/
def exTwoSpeakers : Heap := run0 mkTwoSpeakers

/-- C40 fails: without a phone tier the tiers are not under their groups, so the words of two speakers of
    one textgrid have the same path, and the tiers an empty one. -/
theorem C40_incomplete_violated :
    (mkTwoSpeakers heap0).out = .ok 0 ∧ exTwoSpeakers.agroups 0 = [0, 1] ∧ exTwoSpeakers.gtiers 0 = [0] ∧ exTwoSpeakers.gtiers 1 = [1] ∧
    (exTwoSpeakers.tseq 0).vals = [0, 1] ∧ (exTwoSpeakers.tseq 1).vals = [2] ∧
    withinPath exTwoSpeakers (.entry 0) = .ok [0] ∧ withinPath exTwoSpeakers (.entry 2) = .ok [0] ∧
    withinPath exTwoSpeakers (.tier 0) = .ok [] ∧ withinPath exTwoSpeakers (.tier 1) = .ok [] := by decide +kernel

/-- C40 fails: an interval popped from its tier keeps the tier as container, and asking for its path raises. -/
theorem C40_popped_violated :
    let h := run0 (do
      let t ← newTierFrom [(0, 1, "a"), (1, 2, "b")] cWord "Word"
      tierPop t 0)
    (h.tseq 0).vals = [1] ∧ h.within 0 = some (.tier 0) ∧ withinPath h (.entry 0) = .error .valueError := by
  decide +kernel

/-- a textgrid of two speakers with words and phones -/
def exTwoFull : Heap := run0 (newAtg [("w1", [(0, 1, "a"), (1, 2, "b")]), ("p1", [(0, 1, "a"), (1, 2, "b")]),
  ("w2", [(0, 2, "c")]), ("p2", [(0, 1, "c"), (1, 2, "d")])] (.flat [cWord, cPhone]))

example : withinPath exTwoFull (.entry 1) = .ok [0, 0, 1] ∧ withinPath exTwoFull (.entry 4) = .ok [1, 0, 0] ∧
    withinPath exTwoFull (.entry 6) = .ok [1, 0, 0, 1] ∧ withinPath exTwoFull (.tier 3) = .ok [1, 1] := by decide +kernel

/-- `exAligned` with the top tier containing its words -/
def exAnchored : Heap :=
  { exAligned with
    within := fun x => if x < 2 then some (.tier 0) else none
    tcont := fun t => if t = 0 then .alias else .unset }

-- the hypotheses of C40_group_partial
example : ∃ h', groupInit 0 [1, 0] false exAnchored = .ok () h' ∧ Path h' (.group 0) [0, 1] (.entry 1) := by
  obtain ⟨h', e, -, -, h3, -⟩ := C40_group_partial 0 [1, 0] [0, 1] false exAnchored
    (exAligned_chain.congr rfl rfl rfl rfl) (by decide) (by simp)
    (exAligned_aligned.congr rfl rfl rfl rfl rfl rfl rfl)
    (exAligned_tidy.congr rfl rfl rfl rfl rfl rfl rfl)
    (by
      intro t c h1 h2
      have h1 : some 1 = some t := h1
      cases h1
      have h2 : some 8 = some c := h2
      cases h2
      exact (by decide +kernel : baseClasses.isSub 8 cBottom = true))
    (by
      intro t ht
      have ht : some 0 = some t := ht
      cases ht
      exact ⟨rfl, by decide⟩)
  exact ⟨h', e, h3 0 1 1 rfl rfl⟩

/-! ## C41 -/

/-- C41: equal id strings mean equal paths. -/
theorem C41_path (h : Heap) (n m : Node) (s : String) (e1 : nodeId h n = .ok s) (e2 : nodeId h m = .ok s) :
    ∃ p, withinPath h n = .ok p ∧ withinPath h m = .ok p := by
  unfold nodeId at e1 e2
  cases k1 : withinPath h n with
  | error x => rw [k1] at e1; simp at e1
  | ok p =>
    cases k2 : withinPath h m with
    | error x => rw [k2] at e2; simp at e2
    | ok q =>
      rw [k1] at e1
      rw [k2] at e2
      simp only [Except.ok.injEq] at e1 e2
      have := dashed_inj p q (by rw [e1, e2])
      subst this
      exact ⟨p, rfl, rfl⟩

/-- C41 where it holds: objects with the same id under one outermost container are the same. `_partial`: an
    object of a textgrid need not be under it (`C41_violated`). -/
theorem C41_same_partial (h : Heap) (r n m : Node) (hr : Outermost h r) (hn : Under h r n) (hm : Under h r m) (s : String)
    (e1 : nodeId h n = .ok s) (e2 : nodeId h m = .ok s) : n = m := by
  obtain ⟨p, k1, k2⟩ := C41_path h n m s e1 e2
  exact C40_distinct h r n m hr hn hm p k1 k2

/-- C41 fails: two words of one textgrid with the same id. -/
theorem C41_violated : (mkTwoSpeakers heap0).out = .ok 0 ∧ exTwoSpeakers.agroups 0 = [0, 1] ∧ exTwoSpeakers.gtiers 0 = [0] ∧ exTwoSpeakers.gtiers 1 = [1] ∧
    (exTwoSpeakers.tseq 0).vals = [0, 1] ∧ (exTwoSpeakers.tseq 1).vals = [2] ∧
    nodeId exTwoSpeakers (.entry 0) = .ok "0" ∧ nodeId exTwoSpeakers (.entry 2) = .ok "0" := by decide +kernel

example : nodeId exTwoFull (.entry 6) = .ok "1-0-0-1" := by decide +kernel
example : dashed [1, 23] ≠ dashed [12, 3] := by decide +kernel

end ATG
