import Verif.Props.InterleavePop
/-!
# The classes of a textgrid that is edited
-/
namespace ATG

/-- The classes of the tiers of a group, top to bottom: linked to each other by links of their own, below a `Top` class and
    above another class, `Bottom` or one without a tier. -/
structure ClassRow (ct : ClassTab) (cs : List CRef) : Prop where
  links : ClassLinks ct cs
  own : OwnLinks ct cs
  lt : ∀ c ∈ cs, c < ct.next
  part : ∀ c ∈ cs, ct.isSub c cHierarchyPart = true
  plain : ∀ c ∈ cs, PlainName (ct.name c)
  top : ∀ c, cs.head? = some c → ∃ p, ct.ownSup c = some (some p) ∧ ct.isSub p cTop = true ∧
    ct.isSub p cBottom = false ∧ ct.isSub p cHierarchyPart = true ∧ hasSubstr "Bottom" (ct.name p) = false
  bottom : ∀ c, cs.getLast? = some c → ∃ p, ct.ownSub c = some (some p) ∧ (ct.isSub p cTop = false ∧
    ct.isSub p cHierarchyPart = true ∧ hasSubstr "Top" (ct.name p) = false) ∧ p ∉ cs

theorem ClassRow.fixed {ct ct' : ClassTab} {cs : List CRef} (r : ClassRow ct cs) {c : CRef} (hc : c ∈ cs)
    (hsup : ct'.ownSup c = ct.ownSup c) (hsub : ct'.ownSub c = ct.ownSub c) : ct'.sup c = ct.sup c ∧ ct'.sub c = ct.sub c := by
  obtain ⟨⟨a, b, oa, ob⟩, -⟩ := r.own c hc
  exact ⟨by rw [sup_own ob, sup_own (hsup.trans ob)], by rw [sub_own oa, sub_own (hsub.trans oa)]⟩

theorem ClassRow.congr {ct ct' : ClassTab} {cs : List CRef} (r : ClassRow ct cs) (w : WFC ct) (hle : ct.next ≤ ct'.next)
    (hsup : ∀ c ∈ cs, ct'.ownSup c = ct.ownSup c) (hsub : ∀ c ∈ cs, ct'.ownSub c = ct.ownSub c)
    (his : ∀ x y, x < ct.next → ct'.isSub x y = ct.isSub x y) (hname : ∀ x, x < ct.next → ct'.name x = ct.name x) :
    ClassRow ct' cs := by
  have e1 : ∀ c ∈ cs, ct'.sup c = ct.sup c := fun c hc => (r.fixed hc (hsup c hc) (hsub c hc)).1
  have e2 : ∀ c ∈ cs, ct'.sub c = ct.sub c := fun c hc => (r.fixed hc (hsup c hc) (hsub c hc)).2
  have l := r.links
  refine ⟨⟨l.distinct, ?_, ?_, ?_, ?_⟩, ?_, fun c hc => Nat.lt_of_lt_of_le (r.lt c hc) hle, ?_, ?_, ?_, ?_⟩
  · intro i c c' q1 q2
    rw [e2 c (List.mem_of_getElem? q1), e1 c' (List.mem_of_getElem? q2)]
    exact l.down i c c' q1 q2
  · intro i c c' q1 q2
    rw [his c _ (r.lt c (List.mem_of_getElem? q1)), his c' _ (r.lt c' (List.mem_of_getElem? q2))]
    exact l.inner i c c' q1 q2
  · intro c q
    have hm := List.mem_of_getElem? q
    obtain ⟨p, p1, p2⟩ := l.top c q
    obtain ⟨⟨a, b, oa, ob⟩, -⟩ := r.own c hm
    have hb : p = b := by rw [sup_own ob] at p1; exact (Option.some.inj p1).symm
    subst hb
    exact ⟨p, by rw [e1 c hm]; exact p1, by rw [his p _ (w.supLt c p (r.lt c hm) ob)]; exact p2⟩
  · intro c q
    have hm := List.mem_of_getElem? q
    obtain ⟨p, p1, p2⟩ := l.bottom c q
    obtain ⟨⟨a, b, oa, ob⟩, -⟩ := r.own c hm
    have hb : p = a := by rw [sub_own oa] at p1; exact (Option.some.inj p1).symm
    subst hb
    exact ⟨p, by rw [e2 c hm]; exact p1, by rw [his p _ (w.subLt c p (r.lt c hm) oa)]; exact p2⟩
  · intro c hc
    rw [his c _ (r.lt c hc), his c _ (r.lt c hc), hsup c hc, hsub c hc]
    exact r.own c hc
  · intro c hc; rw [his c _ (r.lt c hc)]; exact r.part c hc
  · intro c hc; rw [hname c (r.lt c hc)]; exact r.plain c hc
  · intro c q
    have hm := List.mem_of_head? q
    obtain ⟨p, p1, p2⟩ := r.top c q
    have hp := w.supLt c p (r.lt c hm) p1
    exact ⟨p, by rw [hsup c hm]; exact p1, by rw [his p _ hp, his p _ hp, his p _ hp, hname p hp]; exact p2⟩
  · intro c q
    have hm := List.mem_of_getLast? q
    obtain ⟨p, p1, p2, p3⟩ := r.bottom c q
    have hp := w.subLt c p (r.lt c hm) p1
    exact ⟨p, by rw [hsub c hm]; exact p1, by rw [his p _ hp, his p _ hp, hname p hp]; exact p2, p3⟩

/-- the classes on both sides of a place in a row of classes -/
structure ClassGap (ct : ClassTab) (P Q : List CRef) (u d : CRef) : Prop where
  last : ∀ c, P.getLast? = some c → c = u ∧ ct.ownSub c = some (some d)
  head : ∀ c, Q.head? = some c → c = d ∧ ct.ownSup c = some (some u)
  outU : u ∉ Q
  outD : d ∉ P
  ne : u ≠ d
  ltU : u < ct.next
  ltD : d < ct.next
  partU : ct.isSub u cHierarchyPart = true
  partD : ct.isSub d cHierarchyPart = true
  nameU : hasSubstr "Bottom" (ct.name u) = false
  nameD : hasSubstr "Top" (ct.name d) = false
  isTop : P = [] → ct.isSub u cTop = true ∧ ct.isSub u cBottom = false
  isLow : Q = [] → ct.isSub d cTop = false
  whereU : u ∈ P ∨ P = []
  whereD : d ∈ Q ∨ Q = []

theorem ClassRow.gap {ct : ClassTab} {P Q : List CRef} (r : ClassRow ct (P ++ Q)) (w : WFC ct) (hne : P ++ Q ≠ []) :
    ∃ u d, ClassGap ct P Q u d := by
  have nd := List.nodup_append.mp r.links.distinct
  rcases List.eq_nil_or_concat P with rfl | ⟨P, u, rfl⟩
  · cases Q with
    | nil => exact absurd rfl hne
    | cons d Q =>
      obtain ⟨p, p1, p2, p3, p4, p5⟩ := r.top d rfl
      have hd : d ∈ [] ++ d :: Q := by simp
      have hnot : p ∉ d :: Q := by
        intro hm
        have := (r.own p (by simpa using hm)).2.1
        rw [p2] at this
        cases this
      refine ⟨p, d, ?_, ?_, hnot, by simp, fun e => hnot (by simp [e]), w.supLt d p (r.lt d hd) p1, r.lt d hd, p4,
        r.part d hd, p5, (r.plain d hd).1, fun _ => ⟨p2, p3⟩, by simp, Or.inr rfl, Or.inl (by simp)⟩
      · intro c q; cases q
      · intro c q; cases q; exact ⟨rfl, p1⟩
  · rw [List.concat_eq_append] at *
    have hu : u ∈ P ++ [u] ++ Q := by simp
    cases Q with
    | nil =>
      obtain ⟨p, p1, ⟨p2, p4, p5⟩, hnot⟩ := r.bottom u (by simp)
      rw [List.append_nil] at hnot
      refine ⟨u, p, ?_, ?_, by simp, hnot, fun e => hnot (by simp [e]), r.lt u hu, w.subLt u p (r.lt u hu) p1,
        r.part u hu, p4, (r.plain u hu).2, p5, by simp, fun _ => p2, Or.inl (by simp), Or.inr rfl⟩
      · intro c q
        rw [List.getLast?_append] at q; cases q
        exact ⟨rfl, p1⟩
      · intro c q; cases q
    | cons d Q =>
      have hd : d ∈ P ++ [u] ++ d :: Q := by simp
      have i1 : (P ++ [u] ++ d :: Q)[P.length]? = some u := by simp
      have i2 : (P ++ [u] ++ d :: Q)[P.length + 1]? = some d := by simp
      obtain ⟨l1, l2⟩ := r.links.down _ _ _ i1 i2
      obtain ⟨⟨a, b, oa, -⟩, -⟩ := r.own u hu
      obtain ⟨⟨a', b', -, ob'⟩, -⟩ := r.own d hd
      rw [sub_own oa] at l1
      rw [sup_own ob'] at l2
      cases l1; cases l2
      refine ⟨_, _, ?_, ?_, ?_, ?_, ?_, r.lt _ hu, r.lt _ hd, r.part _ hu, r.part _ hd, (r.plain _ hu).2,
        (r.plain _ hd).1, by simp, by simp, Or.inl (by simp), Or.inl (by simp)⟩
      · intro c q
        rw [List.getLast?_append] at q; cases q
        exact ⟨rfl, oa⟩
      · intro c q; cases q; exact ⟨rfl, ob'⟩
      · exact fun hm => nd.2.2 _ (by simp) _ hm rfl
      · exact fun hm => nd.2.2 _ hm _ (by simp) rfl
      · exact nd.2.2 _ (by simp) _ (by simp)

/-- around a class of a row -/
theorem ClassRow.between {ct : ClassTab} {P Q : List CRef} {p : CRef} (r : ClassRow ct (P ++ p :: Q)) (w : WFC ct) :
    ∃ u d, Between ct u p d ∧ ClassGap ct P (p :: Q) u p ∧ ClassGap ct (P ++ [p]) Q p d := by
  have e : P ++ p :: Q = P ++ [p] ++ Q := by simp
  obtain ⟨u, p1, g1⟩ := r.gap w (by simp)
  obtain ⟨p2, d, g2⟩ := (e ▸ r).gap w (by simp)
  obtain ⟨rfl, o1⟩ := g1.head p rfl
  obtain ⟨rfl, o2⟩ := g2.last p (by simp)
  have hp := r.own p (by simp)
  refine ⟨u, d, ⟨o1, o2, g1.ne, g2.ne.symm, ?_, g1.partU, g2.partD, g1.nameU, g2.nameD⟩, g1, g2⟩
  rintro rfl
  rcases g1.whereU with q | q
  · exact g2.outD (by simp [q])
  · rcases g2.whereD with q' | q'
    · exact g1.outU (by simp [q'])
    · have := (g1.isTop q).1
      rw [g2.isLow q'] at this
      cases this

theorem closeLink_isSub (ct : ClassTab) (u d x y : CRef) : (closeLink ct u d).isSub x y = ct.isSub x y :=
  isSub_congr (show (closeLink ct u d).parent = ct.parent from rfl) x y

theorem closeLink_sup (ct : ClassTab) (u d x : CRef) :
    (closeLink ct u d).ownSup x = if x = d then some (some u) else ct.ownSup x := by
  show upd ct.ownSup d (some (some u)) x = _
  unfold upd
  rfl

theorem closeLink_sub (ct : ClassTab) (u d x : CRef) :
    (closeLink ct u d).ownSub x = if x = u then some (some d) else ct.ownSub x := by
  show upd ct.ownSub u (some (some d)) x = _
  unfold upd
  rfl

/-- the row without a class -/
theorem ClassRow.remove {ct : ClassTab} {P Q : List CRef} {u p d : CRef} (r : ClassRow ct (P ++ p :: Q))
    (b : Between ct u p d) (g1 : ClassGap ct P (p :: Q) u p) (g2 : ClassGap ct (P ++ [p]) Q p d) :
    ClassRow (closeLink ct u d) (P ++ Q) := by
  have hm : ∀ c ∈ P ++ Q, c ∈ P ++ p :: Q := by
    intro c hc
    rcases List.mem_append.mp hc with q | q <;> simp [q]
  have own : OwnLinks ct (P ++ Q) := fun c hc => r.own c (hm c hc)
  refine ⟨r.links.remove own b, ?_, fun c hc => r.lt c (hm c hc), ?_, fun c hc => r.plain c (hm c hc), ?_, ?_⟩
  · intro c hc
    obtain ⟨⟨x, y, ox, oy⟩, k1, k2⟩ := own c hc
    rw [closeLink_isSub, closeLink_isSub, closeLink_sup, closeLink_sub]
    refine ⟨⟨if c = u then d else x, if c = d then u else y, ?_, ?_⟩, k1, k2⟩
    · split
      · rfl
      · exact ox
    · split
      · rfl
      · exact oy
  · intro c hc; rw [closeLink_isSub]; exact r.part c (hm c hc)
  · intro c q
    simp only [closeLink_sup, closeLink_isSub]
    cases P with
    | nil =>
      obtain ⟨rfl, -⟩ := g2.head c q
      refine ⟨u, if_pos rfl, (g1.isTop rfl).1, (g1.isTop rfl).2, g1.partU, g1.nameU⟩
    | cons x P =>
      cases q
      obtain ⟨t, t1, t2⟩ := r.top c rfl
      refine ⟨t, ?_, t2⟩
      rw [if_neg (fun e => g2.outD (by simp [← e]))]
      exact t1
  · intro c q
    simp only [closeLink_sub, closeLink_isSub]
    rcases List.eq_nil_or_concat Q with rfl | ⟨Q, x, rfl⟩
    · rw [List.append_nil] at q
      obtain ⟨rfl, -⟩ := g1.last c q
      exact ⟨d, if_pos rfl, ⟨g2.isLow rfl, g2.partD, g2.nameD⟩, fun q => g2.outD (by simpa using Or.inl q)⟩
    · rw [List.concat_eq_append] at *
      rw [← List.append_assoc, List.getLast?_append] at q
      cases q
      obtain ⟨t, t1, t2, t3⟩ := r.bottom x (by rw [← List.cons_append, ← List.append_assoc, List.getLast?_append]; rfl)
      refine ⟨t, ?_, t2, fun q => t3 (hm t q)⟩
      rw [if_neg (fun e => g1.outU (by simp [← e]))]
      exact t1

/-- the row with a new class -/
theorem ClassRow.insert {ct ct' : ClassTab} {P Q : List CRef} {u d new : CRef} (r : ClassRow ct (P ++ Q)) (w : WFC ct)
    (g : ClassGap ct P Q u d) (hnew : ct.next ≤ new) (hlt : new < ct'.next) (b : Between ct' u new d)
    (hname : PlainName (ct'.name new))
    (n2 : ct'.ownSub u = some (some new)) (n4 : ct'.ownSup d = some (some new))
    (hsup : ∀ x, x < ct.next → x ≠ d → ct'.ownSup x = ct.ownSup x)
    (hsub : ∀ x, x < ct.next → x ≠ u → ct'.ownSub x = ct.ownSub x)
    (k : ct'.isSub new cHierarchyPart = true ∧ ct'.isSub new cTop = false ∧ ct'.isSub new cBottom = false)
    (his : ∀ x y, x < ct.next → ct'.isSub x y = ct.isSub x y) (hn : ∀ x, x < ct.next → ct'.name x = ct.name x)
    (links : ClassLinks ct' (P ++ new :: Q)) : ClassRow ct' (P ++ new :: Q) := by
  have hm : ∀ c ∈ P ++ new :: Q, c = new ∨ c ∈ P ++ Q := by
    intro c hc
    rcases List.mem_append.mp hc with q | q
    · simp [q]
    · rcases List.mem_cons.mp q with q | q <;> simp [q]
  refine ⟨links, ?_, ?_, ?_, ?_, ?_, ?_⟩
  · intro c hc
    rcases hm c hc with rfl | hc
    · exact ⟨⟨d, u, b.sub, b.sup⟩, k.2⟩
    · obtain ⟨⟨x, y, ox, oy⟩, k1, k2⟩ := r.own c hc
      have hl := r.lt c hc
      rw [his c _ hl, his c _ hl]
      refine ⟨⟨if c = u then new else x, if c = d then new else y, ?_, ?_⟩, k1, k2⟩
      · split
        · rename_i e; rw [e]; exact n2
        · rename_i e; rw [hsub c hl e]; exact ox
      · split
        · rename_i e; rw [e]; exact n4
        · rename_i e; rw [hsup c hl e]; exact oy
  · intro c hc
    rcases hm c hc with rfl | hc
    · exact hlt
    · have := r.lt c hc; unfold CRef at *; omega
  · intro c hc
    rcases hm c hc with rfl | hc
    · exact k.1
    · rw [his c _ (r.lt c hc)]; exact r.part c hc
  · intro c hc
    rcases hm c hc with rfl | hc
    · exact hname
    · rw [hn c (r.lt c hc)]; exact r.plain c hc
  · intro c q
    cases P with
    | nil =>
      cases q
      refine ⟨u, b.sup, ?_, ?_, b.partU, b.nameU⟩
      · rw [his u _ g.ltU]; exact (g.isTop rfl).1
      · rw [his u _ g.ltU]; exact (g.isTop rfl).2
    | cons x P =>
      cases q
      obtain ⟨t, t1, t2⟩ := r.top c rfl
      have hl := r.lt c (by simp)
      have ht := w.supLt c t hl t1
      refine ⟨t, ?_, ?_⟩
      · rw [hsup c hl (fun e => g.outD (by simp [← e]))]; exact t1
      · rw [his t _ ht, his t _ ht, his t _ ht, hn t ht]; exact t2
  · intro c q
    rcases List.eq_nil_or_concat Q with rfl | ⟨Q, x, rfl⟩
    · rw [List.getLast?_append] at q
      cases q
      refine ⟨d, b.sub, ⟨?_, b.partD, b.nameD⟩, ?_⟩
      · rw [his d _ g.ltD]; exact g.isLow rfl
      · intro q
        rcases hm d q with q | q
        · have := g.ltD; unfold CRef at *; omega
        · exact g.outD (by simpa using q)
    · rw [List.concat_eq_append] at *
      rw [← List.cons_append, ← List.append_assoc, List.getLast?_append] at q
      cases q
      obtain ⟨t, t1, t2, t3⟩ := r.bottom x (by rw [← List.append_assoc, List.getLast?_append]; rfl)
      have hl := r.lt x (by simp)
      have ht := w.subLt x t hl t1
      refine ⟨t, ?_, ?_, ?_⟩
      · show ct'.ownSub x = _
        rw [hsub x hl (fun e => g.outU (by simp [← e]))]; exact t1
      · rw [his t _ ht, his t _ ht, hn t ht]; exact t2
      · intro q
        rcases hm t q with q | q
        · unfold CRef at *; omega
        · exact t3 q

/-- The rows of classes of the groups of a textgrid: classes of one group have different names, and groups that share
    the name of a class have the same classes. The class below the last one of a row has no tier in any group. -/
structure ClassRows (ct : ClassTab) (css : List (List CRef)) : Prop where
  row : ∀ cs ∈ css, ClassRow ct cs
  names : ∀ cs ∈ css, (cs.map ct.name).Nodup
  same : ∀ cs ∈ css, ∀ cs' ∈ css, ∀ c ∈ cs, ∀ c' ∈ cs', ct.name c = ct.name c' → cs = cs'
  low : ∀ cs ∈ css, ∀ c, cs.getLast? = some c → ∀ p, ct.ownSub c = some (some p) → ∀ cs' ∈ css, p ∉ cs'

theorem nodup_map_eq {α β} {f : α → β} {l : List α} (nd : (l.map f).Nodup) {x y : α} (hx : x ∈ l) (hy : y ∈ l)
    (e : f x = f y) : x = y := by
  obtain ⟨i, hi⟩ := List.mem_iff_getElem?.mp hx
  obtain ⟨j, hj⟩ := List.mem_iff_getElem?.mp hy
  have a1 : (l.map f)[i]? = some (f x) := by simp [hi]
  have a2 : (l.map f)[j]? = some (f x) := by simp [hj, e]
  have hl := getElem?_lt a1
  have hl2 := getElem?_lt a2
  rw [List.getElem?_eq_getElem hl, Option.some.injEq] at a1
  rw [List.getElem?_eq_getElem hl2, Option.some.injEq] at a2
  have := (List.getElem_inj nd).mp (a1.trans a2.symm)
  subst this
  rw [hi] at hj
  exact Option.some.inj hj

theorem ClassRows.eq {ct : ClassTab} {css : List (List CRef)} (r : ClassRows ct css) {cs cs' : List CRef} (h : cs ∈ css)
    (h' : cs' ∈ css) {c c' : CRef} (hc : c ∈ cs) (hc' : c' ∈ cs') (e : ct.name c = ct.name c') : c = c' := by
  have := r.same cs h cs' h' c hc c' hc' e
  subst this
  exact nodup_map_eq (r.names cs h) hc hc' e

end ATG
