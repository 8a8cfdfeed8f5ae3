import Verif.Lemmas.ClipGroup
import Verif.Lemmas.Retime
import Verif.Lemmas.Import
import Verif.Props.Nest
/-!
# Making groups of tiers whose boundaries do not match
-/
namespace ATG

theorem buildGroup_clip {h : Heap} (w : WFC h.ct) {c d : CRef} (hier : TopPart h.ct [c, d]) {n m : String}
    {upper lower : List (Time × Time × String)} {lo hi : Time} (la : LooselyAligned [(n, upper), (m, lower)] lo hi) :
    buildGroup [(n, upper), (m, lower)] [c, d] h =
      buildGroup [(n, uppersLeft upper (partsOf upper lower)), (m, (partsLeft upper (partsOf upper lower)).flatten)] [c, d] h := by
  have tu : TilesS (rawSpans upper) lo hi := la.tiled (n, upper) (by simp)
  have tl : TilesS (rawSpans lower) lo hi := la.tiled (m, lower) (by simp)
  have hlu := la.label (n, upper) (by simp)
  have hll := la.label (m, lower) (by simp)
  have dv := divided_partsOf tu tl (la.owns _ _ rfl)
  have good := dv.left_good tu tl n m la.pos hlu hll
  obtain ⟨lab1, lab2⟩ := dv.left_labels
  have hc : ∀ x ∈ [c, d], h.ct.isSub x cPoint = false ∧ ∃ s, h.ct.sup x = some s := fun x hx =>
    ⟨hier.not_point w hx, hier.sup_some hx⟩
  have mk : ∀ (p : PTier) (x : CRef), x ∈ [c, d] → p.2 ≠ [] → (∀ q ∈ p.2, q.2.2 ≠ "#") → Laid (rawSpans p.2) → Makeable h.ct (p, x) := by
    intro p x hx h1 h2 h3
    exact ⟨(hc x hx).1, (hc x hx).2, h1, h2, rawSpans_sorted h3, fun q hq => h3.1 _ (mem_rawSpans hq)⟩
  have ne0 : ∀ {l : List (Time × Time × String)} {a b : Time}, TilesS (rawSpans l) a b → l ≠ [] := by
    intro l a b t e
    subst e
    exact t.ne rfl
  generalize hup' : uppersLeft upper (partsOf upper lower) = upper' at *
  generalize hlow' : (partsLeft upper (partsOf upper lower)).flatten = lower' at *
  have mk1 : ∀ q ∈ [(n, upper), (m, lower)].zip [c, d], Makeable h.ct q := by
    intro q hq
    simp only [List.zip_cons_cons, List.zip_nil_right, List.mem_cons, List.not_mem_nil, or_false] at hq
    rcases hq with rfl | rfl
    · exact mk _ _ (by simp) (ne0 tu) hlu tu.laid
    · exact mk _ _ (by simp) (ne0 tl) hll tl.laid
  have mk2 : ∀ q ∈ [(n, upper'), (m, lower')].zip [c, d], Makeable h.ct q := by
    intro q hq
    simp only [List.zip_cons_cons, List.zip_nil_right, List.mem_cons, List.not_mem_nil, or_false] at hq
    rcases hq with rfl | rfl
    · exact mk _ _ (by simp) (good.ne (n, upper') (by simp)) (good.label (n, upper') (by simp)) (good.laid (n, upper') (by simp))
    · exact mk _ _ (by simp) (good.ne (m, lower') (by simp)) (good.label (m, lower') (by simp)) (good.laid (m, lower') (by simp))
  obtain ⟨h1, s, e, r, e1, e2⟩ := buildTiers_retime _ _ h h.start h.stop (by
    show [_, _] = [_, _]
    simp only [lab1, lab2]) mk1 mk2
  have e2 : buildTiers ([(n, upper'), (m, lower')].zip [c, d]) h = .ok r (h1.retime s e) := e2
  obtain ⟨k1, f1, b1⟩ := buildTiers_run _ h mk1
  obtain ⟨k2, f2, b2⟩ := buildTiers_run _ h mk2
  rw [e1] at f1
  simp only [Res.ok.injEq] at f1
  obtain ⟨rfl, rfl⟩ := f1
  rw [e2] at f2
  simp only [Res.ok.injEq] at f2
  obtain ⟨-, rfl⟩ := f2
  obtain ⟨-, x0, x1, x2, -, x3, x4⟩ := b1.tier 0 n upper c rfl
  obtain ⟨-, y0, y1, y2, -, y3, y4⟩ := b1.tier 1 m lower d rfl
  obtain ⟨-, -, -, -, -, x3', -⟩ := b2.tier 0 n upper' c rfl
  obtain ⟨-, -, -, -, -, y3', -⟩ := b2.tier 1 m lower' d rfl
  have hct : h1.ct = h.ct := by rw [b1.frame]
  obtain ⟨l1, l2⟩ := hier.links (i := 0) (a := c) (b := d) rfl rfl
  have hflat : (h1.tseq (h.nT + 0)).vals ++ (h1.tseq (h.nT + 1)).vals = List.range' h.nE (h1.nE - h.nE) := by
    have := b1.flat
    rw [show ([(n, upper), (m, lower)].zip [c, d]).length = 2 from rfl,
      show List.range' h.nT 2 = [h.nT + 0, h.nT + 1] from rfl] at this
    simpa using this
  have hmem : ∀ x, (x ∈ (h1.tseq (h.nT + 0)).vals ∨ x ∈ (h1.tseq (h.nT + 1)).vals) ↔ h.nE ≤ x ∧ x < h1.nE := by
    intro x
    rw [← List.mem_append, hflat, List.mem_range'_1]
    have := b1.nE
    unfold Ref at *
    omega
  have hnd : ((h1.tseq (h.nT + 0)).vals ++ (h1.tseq (h.nT + 1)).vals).Nodup := by rw [hflat]; exact List.nodup_range'
  obtain ⟨n1, n2, n3⟩ := List.nodup_append.mp hnd
  have ch : ClassChain h1 [h.nT + 0, h.nT + 1] := by
    refine ⟨?_, ?_, ?_, ?_, ?_⟩
    · rw [List.map_cons, List.map_cons, x0, y0]; exact hier.nodup
    · intro i t t' q1 q2
      match i, q1, q2 with
      | 0, q1, q2 =>
        cases q1; cases q2
        rw [x2, y1, x0, y0]
        exact ⟨l1, l2⟩
      | i + 1, q1, q2 => simp at q2
    · intro i t t' q1 q2
      match i, q1, q2 with
      | 0, q1, q2 =>
        cases q1; cases q2
        rw [hct, x0, y0]
        exact ⟨(hier.mem (c := c) (by simp)).2.2.1, (hier.mem (c := d) (by simp)).2.2.2⟩
      | i + 1, q1, q2 => simp at q2
    · intro t q
      cases q
      obtain ⟨z, k1, k2⟩ := hier.top (c := c) rfl
      exact ⟨z, x1.trans k1, Or.inl (by rw [hct]; exact k2)⟩
    · intro t q
      cases q
      obtain ⟨z, k1, k2⟩ := hier.next (c := d) rfl
      refine ⟨z, y2.trans k1, k2.imp (fun k => by rw [hct]; exact k) fun k t' ht' e => k ?_⟩
      simp only [List.mem_cons, List.not_mem_nil, or_false] at ht'
      rcases ht' with rfl | rfl
      · rw [← e, x0]; simp
      · rw [← e, y0]; simp
  obtain ⟨b, ha⟩ := ch.arrange (List.Perm.refl _) (by simp)
  have key : ∃ k', relatePair (h.nT + 0) (h.nT + 1) false (seated (withGroup h1) h1.nG [h.nT + 0, h.nT + 1] b) = .ok () k' ∧
      relatePair (h.nT + 0) (h.nT + 1) false ((seated (withGroup h1) h1.nG [h.nT + 0, h.nT + 1] b).retime s e) = .ok () k' := by
    have a1 : TilesS ((h1.tseq (h.nT + 0)).vals.map h1.span) lo hi := by
      rw [← entry_spans, show (h1.tseq (h.nT + 0)).vals.map h1.entry = upper from x3]; exact tu
    have a2 : TilesS ((h1.tseq (h.nT + 1)).vals.map h1.span) lo hi := by
      rw [← entry_spans, show (h1.tseq (h.nT + 1)).vals.map h1.entry = lower from y3]; exact tl
    have a3 : ∀ w ∈ (h1.tseq (h.nT + 0)).vals.map h1.entry, ∃ p ∈ (h1.tseq (h.nT + 1)).vals.map h1.entry,
        ∀ v ∈ (h1.tseq (h.nT + 0)).vals.map h1.entry, v ≠ w → common p v < common p w := by
      rw [show (h1.tseq (h.nT + 0)).vals.map h1.entry = upper from x3, show (h1.tseq (h.nT + 1)).vals.map h1.entry = lower from y3]
      exact la.owns _ _ rfl
    have a4 : (h1.tseq (h.nT + 0)).vals.map (h1.retime s e).entry = uppersLeft ((h1.tseq (h.nT + 0)).vals.map h1.entry)
        (partsOf ((h1.tseq (h.nT + 0)).vals.map h1.entry) ((h1.tseq (h.nT + 1)).vals.map h1.entry)) := by
      rw [show (h1.tseq (h.nT + 0)).vals.map h1.entry = upper from x3, show (h1.tseq (h.nT + 1)).vals.map h1.entry = lower from y3, hup']
      exact x3'
    have a5 : (h1.tseq (h.nT + 1)).vals.map (h1.retime s e).entry = (partsLeft ((h1.tseq (h.nT + 0)).vals.map h1.entry)
        (partsOf ((h1.tseq (h.nT + 0)).vals.map h1.entry) ((h1.tseq (h.nT + 1)).vals.map h1.entry))).flatten := by
      rw [show (h1.tseq (h.nT + 0)).vals.map h1.entry = upper from x3, show (h1.tseq (h.nT + 1)).vals.map h1.entry = lower from y3, hlow']
      exact y3'
    have a6 : ∀ x, x ∉ (h1.tseq (h.nT + 0)).vals → x ∉ (h1.tseq (h.nT + 1)).vals → s x = h1.start x ∧ e x = h1.stop x := by
      intro x q1 q2
      have : x < h.nE ∨ h1.nE ≤ x := by
        have h3 : ¬ (h.nE ≤ x ∧ x < h1.nE) := fun q => ((hmem x).mpr q).elim q1 q2
        unfold Ref at *
        omega
      obtain ⟨-, o1, o2, -⟩ := b1.old x this
      obtain ⟨-, p1, p2, -⟩ := b2.old x this
      exact ⟨p1.trans o1.symm, p2.trans o2.symm⟩
    have a7 : ∀ x ∈ (h1.tseq (h.nT + 0)).vals, x ∉ (h1.tseq (h.nT + 1)).vals := fun x q1 q2 => n3 x q1 x q2 rfl
    have a8 : ∀ x ∈ (h1.tseq (h.nT + 1)).vals, h1.sup x = none := fun x q =>
      (b1.fresh x ((hmem x).mp (Or.inr q)).1 ((hmem x).mp (Or.inr q)).2).2
    have a9 : ∀ x ∈ (h1.tseq (h.nT + 1)).vals, h1.label x ≠ "#" := by
      intro x q
      have := List.mem_map_of_mem (f := h1.entry) q
      rw [show (h1.tseq (h.nT + 1)).vals.map h1.entry = lower from y3] at this
      exact hll _ this
    have a10 : ∀ x ∈ (h1.tseq (h.nT + 0)).vals, h1.ct.sub (h1.cls x) = some d := by
      intro x q
      rw [hct, x4 x q]
      exact l1
    cases b
    · exact relatePair_clip (k := seated (withGroup h1) h1.nG [h.nT + 0, h.nT + 1] false) a1 a2 a3 a4 a5 a6 n1 n2 a7 a8 a9 y4 a10
    · exact relatePair_clip (k := seated (withGroup h1) h1.nG [h.nT + 0, h.nT + 1] true) a1 a2 a3 a4 a5 a6 n1 n2 a7 a8 a9 y4 a10
  obtain ⟨k', r1, r2⟩ := key
  have hsup : ∀ t ∈ [h.nT + 0, h.nT + 1], ∀ x ∈ (h1.tseq t).vals, h1.sup x = none := by
    intro t ht x hx
    have : h.nE ≤ x ∧ x < h1.nE := by
      simp only [List.mem_cons, List.not_mem_nil, or_false] at ht
      rcases ht with rfl | rfl
      · exact (hmem x).mp (Or.inl hx)
      · exact (hmem x).mp (Or.inr hx)
    exact (b1.fresh x this.1 this.2).2
  have hr : ∀ k : Heap, relatePair (h.nT + 0) (h.nT + 1) false k = .ok () k' →
      relateChain false [h.nT + 0, h.nT + 1] k = .ok () k' := by
    intro k q
    unfold relateChain
    mstep q
    rfl
  have g1 : newGroup [h.nT + 0, h.nT + 1] h1 = .ok h1.nG k' := newGroup_fresh ha hsup (hr _ r1)
  have g2 : newGroup [h.nT + 0, h.nT + 1] (h1.retime s e) = .ok h1.nG k' := by
    refine newGroup_fresh (h := h1.retime s e) (b := b) ((arrange_congr (h := h1) rfl rfl rfl rfl _).trans ha) hsup ?_
    show relateChain false _ (seated (withGroup (h1.retime s e)) h1.nG _ b) = _
    rw [seated_retime]
    exact hr _ r2
  have fin : ∀ (l : List PTier) (k : Heap), buildTiers (l.zip [c, d]) h = .ok ([h.nT + 0, h.nT + 1], []) k →
      newGroup [h.nT + 0, h.nT + 1] k = .ok h1.nG k' → buildGroup l [c, d] h = .ok [h1.nG] k' := by
    intro l k q1 q2
    unfold buildGroup
    mstep q1
    dsimp only
    rw [if_pos (by simp)]
    have : (do let g ← newGroup [h.nT + 0, h.nT + 1]; pure [g] : M (List GRef)) k = .ok [h1.nG] k' := by
      mstep q2
      rfl
    mstep this
    rfl
  rw [fin _ h1 e1 g1, fin _ _ e2 g2]

theorem M.bind_same {α β} {m m' : M α} {f : α → M β} {h : Heap} (e : m h = m' h) : (m >>= f) h = (m' >>= f) h := by
  show M.bind m f h = M.bind m' f h
  unfold M.bind
  rw [e]

/-- Each group is as given, or what is left of two tiers with different boundaries. -/
def LeftOf (ts ts' : List PTier) : Prop :=
  ts' = ts ∨ ∃ n m upper lower lo hi, ts = [(n, upper), (m, lower)] ∧ LooselyAligned ts lo hi ∧
    ts' = [(n, uppersLeft upper (partsOf upper lower)), (m, (partsLeft upper (partsOf upper lower)).flatten)]

theorem LeftOf.length {ts ts' : List PTier} (l : LeftOf ts ts') : ts'.length = ts.length := by
  rcases l with rfl | ⟨n, m, upper, lower, lo, hi, rfl, -, rfl⟩
  · rfl
  · rfl

theorem buildGroups_clip : ∀ (l l' : List (List PTier × List CRef)) {h : Heap} {gs : List GRef}, Room h gs → WFC h.ct →
    l.length = l'.length →
    (∀ (i : Nat) q q', l[i]? = some q → l'[i]? = some q' → q'.1.length = q'.2.length ∧ GoodTiers q'.1 ∧ TopPart h.ct q'.2 ∧
      q'.2 = q.2 ∧ LeftOf q.1 q'.1) →
    buildGroups l h = buildGroups l' h
  | [], [], _, _, _, _, _, _ => rfl
  | [], _ :: _, _, _, _, _, hl, _ => by cases hl
  | _ :: _, [], _, _, _, _, hl, _ => by cases hl
  | (ts, cs) :: l, (ts', cs') :: l', h, gs, rm, w, hl, hq => by
    obtain ⟨g1, g2, g3, g4, g5⟩ := hq 0 (ts, cs) (ts', cs') rfl rfl
    dsimp only at g1 g2 g3 g4 g5
    subst g4
    have e0 : buildGroup ts cs' h = buildGroup ts' cs' h := by
      rcases g5 with rfl | ⟨n, m, upper, lower, lo, hi, rfl, la, rfl⟩
      · rfl
      · match cs', g1, g3 with
        | [c, d], _, g3 => exact buildGroup_clip w g3 la
    obtain ⟨h1, e1, rm1, hct, -⟩ := buildGroup_run rm w g1 g2 g3
    have ih := buildGroups_clip l l' rm1 (by rw [hct]; exact w) (by simpa using hl) (by
      intro i q q' h1 h2
      rw [hct]
      exact hq (i + 1) q q' h1 h2)
    have key : ∀ x, buildGroup x cs' h = .ok [h.nG] h1 → ∀ y, buildGroups ((x, cs') :: y) h =
        (do let gs ← buildGroups y; pure ([h.nG] ++ gs) : M (List GRef)) h1 := by
      intro x hx y
      rw [buildGroups]
      mstep hx
      rfl
    rw [key ts (e0.trans e1), key ts' e1]
    exact M.bind_same ih

theorem relateTiers_clip {h : Heap} {a : ARef} {tss tss' : List (List PTier)} {css : List (List CRef)} (w : WFC h.ct) (td : Tidy h)
    (ac : Allocated h) (hcl : h.acloned a = []) (good : ∀ ts ∈ tss', GoodTiers ts) (tc : TopClasses h.ct css)
    (hlen : tss.map List.length = css.map List.length) (hl : tss.length = tss'.length)
    (hleft : ∀ (i : Nat) ts ts', tss[i]? = some ts → tss'[i]? = some ts' → LeftOf ts ts') :
    relateTiers a tss css h = relateTiers a tss' css h := by
  obtain ⟨full, gc, tp⟩ := tc
  have hll : tss.length = css.length := by simpa using congrArg List.length hlen
  obtain ⟨ct', new, full', e1, w', x', ef, hhf, -, hinf⟩ := reclone_run w full gc.hier (fun c hc => by
      obtain ⟨cs, h1, h2⟩ := List.mem_flatten.mp hc
      exact (gc.hier cs h1).not_point w h2) gc.plain gc.names
  rw [← reclone_tops w tp fun i cs L _ h2 => Or.inl (gc.hier L (List.mem_of_getElem? h2))] at e1
  obtain ⟨css', e2, tp'⟩ := swapAll_prefix tp ef
  have hnm : ∀ (i : Nat) cs cs', css[i]? = some cs → css'[i]? = some cs' → cs'.length = cs.length := by
    intro i cs cs' h1 h2
    have q := (mapM_ok_iff _ _ _).mp e2
    have qi := congrArg (·[i]?) q
    simp only [List.getElem?_map] at qi
    rw [h1, h2] at qi
    have := congrArg List.length (swapClasses_names (Option.some.inj qi))
    simpa using this
  have hcl' : css'.length = css.length := by
    have q := (mapM_ok_iff _ _ _).mp e2
    simpa using (congrArg List.length q).symm
  have hh : ∀ cs ∈ css', TopPart ct' cs := by
    intro cs hc
    obtain ⟨L, m, hne, hp⟩ := tp'.mem hc
    exact .of_prefix hne hp (hhf L m).1
  let k : Heap := { h with ct := ct', acloned := upd h.acloned a (h.acloned a ++ new) }
  have hk : k.acloned a = new := by
    show upd h.acloned a (h.acloned a ++ new) a = new
    rw [upd_same, hcl, List.nil_append]
  have er : recloneA a css.flatten h = .ok () k := by
    unfold recloneA
    mstep M.get_apply h
    rw [hcl]
    mstep (show liftC (fun ct => reclone [] ct css.flatten) h = .ok new { h with ct := ct' } by
      unfold liftC
      dsimp only
      rw [e1])
    rfl
  have rm : Room k [] := by
    refine ⟨⟨List.nodup_nil, List.nodup_nil, ?_, ?_, ?_, ?_, td.newClasses k rfl, ac⟩, ?_, ?_, ?_, ?_⟩ <;>
      · intro g hg; cases hg
  have key : ∀ t : List (List PTier), relateTiers a t css h = buildGroups (t.zip css') k := by
    intro t
    unfold relateTiers
    mstep er
    mstep M.get_apply k
    mstep (show liftE (css.mapM fun l => swapClasses k.ct l (k.acloned a)) k = .ok css' k by
      rw [hk, show k.ct = ct' from rfl, e2]; rfl)
    rfl
  rw [key, key]
  refine buildGroups_clip _ _ rm w' (by rw [List.length_zip, List.length_zip, hl]) ?_
  intro i q q' h1 h2
  obtain ⟨a1, a2⟩ := List.getElem?_zip_eq_some.mp h1
  obtain ⟨b1, b2⟩ := List.getElem?_zip_eq_some.mp h2
  have hsame : q'.2 = q.2 := by rw [a2] at b2; exact (Option.some.inj b2).symm
  have hlf := hleft i q.1 q'.1 a1 b1
  have hi : i < css.length := by
    have := (List.getElem?_eq_some_iff.mp a1).1
    omega
  have hc : css[i]? = some css[i] := List.getElem?_eq_getElem hi
  have q1 := congrArg (·[i]?) hlen
  simp only [List.getElem?_map, a1, hc, Option.map_some, Option.some.injEq] at q1
  refine ⟨?_, good _ (List.mem_of_getElem? b1), hh _ (List.mem_of_getElem? b2), hsame, hlf⟩
  rw [hlf.length, hsame, hnm i _ _ hc a2, q1]

theorem takeTiers_at {α} (pre ts post : List α) (cs : List CRef) (h : ts.length = cs.length) :
    takeTiers (pre ++ ts ++ post) pre.length cs = .ok ts := by
  rw [takeTiers_ok _ _ _ (by simp; omega)]
  congr 1
  rw [List.append_assoc, List.drop_left, ← h, List.take_left]

theorem nestTiers_flatten {α} : ∀ (tss : List (List α)) (css : List (List CRef)) (pre : List α),
    tss.map List.length = css.map List.length → nestTiers (pre ++ tss.flatten) pre.length css = .ok tss
  | [], [], _, _ => rfl
  | [], _ :: _, _, h => by cases h
  | _ :: _, [], _, h => by cases h
  | ts :: tss, cs :: css, pre, h => by
    simp only [List.map_cons, List.cons.injEq] at h
    have ih := nestTiers_flatten tss css (pre ++ ts) h.2
    rw [List.length_append, h.1, List.append_assoc] at ih
    unfold nestTiers
    have := takeTiers_at pre ts tss.flatten cs h.1
    rw [List.append_assoc] at this
    rw [List.flatten_cons, this]
    simp only []
    rw [ih]

theorem nestify_flatten {α} (ct : ClassTab) (tss : List (List α)) (css : List (List CRef))
    (h : tss.map List.length = css.map List.length) (hne : css ≠ []) :
    nestify ct tss.flatten (.nested css) = .ok (tss, css) := by
  have := nestTiers_flatten tss css [] h
  cases css with
  | nil => exact absurd rfl hne
  | cons c css =>
    unfold nestify extendClasses
    simp only []
    rw [show nestTiers tss.flatten 0 (c :: css) = .ok tss from this]

theorem newAtg_clip {h : Heap} {tiers : List PTier} {arg : ClassArg} {tss tss' : List (List PTier)} {css : List (List CRef)} (w : WFC h.ct) (td : Tidy h)
    (ac : Allocated h) (hn : nestify h.ct tiers arg = .ok (tss, css)) (hne : tss ≠ []) (good : ∀ ts ∈ tss', GoodTiers ts) (tc : TopClasses h.ct css)
    (hlen : tss.map List.length = css.map List.length) (hl : tss.length = tss'.length)
    (hleft : ∀ (i : Nat) ts ts', tss[i]? = some ts → tss'[i]? = some ts' → LeftOf ts ts') :
    newAtg tiers arg h = newAtg tss'.flatten (.nested css) h ∧ nestify h.ct tss'.flatten (.nested css) = .ok (tss', css) ∧
      tss'.map List.length = css.map List.length := by
  have hlen' : tss'.map List.length = css.map List.length := by
    rw [← hlen]
    apply List.ext_getElem?
    intro i
    rw [List.getElem?_map, List.getElem?_map]
    cases h1 : tss[i]? with
    | none => rw [List.getElem?_eq_none (by rw [← hl]; exact List.getElem?_eq_none_iff.mp h1)]
    | some ts =>
      have hi : i < tss'.length := by rw [← hl]; exact (List.getElem?_eq_some_iff.mp h1).1
      rw [List.getElem?_eq_getElem hi]
      exact congrArg some (hleft i ts _ h1 (List.getElem?_eq_getElem hi)).length
  have hcne : css ≠ [] := by
    intro q
    subst q
    cases tss with
    | nil => exact hne rfl
    | cons t tss => cases hlen
  have hn' := nestify_flatten h.ct tss' css hlen' hcne
  refine ⟨?_, hn', hlen'⟩
  let k : Heap := { h with
    nA := h.nA + 1
    agroups := upd h.agroups h.nA []
    acont := upd h.acont h.nA []
    acloned := upd h.acloned h.nA [] }
  have e := relateTiers_clip (h := k) (a := h.nA) w (td.newClasses k rfl) ac (upd_same _ _ _) good tc hlen hl hleft
  have key : ∀ (t : List PTier) (g : ClassArg) (s : List (List PTier)), nestify h.ct t g = .ok (s, css) →
      newAtg t g h = (do let gs ← relateTiers h.nA s css; setGroups h.nA gs; atgCleanup h.nA; setContainsA h.nA; pure h.nA : M ARef) k := by
    intro t g s hs
    unfold newAtg
    mstep (show newAtgObj h = .ok h.nA k from rfl)
    mstep M.get_apply k
    mstep (show liftE (nestify k.ct t g) k = .ok (s, css) k by
      rw [show k.ct = h.ct from rfl, hs]; rfl)
    rfl
  rw [key _ _ _ hn, key _ _ _ hn']
  exact M.bind_same e

end ATG
