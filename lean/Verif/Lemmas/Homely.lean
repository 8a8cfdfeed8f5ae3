import Verif.Lemmas.GroupApart
import Verif.Spec.Homely
import Verif.Spec.Interleave
/-!
# Tiers that know their entries: what keeps and what makes them
-/
namespace ATG

theorem flatten_index {α β} {f : α → List β} : ∀ {l : List α} {i j : Nat} {s t : α} {x : β}, (l.map f).flatten.Nodup →
    l[i]? = some s → l[j]? = some t → x ∈ f s → x ∈ f t → i = j
  | [], i, _, _, _, _, _, h, _, _, _ => by simp at h
  | a :: l, i, j, s, t, x, nd, hi, hj, hs, ht => by
    rw [List.map_cons, List.flatten_cons, List.nodup_append] at nd
    have key : ∀ {k u}, l[k]? = some u → x ∈ f u → x ∈ (l.map f).flatten := fun hk hu =>
      List.mem_flatten.mpr ⟨_, List.mem_map_of_mem (List.mem_of_getElem? hk), hu⟩
    match i, j with
    | 0, 0 => rfl
    | 0, j + 1 =>
      cases hi
      exact absurd rfl (nd.2.2 x hs x (key (by simpa using hj) ht))
    | i + 1, 0 =>
      cases hj
      exact absurd rfl (nd.2.2 x ht x (key (by simpa using hi) hs))
    | i + 1, j + 1 =>
      rw [flatten_index (i := i) (j := j) nd.2.1 (by simpa using hi) (by simpa using hj) hs ht]

theorem TiersFresh.congr {h h3 : Heap} {ts : List TRef} (fr : TiersFresh h ts) (ec : h3.ct = h.ct)
    (e : ∀ t ∈ ts, h3.tcls t = h.tcls t ∧ h3.tsup t = h.tsup t ∧ h3.tsub t = h.tsub t) : TiersFresh h3 ts := by
  intro t ht
  obtain ⟨e1, e2, e3⟩ := e t ht
  rw [ec, e1, e2, e3]
  exact fr t ht

theorem DoublyLinked.left {h : Heap} {l : List Ref} (d : DoublyLinked h l) : ∀ {i : Nat} {x : Ref}, l[i]? = some x →
    h.prev x = some (beforeAt l i)
  | 0, x, hx => d.first x (by rw [List.head?_eq_getElem?]; exact hx)
  | i + 1, x, hx => by
    have hi : i < l.length := by have := (List.getElem?_eq_some_iff.mp hx).1; omega
    have hy := List.getElem?_eq_getElem hi
    show h.prev x = some (l[i]?.elim .bumper .obj)
    rw [hy]
    exact (d.next i _ x hy hx).2

theorem Backed.unmoved {h h3 : Heap} {ts : List TRef} (c : Backed h ts) (m : Unmoved h h3 ts) : Backed h3 ts := by
  intro u hu i x hx
  have hum := List.mem_of_getElem? hu
  rw [m.tseq u hum] at hx ⊢
  rw [(m.relation u hum x (List.mem_of_getElem? hx)).2.2.2.2.2]
  exact c u hu i x hx

theorem Homely.unmoved {h h3 : Heap} {ts : List TRef} (hm : Homely h ts) (m : Unmoved h h3 ts)
    (e : ∀ t ∈ ts, h3.tsup t = h.tsup t)
    (q : ∀ x, OnTiers h ts x → h3.intier x = h.intier x ∧ (h3.subs x).ecls = (h.subs x).ecls) (fr : TiersFresh h3 ts) :
    Homely h3 ts := by
  refine ⟨?_, ?_, ?_, ?_, fr, hm.back.unmoved m⟩
  · intro u hu x hx
    rw [m.tseq u hu] at hx
    rw [(q x ⟨u, hu, hx⟩).1]; exact hm.home u hu x hx
  · intro i u u' hi hi'
    rw [e u' (List.mem_of_getElem? hi'), m.tcls u (List.mem_of_getElem? hi)]; exact hm.tsup i u u' hi hi'
  · intro i u u' hi hi' v hv
    rw [m.tseq u (List.mem_of_getElem? hi)] at hv
    rw [(q v ⟨u, List.mem_of_getElem? hi, hv⟩).2, m.tcls u' (List.mem_of_getElem? hi')]
    exact hm.typed i u u' hi hi' v hv
  · intro u hu i x hx
    have hum := List.mem_of_getElem? hu
    rw [m.tseq u hum] at hx ⊢
    rw [(m.relation u hum x (List.mem_of_getElem? hx)).2.2.2.2.1]
    exact hm.chained u hu i x hx

theorem Homely.homed {h : Heap} {ts : List TRef} (hm : Homely h ts) (own : ∀ t ∈ ts, h.ct.isSub (h.tcls t) cTop = false) :
    Homed h ts := by
  refine ⟨hm.home, ?_, hm.typed, hm.fresh⟩
  intro i t ht _ e
  have hi : i < ts.length := by have := (List.getElem?_eq_some_iff.mp ht).1; omega
  have hs := List.getElem?_eq_getElem hi
  have q := hm.tsup i _ t hs ht
  rw [e] at q
  have := own _ (List.mem_of_getElem? hs)
  rw [← Option.some.inj q, isSub_refl] at this
  cases this

theorem Homed.unmoved {h h3 : Heap} {ts : List TRef} (hm : Homed h ts) (m : Unmoved h h3 ts)
    (e : ∀ t ∈ ts, (h.tseq t).vals ≠ [] → h3.tsup t = h.tsup t)
    (q : ∀ x, OnTiers h ts x → h3.intier x = h.intier x ∧ (h3.subs x).ecls = (h.subs x).ecls) (fr : TiersFresh h3 ts) :
    Homed h3 ts := by
  refine ⟨?_, ?_, ?_, fr⟩
  · intro u hu x hx
    rw [m.tseq u hu] at hx
    rw [(q x ⟨u, hu, hx⟩).1]; exact hm.home u hu x hx
  · intro i u hi hn
    rw [m.tseq u (List.mem_of_getElem? hi)] at hn
    rw [e u (List.mem_of_getElem? hi) hn]; exact hm.below i u hi hn
  · intro i u u' hi hi' v hv
    rw [m.tseq u (List.mem_of_getElem? hi)] at hv
    rw [(q v ⟨u, List.mem_of_getElem? hi, hv⟩).2, m.tcls u' (List.mem_of_getElem? hi')]
    exact hm.typed i u u' hi hi' v hv

theorem Strung.unmoved {h h3 : Heap} {ts : List TRef} (c : Strung h ts) (m : Unmoved h h3 ts) : Strung h3 ts := by
  intro u hu i x hx
  have hum := List.mem_of_getElem? hu
  rw [m.tseq u hum] at hx ⊢
  rw [(m.relation u hum x (List.mem_of_getElem? hx)).2.2.2.2.1, (m.relation u hum x (List.mem_of_getElem? hx)).2.2.1]
  exact c u hu i x hx

theorem Homely.strung {h : Heap} {ts : List TRef} (hm : Homely h ts) (hr : Rooted h ts) : Strung h ts :=
  fun t ht i u hu => ⟨hm.chained t ht i u hu, hr t ht u (List.mem_of_getElem? hu)⟩

theorem Strung.rooted {h : Heap} {ts : List TRef} (hs : Strung h ts) : Rooted h ts := by
  intro t ht x hx
  obtain ⟨i, hi⟩ := List.mem_iff_getElem?.mp hx
  exact (hs t ht i x hi).2

theorem Rooted.unmoved {h h3 : Heap} {ts : List TRef} (r : Rooted h ts) (m : Unmoved h h3 ts) : Rooted h3 ts := by
  intro t ht x hx
  have htm := List.mem_of_getElem? ht
  rw [m.tseq t htm] at hx
  rw [(m.relation t htm x hx).2.2.1]
  exact r t ht x hx

/-- the classes of the subset lists after a group has been made of the tiers `ts`, and the links of their first tier -/
theorem newGroup_kinds (ts : List TRef) (h : Heap) (ch : ClassChain h ts) (hne : ts ≠ [])
    (al : AlignedTiers h ts) {L : Ref → Prop} (td : TidyOn L h) (hL : ∀ x ∈ entriesOf h ts, L x) : ∃ h', newGroup ts h = .ok h.nG h' ∧
      (∀ x, ¬ OnTiers h ts x → (h'.subs x).ecls = (h.subs x).ecls) ∧
      (∀ (i : Nat) t t', ts[i]? = some t → ts[i + 1]? = some t' → ∀ u ∈ (h.tseq t).vals,
        (h'.subs u).ecls = some (h.tcls t')) ∧
      (∀ t, ts[0]? = some t → ∀ x ∈ (h.tseq t).vals, h.sup x = none → h'.fol x = h.fol x ∧ h'.within x = h.within x ∧
        h'.prev x = h.prev x) ∧
      h'.intier = h.intier ∧ h'.gpoint = upd h.gpoint h.nG false := by
  obtain ⟨h0, e0⟩ : ∃ h0, newGroupObj false h = .ok h.nG h0 := ⟨_, rfl⟩
  have f0 : h0 = { h with nG := h.nG + 1, gtiers := upd h.gtiers h.nG [], gcont := h0.gcont,
                          gpoint := upd h.gpoint h.nG false, gwithin := h0.gwithin } := by
    unfold newGroupObj at e0
    simp only [Res.ok.injEq] at e0
    rw [← e0.2]
  obtain ⟨b, hb⟩ := (ch.congr (h' := h0) (by rw [f0]) (by rw [f0]) (by rw [f0]) (by rw [f0])).arrange
    (List.Perm.refl ts) hne
  have al0 : AlignedTiers h0 ts :=
    al.congr (by rw [f0]) (by rw [f0]) (by rw [f0]) (by rw [f0]) (by rw [f0]) (by rw [f0]) (by rw [f0])
  have td0 : TidyOn L h0 := td.congr
    (by rw [f0]) (by rw [f0]) (by rw [f0]) (by rw [f0]) (by rw [f0]) (by rw [f0]) (by rw [f0])
  have hC : chainPairs h0 ts = chainPairs h ts := chainPairs_congr (by rw [f0]) (by rw [f0]) (by rw [f0]) ts
  obtain ⟨h1, h', e, f, r⟩ := groupInit_run h.nG ts ts false b h0 hb (fun _ ht => ht) al0 td0 (by
    rw [show entriesOf h0 ts = entriesOf h ts by rw [f0]; rfl]; exact hL)
  rw [hC] at r
  have q0 := seated_frame h0 h.nG ts b
  have hcls : h1.cls = h.cls := by rw [f.frame, q0, f0]
  have hec : ∀ x, (h1.subs x).ecls = (h.subs x).ecls := by intro x; rw [f.subs, q0, f0]
  refine ⟨h', ?_, ?_, ?_, ?_, by rw [r.frame, f.frame, q0, f0], by rw [r.frame, f.frame, q0, f0]⟩
  · unfold newGroup
    mstep e0
    mstep e
    rfl
  · intro x hx
    rw [(r.otherUpper x ?_).1, hec]
    intro p hp q
    obtain ⟨i, t, t', g1, g2, g3, g4⟩ := mem_chainPairs hp
    exact hx ⟨t, List.mem_of_getElem? g1, q ▸ g3⟩
  · intro i t t' q1 q2 u hu
    have hp := chainPairs_mem (h := h) q1 q2 hu
    obtain ⟨x, hx⟩ := List.exists_mem_of_ne_nil _ ((al.aligned i t t' q1 q2).tiled u hu).ne
    rw [r.typed _ hp x hx, hcls, al.cls t' (List.mem_of_getElem? q2) x (List.mem_filter.mp hx).1]
  · intro t ht x hx hs
    have o := r.otherLower x (chain_lower_notTop al t ht x hx)
    have hs' : (seated h0 h.nG ts b).sup x = none := by rw [q0, f0]; exact hs
    refine ⟨?_, ?_, ?_⟩
    · rw [o.2.2.1, (f.links x fun v hv => by rw [hs'] at hv; cases hv).1, q0, f0]
    · rw [o.2.1, f.within, if_neg fun q => q.2 hs', q0, f0]
    · rw [o.2.2.2, (f.links x fun v hv => by rw [hs'] at hv; cases hv).2, q0, f0]

end ATG
