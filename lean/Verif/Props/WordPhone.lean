import Verif.Lemmas.WordPhone
import Verif.Model.Base
/-!
# C97: words built from phones

The documentation builds a word in two ways: `word.set_phones([...])`, and `phone.set_word(word)` for one phone after the other.
-/
namespace ATG

/-- C97 as stated: giving new phones, no two of the same value, to a word that has none one by one, in any order, does the same as giving it the
    list. -/
def C97_statement : Prop := ∀ (h : Heap) (w : Ref) (c : CRef) (ps : List Ref), NewPhones h w c ps → setWords w ps h = setPhones w ps h

/-- **C97, one after the other.** New phones in order of time, given to a word one by one: the word has these phones in this order, each knows the word
    and its neighbours, and nothing else changes. `set_phones` does the same, and in addition lists the phones as contained in the word.
    `_partial`: phones in order of time, no two at the same start; `within` and `contains` are not set (`C97_within_violated`). -/
theorem C97_built_partial (h : Heap) (w : Ref) (c : CRef) (ps : List Ref) (np : NewPhones h w c ps) (hne : ps ≠ [])
    (hs : ps.Pairwise fun a b => h.start a < h.start b) :
    ∃ h', setWords w ps h = .ok () h' ∧
      setPhones w ps h = .ok () { h' with
        cont := upd h.cont w .alias
        within := fun r => if r ∈ ps then some (.ival w) else h.within r } ∧
      phoneList h' w = ps ∧ phones h' w = ps.map h.label ∧ (∀ x ∈ ps, inword h' x = some w) ∧ DoublyLinked h' ps ∧
      (∀ v, v ≠ w → h'.subs v = h.subs v) ∧
      (∀ r, r ∉ ps → h'.sup r = h.sup r ∧ h'.fol r = h.fol r ∧ h'.prev r = h.prev r) ∧
      h' = { h with subs := h'.subs, sup := h'.sup, fol := h'.fol, prev := h'.prev } := by
  have e := setWords_ok np ps [] (fun _ q => q) (by simp) (by simpa using np.nodup)
  rw [worded_nil, foldl_insAt h ps [] (by simpa using hs), List.nil_append] at e
  have hsub : (worded h w c ps).subs = upd h.subs w ⟨ps, some c⟩ := by unfold worded; rw [if_neg hne]
  refine ⟨worded h w c ps, e, setPhones_ok np hne (hs.imp fun q => Rat.le_of_lt q), ?_, ?_, ?_, ?_, ?_, ?_, rfl⟩
  · unfold phoneList
    rw [hsub, upd_same]
  · unfold phones subLabels
    rw [hsub, upd_same]
    rfl
  · intro x hx
    show (if x ∈ ps then some w else h.sup x) = some w
    rw [if_pos hx]
  · exact linked_of _ ps np.nodup h.fol h.prev rfl rfl
  · intro v hv
    rw [hsub, upd_ne _ _ _ _ hv]
  · intro r hr
    refine ⟨?_, if_neg hr, if_neg hr⟩
    show (if r ∈ ps then some w else h.sup r) = h.sup r
    rw [if_neg hr]

/-- **C97, in any order.** If no phone starts at zero, the order in which the phones are given to the word makes no difference.
    `_partial`: with a start of zero it does (`C97_order_violated`). -/
theorem C97_order_partial (h : Heap) (w : Ref) (c : CRef) (ps qs : List Ref) (np : NewPhones h w c ps) (hp : qs.Perm ps)
    (hd : ∀ x ∈ ps, ∀ y ∈ ps, h.start x = h.start y → x = y) (hz : ∀ x ∈ ps, h.start x ≠ 0) :
    setWords w qs h = setWords w ps h := by
  have e1 := setWords_ok np qs [] (fun _ q => hp.mem_iff.mp q) (by simp) (by simpa using hp.nodup_iff.mpr np.nodup)
  have e2 := setWords_ok np ps [] (fun _ q => q) (by simp) (by simpa using np.nodup)
  rw [worded_nil] at e1 e2
  obtain ⟨s1, p1⟩ := foldl_insAt_sorted h qs [] .nil (by simp) fun x hx => hz x (hp.mem_iff.mp hx)
  obtain ⟨s2, p2⟩ := foldl_insAt_sorted h ps [] .nil (by simp) hz
  rw [List.append_nil] at p1 p2
  rw [e1, e2, sorted_perm_unique h.start _ _ (p1.trans (hp.trans p2.symm)) s1 s2
    fun x hx y hy => hd x (hp.mem_iff.mp (p1.mem_iff.mp hx)) y (hp.mem_iff.mp (p1.mem_iff.mp hy))]

/-! ## A case that meets the hypotheses: the word and the phones of the documentation -/

/-- `THE = Word((0, 2, "THE")); DH = Phone((0, 1, "DH")); AH0 = Phone((1, 2, "AH0"))`, and a third phone -/
def exThe : Heap := heapOf [(cWord, 0, 3, "THE"), (cPhone, 0, 1, "DH"), (cPhone, 1, 2, "AH0"), (cPhone, 2, 3, "X")]

theorem exThe_new : NewPhones exThe 0 cPhone [1, 2, 3] :=
  ⟨by decide +kernel, by decide +kernel, ⟨cWord, by decide +kernel, by decide +kernel⟩, by decide +kernel, by decide +kernel, by decide +kernel,
    by decide, by decide +kernel⟩

example : ∃ h', setWords 0 [1, 2, 3] exThe = .ok () h' ∧ phones h' 0 = ["DH", "AH0", "X"] := by
  obtain ⟨h', e, -, -, q, -⟩ := C97_built_partial exThe 0 cPhone [1, 2, 3] exThe_new (by simp) (by decide +kernel)
  exact ⟨h', e, q.trans (by decide +kernel)⟩

/-- the same a second later -/
def exThe1 : Heap := heapOf [(cWord, 1, 4, "THE"), (cPhone, 1, 2, "DH"), (cPhone, 2, 3, "AH0"), (cPhone, 3, 4, "X")]

example : setWords 0 [3, 1, 2] exThe1 = setWords 0 [1, 2, 3] exThe1 :=
  C97_order_partial exThe1 0 cPhone [1, 2, 3] [3, 1, 2]
    ⟨by decide +kernel, by decide +kernel, ⟨cWord, by decide +kernel, by decide +kernel⟩, by decide +kernel, by decide +kernel, by decide +kernel,
      by decide, by decide +kernel⟩ (by decide) (by decide +kernel) (by decide +kernel)

/-- **C97 fails for the order**: given the first, the third and then the second phone, where the first starts at zero, the word lists them in this order,
    and the third phone comes after the first; `set_phones` sorts them. -/
theorem C97_order_violated :
    phones (setWords 0 [1, 3, 2] exThe).heap 0 = ["DH", "X", "AH0"] ∧ (setWords 0 [1, 3, 2] exThe).heap.fol 1 = some (.obj 3) ∧
    phones (setPhones 0 [1, 3, 2] exThe).heap 0 = ["DH", "AH0", "X"] ∧ (setPhones 0 [1, 3, 2] exThe).heap.fol 1 = some (.obj 2) := by
  decide +kernel

/-- **C97 fails for `within`**: phones given to a word one by one are in the word, but not within it, so they have no place in its path. -/
theorem C97_within_violated : ¬ C97_statement := by
  intro q
  have := congrArg (fun r => r.heap.within 1) (q exThe 0 cPhone [1, 2, 3] exThe_new)
  revert this
  decide +kernel

end ATG
