import Verif.Props.Tables
import Verif.Lemmas.Reload
/-!
# C104 The data frame and the exported textgrid agree

`to_df(atg, with_subset=False)` and `return_textgrid` have the same entries in the same order.
-/
namespace ATG

/-- the cell of a row in a column -/
def Row.cell (r : Row) (k : String) : Option Cell := (r.find? fun c => c.1 == k).map (·.2)

/-- a column is known from the frames of single entries -/
theorem frame_cells {β : Type} (nm : GRef → String) {h : Heap} {a : ARef} {w : Row → β} {f : Ref → β}
    (one : ∀ g ∈ h.agroups a, ∀ t ∈ h.gtiers g, ∀ x ∈ (h.tseq t).vals, ∀ s, entryRows h false x = .ok s →
      s.map (fun r => w (r ++ [("name", Cell.text (nm g))])) = [f x])
    {rows : List Row} (e : textgridRows h nm false a = .ok rows) :
    rows.map w = ((h.agroups a).flatMap fun g => (h.gtiers g).flatMap fun t => (h.tseq t).vals).map f := by
  have all : rows.map w = (h.agroups a).flatMap fun g => (h.gtiers g).flatMap fun t => (h.tseq t).vals.flatMap fun x => [f x] := by
    unfold textgridRows at e
    refine concat_inv ?_ e
    intro g hg s es
    unfold groupRows at es
    simp only [Bool.and_false, Bool.false_eq_true, if_false] at es
    cases ec : concatRows (tierRows h false) (h.gtiers g) with
    | error y => rw [ec] at es; cases es
    | ok r =>
      rw [ec] at es
      cases es
      rw [List.map_map]
      exact concat_inv (w := fun r => w (r ++ [("name", Cell.text (nm g))]))
        (fun t ht s es => concat_inv (fun x hx s es => one g hg t ht x hx s es) es) ec
  rw [all, List.map_flatMap]
  congr 1
  funext g
  rw [List.map_flatMap]
  congr 1
  funext t
  rw [← List.map_eq_flatMap]

/-- the entries that are exported -/
theorem exported_entries (h : Heap) (a : ARef) : (returnTextgrid h a).flatMap (·.2) =
    ((h.agroups a).flatMap fun g => (h.gtiers g).flatMap fun t => (h.tseq t).vals).map fun x => (h.start x, h.stop x, h.label x) := by
  unfold returnTextgrid
  rw [List.flatMap_def, List.map_snd_zip (by rw [exportNames_length, List.length_map, List.length_map]; exact Nat.le_refl _),
    List.map_flatMap, ← List.flatMap_def, ← List.flatMap_def, List.flatMap_assoc]
  congr 1
  funext g
  rw [List.map_flatMap]
  rfl

/-- **C104.** In every textgrid whatever, with intervals or points, a frame without subsets has exactly the starts and labels of the exported tiers,
    one tier after the other. -/
theorem C104_export (nm : GRef → String) {h : Heap} {a : ARef} {rows : List Row} (e : textgridRows h nm false a = .ok rows) :
    (rows.map fun r => (r.cell "start", r.cell "label")) =
      ((returnTextgrid h a).flatMap (·.2)).map fun p => (some (.num p.1), some (.text p.2.2)) := by
  rw [exported_entries, List.map_map]
  refine frame_cells nm ?_ e
  intro g _ t _ x _ s es
  rw [entryRows, if_neg (by simp), entryRowFlat] at es
  unfold attrCells at es
  cases hi : nodeId h (.entry x) with
  | error y => rw [hi] at es; cases es
  | ok i =>
    cases hk : tierIndex h x with
    | error y => rw [hi, hk] at es; cases es
    | ok k =>
      rw [hi, hk] at es
      cases es
      rfl

/-- **C104, the ends.** Without points the frame has exactly the exported intervals; a point has no end in the frame. -/
theorem C104_intervals (nm : GRef → String) {h : Heap} {a : ARef} {rows : List Row} (e : textgridRows h nm false a = .ok rows)
    (hp : ∀ g ∈ h.agroups a, ∀ t ∈ h.gtiers g, ∀ x ∈ (h.tseq t).vals, h.isPoint x = false) :
    (rows.map fun r => (r.cell "start", r.cell "end", r.cell "label")) =
      ((returnTextgrid h a).flatMap (·.2)).map fun p => (some (.num p.1), some (.num p.2.1), some (.text p.2.2)) := by
  rw [exported_entries, List.map_map]
  refine frame_cells nm ?_ e
  intro g hg t ht x hx s es
  rw [entryRows, if_neg (by simp), entryRowFlat] at es
  unfold attrCells at es
  cases hi : nodeId h (.entry x) with
  | error y => rw [hi] at es; cases es
  | ok i =>
    cases hk : tierIndex h x with
    | error y => rw [hi, hk] at es; cases es
    | ok k =>
      rw [hi, hk] at es
      simp only [hp g hg t ht x hx, Bool.false_eq_true, if_false] at es
      cases es
      rfl

/-! ## Cases that meet the hypotheses -/

-- words and phones of two speakers, after a fusion
example : ∃ rows, textgridRows exTableGrid (fun g => "s" ++ toString g) false 0 = .ok rows ∧
    (rows.map fun r => (r.cell "start", r.cell "end", r.cell "label")).take 2 =
      [(some (.num 0), some (.num 3), some (.text "cat")), (some (.num 3), some (.num 4), some (.text ""))] := by
  have q := exTable_run.1
  have hp : ∀ g ∈ exTableGrid.agroups 0, ∀ t ∈ exTableGrid.gtiers g, ∀ x ∈ (exTableGrid.tseq t).vals, exTableGrid.isPoint x = false := by
    decide +kernel
  have ex : ((returnTextgrid exTableGrid 0).flatMap (·.2)).take 2 = [(0, 3, "cat"), (3, 4, "")] := by decide +kernel
  generalize exTableGrid = K at q hp ex
  cases e : textgridRows K (fun g => "s" ++ toString g) false 0 with
  | ok rows =>
    refine ⟨rows, rfl, ?_⟩
    rw [C104_intervals _ e hp, ← List.map_take, ex]
    rfl
  | error x => rw [e] at q; cases q

/-- words, phones and tones -/
def exTonesGrid : Heap :=
  run0 (newAtg [("w", [(0, 1, "a"), (1, 2, "b")]), ("p", [(0, 1, "x"), (1, 2, "y")]), ("t", [(1, 1, "H"), (2, 2, "L")])]
    (.nested [[cWord, cPhone], [cPoint]]))

-- with points
example : ∃ rows, textgridRows exTonesGrid (fun g => "s" ++ toString g) false 0 = .ok rows ∧
    (rows.map fun r => (r.cell "start", r.cell "label")).drop 4 = [(some (.num 1), some (.text "H")), (some (.num 2), some (.text "L"))] := by
  have q : (match textgridRows exTonesGrid (fun g => "s" ++ toString g) false 0 with
    | .ok rows => some ((rows.drop 4).map fun r => r.cell "end")
    | .error _ => none) = some [none, none] := by decide +kernel
  have ex : ((returnTextgrid exTonesGrid 0).flatMap (·.2)).drop 4 = [(1, 1, "H"), (2, 2, "L")] := by decide +kernel
  generalize exTonesGrid = K at q ex
  cases e : textgridRows K (fun g => "s" ++ toString g) false 0 with
  | ok rows =>
    refine ⟨rows, rfl, ?_⟩
    rw [C104_export _ e, ← List.map_drop, ex]
    rfl
  | error x => rw [e] at q; cases q

end ATG
