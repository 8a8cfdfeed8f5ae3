/-!
# Core of the model: errors, classes, the object heap, the exception/state monad

Everything is cited against `/repo/src/aligned_textgrid`.

Python objects live in a heap with one *function per attribute* (so that "attribute `a` of every
other object is unchanged" is visible in the type of an update).  A Python function that mutates
objects becomes a function `Heap → Res α`; an exception keeps the heap as it was when it was raised,
as in Python.
-/

namespace ATG

/-- Times.  The code uses Python/numpy floats (`sequences/sequences.py:494-508`).
    SIMPLIFICATION: exact rationals; rounding, NaN and infinities are not modelled. -/
abbrev Time := Rat
/-- Reference to an entry object (a `SequenceInterval` or a `SequencePoint`). -/
abbrev Ref := Nat
/-- Reference to a tier object. -/
abbrev TRef := Nat
/-- Reference to a tier group object. -/
abbrev GRef := Nat
/-- Reference to an `AlignedTextGrid`. -/
abbrev ARef := Nat
/-- Reference to a class object. -/
abbrev CRef := Nat

/-- The exceptions raised in the modelled code. `exc` is a bare `Exception(...)`. -/
inductive Err
  | exc | valueError | typeError | indexError | attributeError | assertionError | recursionError
deriving DecidableEq, Repr

deriving instance DecidableEq for Except

/-- Point update of a function: assignment to an attribute of one object. -/
def upd {α : Type} (f : Nat → α) (k : Nat) (v : α) : Nat → α := fun i => if i = k then v else f i

@[simp] theorem upd_same {α} (f : Nat → α) (k v) : upd f k v k = v := by simp [upd]
@[simp] theorem upd_ne {α} (f : Nat → α) (k v i) (h : i ≠ k) : upd f k v i = f i := by
  simp [upd, h]
theorem upd_apply {α} (f : Nat → α) (k v i) : upd f k v i = if i = k then v else f i := rfl

/-! ## Classes -/

/-- Class objects.  `parent` is the single base class that matters here;
    `ownSup`/`ownSub` are the class's *own* `superset_class`/`subset_class` attributes
    (`none` = not set on the class itself, so looked up in the base class;
    `some none` = set to `None`).  `sequences/sequences.py:28-91`. -/
structure ClassTab where
  next : Nat
  name : CRef → String
  parent : CRef → Option CRef
  ownSup : CRef → Option (Option CRef)
  ownSub : CRef → Option (Option CRef)

/-- `HierarchyPart` (`sequences/sequences.py:299-301`). -/
def cHierarchyPart : CRef := 0
/-- `Top` (`sequences/sequences.py:668-676`). -/
def cTop : CRef := 1
/-- `Bottom` (`sequences/sequences.py:678-686`). -/
def cBottom : CRef := 2
/-- `SequenceInterval` (`sequences/sequences.py:305`). -/
def cInterval : CRef := 3
/-- `SequencePoint` (`points/points.py:19`). -/
def cPoint : CRef := 4

namespace ClassTab

/-- Python `issubclass` along the base-class chain, with the chain length as fuel. -/
def isSubN (ct : ClassTab) : Nat → CRef → CRef → Bool
  | 0, c, d => c == d
  | n + 1, c, d => c == d || match ct.parent c with
      | none => false
      | some p => isSubN ct n p d

/-- `issubclass(c, d)`.  Base classes are created before their subclasses, so `c` steps suffice. -/
def isSub (ct : ClassTab) (c d : CRef) : Bool := ct.isSubN c c d

/-- Attribute lookup of `superset_class` through the base classes. -/
def getSupN (ct : ClassTab) : Nat → CRef → Option CRef
  | 0, c => (ct.ownSup c).getD none
  | n + 1, c => match ct.ownSup c with
      | some v => v
      | none => match ct.parent c with
        | none => none
        | some p => getSupN ct n p

/-- Attribute lookup of `subset_class` through the base classes. -/
def getSubN (ct : ClassTab) : Nat → CRef → Option CRef
  | 0, c => (ct.ownSub c).getD none
  | n + 1, c => match ct.ownSub c with
      | some v => v
      | none => match ct.parent c with
        | none => none
        | some p => getSubN ct n p

/-- `c.superset_class` (`sequences/sequences.py:35`, class attribute lookup). -/
def sup (ct : ClassTab) (c : CRef) : Option CRef := ct.getSupN c c
/-- `c.subset_class` (`sequences/sequences.py:36`, class attribute lookup). -/
def sub (ct : ClassTab) (c : CRef) : Option CRef := ct.getSubN c c

end ClassTab

/-! ## Entries, lists, tiers, groups -/

/-- What `.fol` / `.prev` point to: another entry, or a boundary object.
    SIMPLIFICATION: `set_initial`/`set_final` (`mixins/mixins.py:113-134`) allocate a fresh entry
    of the same class with label `"#"` and no times; all such boundary objects are identified here
    (their own `fol`/`prev` stay `None` and they are never entered in a list). -/
inductive Link
  | bumper
  | obj (r : Ref)
deriving DecidableEq, Repr

/-- What an entry's `within` points to: a superset interval or a tier
    (`mixins/within.py:30-38`). -/
inductive Owner
  | ival (r : Ref)
  | tier (t : TRef)
deriving DecidableEq, Repr

/-- The `_contains` attribute of an entry or tier (`mixins/within.py:40-53`): not set, or the very
    list object that `subset_list` / `sequence_list` returns (`sequences/sequences.py:159`,
    `sequences/tiers.py:150`, `points/tiers.py:127`), or another list with the given content (e.g.
    `aligned_textgrid.py:726` assigns `[]`; replacing `sequence_list` leaves the old list behind). -/
inductive Contains
  | unset | alias | detached (l : List Ref)
deriving DecidableEq, Repr

/-- A `SequenceList` (`sequence_list.py:16-47`): `_values` and `entry_class`. -/
structure SL where
  vals : List Ref
  ecls : Option CRef
deriving DecidableEq, Repr

/-- `SequenceList()` (`sequence_list.py:33-39`). -/
def SL.empty : SL := ⟨[], none⟩

/-- The objects: one function per attribute. `n*` is the number of objects allocated so far. -/
structure Heap where
  ct : ClassTab
  /- entries -/
  nE : Nat
  cls : Ref → CRef
  start : Ref → Time
  stop : Ref → Time
  label : Ref → String
  fol : Ref → Option Link
  prev : Ref → Option Link
  subs : Ref → SL
  sup : Ref → Option Ref
  intier : Ref → Option TRef
  within : Ref → Option Owner
  cont : Ref → Contains
  /- tiers -/
  nT : Nat
  tseq : TRef → SL
  tname : TRef → String
  tcls : TRef → CRef
  tsup : TRef → Option CRef
  tsub : TRef → Option CRef
  twithin : TRef → Option GRef
  tcont : TRef → Contains
  /- groups (`tier_list`, `_contains`, whether a `PointsGroup`, `within`) -/
  nG : Nat
  gtiers : GRef → List TRef
  gcont : GRef → Option (List TRef)
  gpoint : GRef → Bool
  gwithin : GRef → Option ARef
  /- textgrids (`_tier_groups`, `_contains`, `_cloned_classes`) -/
  nA : Nat
  agroups : ARef → List GRef
  acont : ARef → List GRef
  acloned : ARef → List CRef

/-- Result of running a modelled Python function: a value or an exception, and the heap then. -/
inductive Res (α : Type) where
  | ok (a : α) (h : Heap)
  | err (e : Err) (h : Heap)

/-- The heap after the call, whatever the outcome. -/
def Res.heap {α} : Res α → Heap
  | .ok _ h => h
  | .err _ h => h

/-- The outcome without the heap. -/
def Res.out {α} : Res α → Except Err α
  | .ok a _ => .ok a
  | .err e _ => .error e

/-- A modelled Python function body. -/
abbrev M (α : Type) := Heap → Res α

namespace M
def pure {α} (a : α) : M α := fun h => .ok a h
def bind {α β} (m : M α) (f : α → M β) : M β := fun h =>
  match m h with
  | .ok a h' => f a h'
  | .err e h' => .err e h'
instance : Monad M where
  pure := M.pure
  bind := M.bind
/-- `raise`. -/
def throw {α} (e : Err) : M α := fun h => .err e h
/-- read the heap -/
def get : M Heap := fun h => .ok h h
/-- apply a heap update -/
def modify (f : Heap → Heap) : M Unit := fun h => .ok () (f h)
/-- a Python `for` loop -/
def forL {α} : List α → (α → M Unit) → M Unit
  | [], _ => M.pure ()
  | x :: xs, f => M.bind (f x) (fun _ => forL xs f)

@[simp] theorem pure_apply {α} (a : α) (h) : (Pure.pure a : M α) h = .ok a h := rfl
@[simp] theorem pure_apply' {α} (a : α) (h) : (M.pure a : M α) h = .ok a h := rfl
theorem bind_apply {α β} (m : M α) (f : α → M β) (h) :
    (m >>= f) h = match m h with | .ok a h' => f a h' | .err e h' => .err e h' := rfl
@[simp] theorem throw_apply {α} (e) (h) : (M.throw e : M α) h = .err e h := rfl
@[simp] theorem get_apply (h) : M.get h = .ok h h := rfl
@[simp] theorem modify_apply (f) (h) : M.modify f h = .ok () (f h) := rfl
@[simp] theorem forL_nil {α} (f : α → M Unit) (h) : forL [] f h = .ok () h := rfl
theorem forL_cons {α} (x : α) (xs) (f : α → M Unit) (h) :
    forL (x :: xs) f h = match f x h with
      | .ok _ h' => forL xs f h' | .err e h' => .err e h' := by
  rw [forL]; unfold M.bind; cases f x h <;> rfl
theorem bind_ok {α β} {m : M α} {f : α → M β} {h a h'} (e : m h = .ok a h') :
    (m >>= f) h = f a h' := by simp [bind_apply, e]
theorem bind_err {α β} {m : M α} {f : α → M β} {h e h'} (x : m h = .err e h') :
    (m >>= f) h = .err e h' := by simp [bind_apply, x]
end M

/-- proof step: the first action of the program succeeds as the given equation says -/
macro "mstep " e:term : tactic => `(tactic| refine Eq.trans (M.bind_ok $e) ?_)

/-- `omega` that sees through the name `Ref` -/
macro "romega" : tactic => `(tactic| ((try unfold Ref at *); (try simp only [] at *); omega))

/-- `issubclass(c, d)` where `c` may be `None` (then Python raises `TypeError`). -/
def isSubO (c : Option CRef) (d : CRef) : M Bool := fun h =>
  match c with
  | none => .err .typeError h
  | some c => .ok (h.ct.isSub c d) h

/-- Is the entry a point (rather than an interval)? `mixins/mixins.py:192-196` tests this through
    the name of `_seq_type`. -/
def Heap.isPoint (h : Heap) (r : Ref) : Bool := h.ct.isSub (h.cls r) cPoint

/-- `tuple(x.return_praatio())` (`mixins/mixins.py:185-215`): `(start, end, label)` for an interval,
    `(time, label)` for a point (a point is stored with `start = stop = time`; the flag keeps
    tuples of different length apart). -/
def Heap.tup (h : Heap) (r : Ref) : Bool × Time × Time × String :=
  (h.isPoint r, h.start r, h.stop r, h.label r)

end ATG
