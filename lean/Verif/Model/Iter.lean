import Verif.Model.Core
/-!
# Iterating over an interval (`sequences/sequences.py:419-433`)

An interval is its own iterator: `__iter__` sets the attribute `current` to zero and returns the interval,
`__next__` reads the subset list at `current` and advances it.  The rest of the heap is not changed by
iterating; loop bodies here work on the `current` attributes and on a state of their own.
-/
namespace ATG

/-- the `current` attributes, and whatever else the loop body works on -/
structure IterState (σ : Type) where
  cur : Ref → Nat
  user : σ

/-- `__iter__` (`sequences.py:419-421`) -/
def iterStart {σ : Type} (x : Ref) (s : IterState σ) : IterState σ := { s with cur := upd s.cur x 0 }

/-- `__next__` (`sequences.py:426-433`); `none` is `StopIteration` -/
def iterNext {σ : Type} (h : Heap) (x : Ref) (s : IterState σ) : Option Ref × IterState σ :=
  if s.cur x < (h.subs x).vals.length then
    ((h.subs x).vals[s.cur x]?, { s with cur := upd s.cur x (s.cur x + 1) })
  else (none, s)

/-- what a loop body asks for -/
inductive Flow
  | go
  | stop
deriving DecidableEq, Repr

/-- a loop body -/
abbrev Body (σ : Type) := Ref → IterState σ → Flow × IterState σ

/-- The rounds of a `for` loop, at most `k` of them: the values the loop variable takes and the final
    state; `none` if the loop is not over by then. -/
def rounds {σ : Type} (h : Heap) (x : Ref) (body : Body σ) : Nat → IterState σ → Option (List Ref × IterState σ)
  | 0, _ => none
  | k + 1, s => match iterNext h x s with
    | (none, s) => some ([], s)
    | (some y, s) => match body y s with
      | (.stop, s) => some ([y], s)
      | (.go, s) => match rounds h x body k s with
        | none => none
        | some (l, s) => some (y :: l, s)

/-- `for y in x: body` -/
def forIn {σ : Type} (h : Heap) (x : Ref) (body : Body σ) (k : Nat) (s : IterState σ) :
    Option (List Ref × IterState σ) := rounds h x body k (iterStart x s)

end ATG
