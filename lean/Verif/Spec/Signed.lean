import Verif.Spec.BothWays
import Verif.Spec.Refuse
import Verif.Model.SignedIndex
/-!
# Places counted from either end, for plain data
-/
namespace ATG

/-- the place that a number means among `n` things: `0, 1, ...` from the front, `-1, -2, ...` from the back -/
def counted (n : Nat) : Int → Option Nat
  | .ofNat i => if i < n then some i else none
  | .negSucc m => if m < n then some (n - 1 - m) else none

/-- the place that three numbers mean in the plain data -/
def Book.spot (b : Book) (i j k : Int) : Option (Nat × Nat × Nat) := do
  let i' ← counted b.length i
  let p ← b[i']?
  let j' ← counted p.length j
  let t ← p[j']?
  let k' ← counted t.2.length k
  some (i', j', k')

/-- edits of single intervals with numbers of either sign -/
inductive STouch where
  | fuse (J : String → String → String) (i j k : Int)
  | fuseLeft (J : String → String → String) (i j k : Int)
  | relabel (lab : String) (i j k : Int)

def STouch.run (a : ARef) : STouch → M Unit
  | .fuse J i j k => fuseAtInt J a i j k
  | .fuseLeft J i j k => fuseLeftAtInt J a i j k
  | .relabel lab i j k => relabelAtInt lab a i j k

/-- the edit that is meant, for these data -/
def STouch.meant (b : Book) : STouch → Option Touch
  | .fuse J i j k => (b.spot i j k).map fun s => .fuse J s.1 s.2.1 s.2.2
  | .fuseLeft J i j k => (b.spot i j k).map fun s => .fuseLeft J s.1 s.2.1 s.2.2
  | .relabel lab i j k => (b.spot i j k).map fun s => .relabel lab s.1 s.2.1 s.2.2

/-- an edit of a single interval with numbers of either sign, or any edit of C99 -/
inductive SChange where
  | signed (e : STouch)
  | plain (e : Change)

def SChange.run (a : ARef) : SChange → M Unit
  | .signed e => e.run a
  | .plain e => e.run a

def SChange.runAll (a : ARef) : List SChange → M Unit
  | [] => pure ()
  | e :: es => do
    e.run a
    SChange.runAll a es

/-- what an edit does to the plain data; the numbers count in the data as they are at this time -/
def SChange.actBoth : SChange → Draft × Draft → Option (Draft × Draft)
  | .signed e, q => (e.meant (q.1.map (·.1))).bind fun t => (Change.touch t).actBoth q
  | .plain e, q => e.actBoth q

def SChange.actBothAll : List SChange → Draft × Draft → Option (Draft × Draft)
  | [], q => some q
  | e :: es, q => (e.actBoth q).bind (SChange.actBothAll es)

/-- labels are never the boundary mark, and `fuse_leftwards` is not for the first tier of a group with at least `m` tiers -/
def STouch.sureAmong (m : Nat) : STouch → Prop
  | .fuse J _ _ _ => ∀ s t, J s t ≠ "#"
  | .fuseLeft J _ j _ => (0 < j ∨ -(m : Int) < j ∧ j < 0) ∧ ∀ s t, J s t ≠ "#"
  | .relabel lab _ _ _ => lab ≠ "#"

/-- each edit as `try: ... except Exception: pass` -/
def STouch.tryAll (a : ARef) : List STouch → M Unit
  | [] => pure ()
  | e :: es => do
    attempt (e.run a)
    STouch.tryAll a es

/-- the edits that are possible, one after the other; the others are left out -/
def STouch.actAll : List STouch → Draft → Draft
  | [], d => d
  | e :: es, d => STouch.actAll es (((e.meant (d.map (·.1))).bind fun t => (Change.touch t).act d).getD d)

end ATG
