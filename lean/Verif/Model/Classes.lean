import Verif.Model.Core
/-!
# Class-level operations (`sequences/sequences.py:28-91`, `custom_classes.py`)

A class operation returns the class table and, possibly, the exception it raised.
-/
namespace ATG

/-- Result of a class operation: the table afterwards and the outcome. -/
abbrev CRes (α : Type) := ClassTab × Except Err α

/-- Is `n` a contiguous part of `s`? -/
def infixB (n : List Char) : List Char → Bool
  | [] => n.isEmpty
  | c :: cs => n.isPrefixOf (c :: cs) || infixB n cs

/-- Python's `n in s` on strings. -/
def hasSubstr (n s : String) : Bool := infixB n.toList s.toList

namespace ClassTab

/-- assignment `c.superset_class = v` -/
def putSup (ct : ClassTab) (c : CRef) (v : Option CRef) : ClassTab :=
  { ct with ownSup := upd ct.ownSup c (some v) }
/-- assignment `c.subset_class = v` -/
def putSub (ct : ClassTab) (c : CRef) (v : Option CRef) : ClassTab :=
  { ct with ownSub := upd ct.ownSub c (some v) }

end ClassTab

mutual
/-- `set_superset_class` (`sequences/sequences.py:38-65`) with recursion fuel. -/
def setSupClassN : Nat → ClassTab → CRef → Option CRef → CRes Unit
  | 0, ct, _, _ => (ct, .error .recursionError)
  | _ + 1, ct, c, none => (ct.putSup c none, .ok ())
  | n + 1, ct, c, some s =>
    if hasSubstr "Top" (ct.name c) then (ct.putSup c none, .ok ())
    else if ct.isSub s cHierarchyPart && s ≠ c then
      let ct' := ct.putSup c (some s)
      if ct'.sub s = some c then (ct', .ok ())
      else setSubClassN n ct' s (some c)
    else (ct, .error .exc)
/-- `set_subset_class` (`sequences/sequences.py:67-91`) with recursion fuel. -/
def setSubClassN : Nat → ClassTab → CRef → Option CRef → CRes Unit
  | 0, ct, _, _ => (ct, .error .recursionError)
  | _ + 1, ct, c, none => (ct.putSub c none, .ok ())
  | n + 1, ct, c, some s =>
    if hasSubstr "Bottom" (ct.name c) then (ct.putSub c none, .ok ())
    else if ct.isSub s cHierarchyPart && s ≠ c then
      let ct' := ct.putSub c (some s)
      if ct'.sup s = some c then (ct', .ok ())
      else setSupClassN n ct' s (some c)
    else (ct, .error .exc)
end

/-- Fuel for the mutual recursion above (`ATG.C30_*` show that it is enough). -/
def classFuel : Nat := 3

/-- `c.set_superset_class(s)` -/
def setSupClass (ct : ClassTab) (c : CRef) (s : Option CRef) : CRes Unit :=
  setSupClassN classFuel ct c s
/-- `c.set_subset_class(s)` -/
def setSubClass (ct : ClassTab) (c : CRef) (s : Option CRef) : CRes Unit :=
  setSubClassN classFuel ct c s

/-- sequencing of class operations -/
def CRes.bind {α β} (r : CRes α) (f : ClassTab → α → CRes β) : CRes β :=
  match r with
  | (ct, .ok a) => f ct a
  | (ct, .error e) => (ct, .error e)

/-- A `class Name(Base)` statement, or `type(name, (base,), {})` without class attributes: nothing is
    set on the class itself. -/
def newClass (ct : ClassTab) (name : String) (base : CRef) : ClassTab × CRef :=
  ({ ct with
      next := ct.next + 1
      name := upd ct.name ct.next name
      parent := upd ct.parent ct.next (some base)
      ownSup := upd ct.ownSup ct.next none
      ownSub := upd ct.ownSub ct.next none }, ct.next)

/-- `type(name, (base,), dict(base.__dict__))` (`custom_classes.py:106-110,127,131,177-181`): the own
    attributes of the base are copied. -/
def copyClass (ct : ClassTab) (name : String) (base : CRef) : ClassTab × CRef :=
  ({ ct with
      next := ct.next + 1
      name := upd ct.name ct.next name
      parent := upd ct.parent ct.next (some base)
      ownSup := upd ct.ownSup ct.next (ct.ownSup base)
      ownSub := upd ct.ownSub ct.next (ct.ownSub base) }, ct.next)

/-- `len(C.__subclasses__())`: the direct subclasses. SIMPLIFICATION: classes are never garbage
    collected. -/
def nSubclasses (ct : ClassTab) (c : CRef) : Nat :=
  ((List.range ct.next).filter fun d => ct.parent d == some c).length

/-- `_make_top` (`custom_classes.py:14-24`) -/
def makeTop (ct : ClassTab) : ClassTab × CRef :=
  newClass ct ("Top_" ++ toString (nSubclasses ct cTop)) cTop

/-- `_make_bottom` (`custom_classes.py:26-35`) -/
def makeBottom (ct : ClassTab) : ClassTab × CRef :=
  newClass ct ("Bottom_" ++ toString (nSubclasses ct cBottom)) cBottom

/-- The class table after importing the package: `HierarchyPart`, `Top`, `Bottom`,
    `SequenceInterval`, `SequencePoint` before any link is set
    (`sequences/sequences.py:28-36,299-305,668-686`, `points/points.py:19`).
    SIMPLIFICATION: `SequencePoint` and `HierarchyPart` have no base class here. -/
def bareClasses : ClassTab where
  next := 5
  name := fun c => match c with
    | 0 => "HierarchyPart" | 1 => "Top" | 2 => "Bottom" | 3 => "SequenceInterval"
    | 4 => "SequencePoint" | _ => ""
  parent := fun c => match c with
    | 1 => some 0 | 2 => some 0 | 3 => some 0 | _ => none
  ownSup := fun c => match c with
    | 0 => some none | _ => none
  ownSub := fun c => match c with
    | 0 => some none | _ => none

/-- The links set at import time (`sequences/sequences.py:690-693`) and the `Word`/`Phone` classes
    (`sequences/word_and_phone.py:10,71,127-138`): `Phone` = 5, `Word` = 6, `Top_wp` = 7,
    `Bottom_wp` = 8. -/
def baseClasses : ClassTab :=
  let ct := (setSupClass bareClasses cTop none).1
  let ct := (setSubClass ct cBottom none).1
  let ct := (setSupClass ct cInterval (some cTop)).1
  let ct := (setSubClass ct cInterval (some cBottom)).1
  let ct := (newClass ct "Phone" cInterval).1
  let ct := (newClass ct "Word" cInterval).1
  let ct := (newClass ct "Top_wp" cTop).1
  let ct := (newClass ct "Bottom_wp" cBottom).1
  let ct := (setSupClass ct 6 (some 7)).1
  let ct := (setSubClass ct 6 (some 5)).1
  (setSubClass ct 5 (some 8)).1

/-- `Phone` -/
def cPhone : CRef := 5
/-- `Word` -/
def cWord : CRef := 6

/-! ## `custom_classes` -/

/-- Creation of the classes of `custom_classes` (`custom_classes.py:124-132`), `i` being the index of
    the next name. -/
def mkCustom (points : List Nat) : ClassTab → Nat → List String → ClassTab × List CRef
  | ct, _, [] => (ct, [])
  | ct, i, nm :: rest =>
    let (ct, c) := copyClass ct nm (if points.contains i then cPoint else cInterval)
    let (ct, cs) := mkCustom points ct (i + 1) rest
    (ct, c :: cs)

/-- Linking of the interval classes (`custom_classes.py:138-144`) after the first one got its top. -/
def linkCustom (bottom : CRef) : ClassTab → List CRef → CRes Unit
  | ct, [] => (ct, .ok ())
  | ct, [c] => setSubClass ct c (some bottom)
  | ct, c :: d :: rest =>
    (setSubClass ct c (some d)).bind fun ct _ => linkCustom bottom ct (d :: rest)

/-- `custom_classes(class_list, points=points)` up to the return order (`custom_classes.py:98-144`),
    for a list argument. -/
def customClassesCore (ct : ClassTab) (names : List String) (points : List Nat) :
    CRes (List CRef) :=
  let (ct, top) := makeTop ct
  let (ct, bottom) := makeBottom ct
  let (ct, cs) := mkCustom points ct 0 names
  let ivs := cs.filter fun c => ct.isSub c cInterval
  match ivs with
  | [] => (ct, .ok cs)
  | c :: _ =>
    (setSupClass ct c (some top)).bind fun ct _ =>
      (linkCustom bottom ct ivs).bind fun ct _ => (ct, .ok cs)

/-- Return order given by indices (`custom_classes.py:146-147`); `IndexError` for a bad index.
    SIMPLIFICATION: no negative indices. -/
def orderByIdx {α} (out : List α) (order : List Nat) : Except Err (List α) :=
  order.mapM fun i => match out[i]? with | some c => .ok c | none => .error .indexError

/-- Return order given by names (`custom_classes.py:148-150`):
    `return_idx = [return_order.index(x) for x in class_list]`, `ValueError` for a missing name. -/
def orderByName {α} (names : List String) (out : List α) (order : List String) : Except Err (List α) :=
  names.mapM fun x =>
    match order.findIdx? (· == x) with
    | none => .error .valueError
    | some i => match out[i]? with | some c => .ok c | none => .error .indexError

/-- `custom_classes(class_list, return_order=None, points)` (`custom_classes.py:37-151`): the order is
    `class_list` itself (line 102), so it goes through the name branch. -/
def customClasses (ct : ClassTab) (names : List String) (points : List Nat) : CRes (List CRef) :=
  (customClassesCore ct names points).bind fun ct cs =>
    match names with
    | [] => (ct, .error .indexError)
    | _ :: _ => (ct, orderByName names cs names)

/-- `custom_classes` with `return_order` given as names. -/
def customClassesNamed (ct : ClassTab) (names order : List String) (points : List Nat) :
    CRes (List CRef) :=
  (customClassesCore ct names points).bind fun ct cs =>
    match order with
    | [] => (ct, .error .indexError)
    | _ :: _ => (ct, orderByName names cs order)

/-- `custom_classes` with `return_order` given as indices. -/
def customClassesIdx (ct : ClassTab) (names : List String) (order points : List Nat) :
    CRes (List CRef) :=
  (customClassesCore ct names points).bind fun ct cs =>
    match order with
    | [] => (ct, .error .indexError)
    | _ :: _ => (ct, orderByIdx cs order)

/-! ## Cloning -/

/-- `issubclass(c, d)` for a possibly missing class. -/
def subO (ct : ClassTab) (c : Option CRef) (d : CRef) : Except Err Bool :=
  match c with
  | none => .error .typeError
  | some c => .ok (ct.isSub c d)

/-- `clone_class(entry_class, recurse)` (`custom_classes.py:153-206`) with recursion fuel. -/
def cloneClassN : Nat → ClassTab → CRef → Bool → CRes CRef
  | 0, ct, _, _ => (ct, .error .recursionError)
  | n + 1, ct, c, recurse =>
    if ct.isSub c cInterval then
      match subO ct (ct.sup c) cTop with
      | .error e => (ct, .error e)
      | .ok isTop =>
        if !isTop && !recurse then (ct, .error .exc)
        else
          let (ct, d) := copyClass ct (ct.name c) c
          let step1 : CRes Unit := match subO ct (ct.sup d) cTop with
            | .error e => (ct, .error e)
            | .ok true => let (ct, t) := makeTop ct; setSupClass ct d (some t)
            | .ok false => (ct, .ok ())
          step1.bind fun ct _ =>
          let step2 : CRes Unit := match subO ct (ct.sub d) cBottom with
            | .error e => (ct, .error e)
            | .ok true => let (ct, b) := makeBottom ct; setSubClass ct d (some b)
            | .ok false => (ct, .ok ())
          step2.bind fun ct _ =>
          match ct.sub d with
          | none => (ct, .error .attributeError)
          | some s =>
            if ct.sup s ≠ some d && ct.isSub s cInterval then
              (cloneClassN n ct s true).bind fun ct s' =>
                (setSubClass ct d (some s')).bind fun ct _ => (ct, .ok d)
            else (ct, .ok d)
    else
      let (ct, d) := copyClass ct (ct.name c) c
      (ct, .ok d)

/-- `get_class_hierarchy(entry_class, out_list)` (`custom_classes.py:208-236`) with recursion fuel. -/
def classHierN (ct : ClassTab) : Nat → CRef → List CRef → Except Err (List CRef)
  | 0, _, _ => .error .recursionError
  | n + 1, c, out => do
    let out ← (do
      match ct.sup c with
      | none => .error .typeError
      | some s =>
        if !ct.isSub s cTop && !out.contains s then classHierN ct n s out else .ok out)
    let out := if out.contains c then out else out ++ [c]
    match ct.sub c with
    | none => .error .typeError
    | some s => if !ct.isSub s cBottom then classHierN ct n s out else .ok out

end ATG
