import Verif.Py.Basic

/-
Python's `list` with its index and slice arguments, as used by `Container`
(/repo/src/ics/contentline/container.py:278-319).
-/
namespace Ics

/-- A Python `slice` object with `int` or `None` parts (/repo/src/ics/contentline/container.py:293-308). -/
structure Slice where
  start : Option Int := none
  stop : Option Int := none
  step : Option Int := none
deriving DecidableEq, Repr

/-- What can be between the brackets of `c[...]` (/repo/src/ics/contentline/container.py:290-308): an
integer, a slice, a string, or anything else. -/
inductive Idx where
  | int (i : Int)
  | slice (s : Slice)
  | str (name : Str)
  | other
deriving DecidableEq, Repr

/-- The position of index `i` in a list of length `n` (Python language reference, subscriptions; used by
/repo/src/ics/contentline/container.py:302, 307, 317). -/
def normIndex (n : Nat) (i : Int) : Option Nat :=
  let j := if i < 0 then i + n else i
  if 0 ≤ j ∧ j < n then some j.toNat else none

/-- The position `list.insert(i, x)` inserts at (/repo/src/ics/contentline/container.py:280): indices out of
range are the ends. -/
def insertPos (n : Nat) (i : Int) : Nat :=
  let j := if i < 0 then i + n else i
  (min (max j 0) n).toNat

/-- `slice.indices(n)` (used by `list` for /repo/src/ics/contentline/container.py:302, 307): a step of 0 is a
`ValueError`. -/
def Slice.indices (s : Slice) (n : Nat) : Except PyErr (Int × Int × Int) :=
  let step := s.step.getD 1
  if step = 0 then .error .valueError
  else
    let lower : Int := if step < 0 then -1 else 0
    let upper : Int := if step < 0 then (n : Int) - 1 else n
    let clip (i : Int) : Int := if i < 0 then max (i + n) lower else min i upper
    let start := match s.start with
      | none => if step < 0 then upper else lower
      | some i => clip i
    let stop := match s.stop with
      | none => if step < 0 then lower else upper
      | some i => clip i
    .ok (start, stop, step)

/-- `len(range(start, stop, step))` (used by `list` for /repo/src/ics/contentline/container.py:302, 307). -/
def rangeLen (start stop step : Int) : Nat :=
  if 0 < step then ((stop - start + step - 1) / step).toNat
  else ((start - stop + (-step) - 1) / (-step)).toNat

/-- The positions `range(start, stop, step)` (used by `list` for
/repo/src/ics/contentline/container.py:302, 307). -/
def rangeList (start stop step : Int) : List Int :=
  (List.range (rangeLen start stop step)).map fun k : Nat => start + k * step

/-- The elements of `l` from position `i` on which are not at one of the given positions (`del l[slice]`,
/repo/src/ics/contentline/container.py:302). -/
def dropPositions {α : Type} (ps : List Int) (i : Nat) : List α → List α
  | [] => []
  | x :: l => if (i : Int) ∈ ps then dropPositions ps (i + 1) l else x :: dropPositions ps (i + 1) l

/-- `l` with the elements at the given positions replaced (`l[slice] = values` with a step,
/repo/src/ics/contentline/container.py:307). -/
def setPositions {α : Type} : List Int → List α → List α → List α
  | p :: ps, v :: vs, l => setPositions ps vs (l.set p.toNat v)
  | _, _, l => l

/-- `del l[i]` (/repo/src/ics/contentline/container.py:302). -/
def listDel {α : Type} (l : List α) : Idx → Except PyErr (List α)
  | .int i =>
    match normIndex l.length i with
    | some j => .ok (l.eraseIdx j)
    | none => .error .indexError
  | .slice s => (s.indices l.length).map fun (a, b, k) => dropPositions (rangeList a b k) 0 l
  | .str _ => .error .typeError
  | .other => .error .typeError

/-- The right hand side of an assignment to an element or a slice
(/repo/src/ics/contentline/container.py:304-307): the object itself, and what iterating over it gives (for
an object that is not iterable: nothing and a `TypeError`). -/
structure AssignArg (α : Type) where
  value : α
  iter : Gen α

/-- `l[i] = value` (/repo/src/ics/contentline/container.py:307).  A slice takes the elements of an iterable,
which are collected before anything is changed; with a step other than 1 their number must fit. -/
def listSet {α : Type} (l : List α) : Idx → AssignArg α → Except PyErr (List α)
  | .int i, v =>
    match normIndex l.length i with
    | some j => .ok (l.set j v.value)
    | none => .error .indexError
  | .slice s, v =>
    match s.indices l.length with
    | .error e => .error e
    | .ok (a, b, k) =>
      match v.iter.err with
      | some e => .error e
      | none =>
        if k = 1 then .ok (l.take a.toNat ++ v.iter.items ++ l.drop (max a b).toNat)
        else if v.iter.items.length = (rangeList a b k).length then
          .ok (setPositions (rangeList a b k) v.iter.items l)
        else .error .valueError
  | .str _, _ => .error .typeError
  | .other, _ => .error .typeError

/-- `l.insert(i, x)` (/repo/src/ics/contentline/container.py:280). -/
def listInsert {α : Type} (l : List α) (i : Idx) (x : α) : Except PyErr (List α) :=
  match i with
  | .int i => .ok (l.take (insertPos l.length i) ++ x :: l.drop (insertPos l.length i))
  | _ => .error .typeError

/-- `l.pop(i)`: the list afterwards and the result (/repo/src/ics/contentline/container.py:317). -/
def listPop {α : Type} (l : List α) (i : Idx) : Except PyErr (List α × α) :=
  match i with
  | .int i =>
    match normIndex l.length i with
    | none => .error .indexError
    | some j =>
      match l[j]? with
      | some x => .ok (l.eraseIdx j, x)
      | none => .error .indexError
  | _ => .error .typeError

/-- `l.remove(x)` (/repo/src/ics/contentline/container.py:318): the first element equal to `x` goes; `eq` says
which elements are. -/
def listRemove {α : Type} (eq : α → Bool) : List α → Except PyErr (List α)
  | [] => .error .valueError
  | x :: l => if eq x then .ok l else (listRemove eq l).map (x :: ·)

end Ics
