import Verif.Py.Basic

/-
`heapq` of CPython (/app/python311/lib/python3.11/heapq.py), used by
/repo/src/ics/timeline.py:71-73.  `lt` is the `<` of the elements; it may raise.
-/
namespace Ics

/-- The loop of `_siftdown` (heapq.py:205-217 of CPython; called by /repo/src/ics/timeline.py:73).
`fuel` bounds the number of rounds. -/
def siftdownLoop {α : Type} (lt : α → α → Except PyErr Bool) (start : Nat) (new : α) :
    Nat → List α → Nat → Except PyErr (List α)
  | 0, heap, pos => .ok (heap.set pos new)
  | fuel + 1, heap, pos =>
    if start < pos then
      match heap[(pos - 1) / 2]? with
      | none => .error .indexError
      | some parent => do
        if ← lt new parent then siftdownLoop lt start new fuel (heap.set pos parent) ((pos - 1) / 2)
        else .ok (heap.set pos new)
    else .ok (heap.set pos new)

/-- `_siftdown` (heapq.py:205-217 of CPython; called by /repo/src/ics/timeline.py:73). -/
def siftdown {α : Type} (lt : α → α → Except PyErr Bool) (heap : List α) (start pos : Nat) :
    Except PyErr (List α) :=
  match heap[pos]? with
  | none => .error .indexError
  | some new => siftdownLoop lt start new pos heap pos

/-- The position of the smaller child (heapq.py:267-269 of CPython; called by
/repo/src/ics/timeline.py:71-73). -/
def smallerChild {α : Type} (lt : α → α → Except PyErr Bool) (heap : List α) (child : Nat) :
    Except PyErr Nat :=
  if child + 1 < heap.length then
    match heap[child]?, heap[child + 1]? with
    | some a, some b => do
      if ← lt a b then .ok child else .ok (child + 1)
    | _, _ => .error .indexError
  else .ok child

/-- The loop of `_siftup` (heapq.py:265-273 of CPython; called by /repo/src/ics/timeline.py:71-73).
`fuel` bounds the number of rounds. -/
def siftupLoop {α : Type} (lt : α → α → Except PyErr Bool) :
    Nat → List α → Nat → Except PyErr (List α × Nat)
  | 0, heap, pos => .ok (heap, pos)
  | fuel + 1, heap, pos =>
    if 2 * pos + 1 < heap.length then do
      let c ← smallerChild lt heap (2 * pos + 1)
      match heap[c]? with
      | none => .error .indexError
      | some x => siftupLoop lt fuel (heap.set pos x) c
    else .ok (heap, pos)

/-- `_siftup` (heapq.py:259-277 of CPython; called by /repo/src/ics/timeline.py:71-73). -/
def siftup {α : Type} (lt : α → α → Except PyErr Bool) (heap : List α) (pos : Nat) :
    Except PyErr (List α) :=
  match heap[pos]? with
  | none => .error .indexError
  | some new => do
    let r ← siftupLoop lt heap.length heap pos
    siftdown lt (r.1.set r.2 new) pos r.2

/-- `_siftup` at several positions one after the other (heapq.py:169-170 of CPython; called by
/repo/src/ics/timeline.py:71). -/
def siftupAll {α : Type} (lt : α → α → Except PyErr Bool) :
    List Nat → List α → Except PyErr (List α)
  | [], heap => .ok heap
  | i :: is, heap => do
    let heap ← siftup lt heap i
    siftupAll lt is heap

/-- `heapify` (heapq.py:160-170 of CPython; called by /repo/src/ics/timeline.py:71). -/
def heapify {α : Type} (lt : α → α → Except PyErr Bool) (heap : List α) : Except PyErr (List α) :=
  siftupAll lt (List.range (heap.length / 2)).reverse heap

/-- `heappop` (heapq.py:135-143 of CPython; called by /repo/src/ics/timeline.py:73): the smallest
element and the heap afterwards. -/
def heappop {α : Type} (lt : α → α → Except PyErr Bool) (heap : List α) : Except PyErr (α × List α) :=
  match heap.getLast? with
  | none => .error .indexError
  | some last =>
    match heap.dropLast with
    | [] => .ok (last, [])
    | x :: rest => do
      let h ← siftup lt (last :: rest) 0
      .ok (x, h)

/-- `while heap: yield heappop(heap)` (/repo/src/ics/timeline.py:72-73).  `fuel` bounds the number of
rounds. -/
def popAll {α : Type} (lt : α → α → Except PyErr Bool) : Nat → List α → Except PyErr (List α)
  | 0, _ => .ok []
  | fuel + 1, heap =>
    match heap with
    | [] => .ok []
    | _ :: _ => do
      let r ← heappop lt heap
      let rest ← popAll lt fuel r.2
      .ok (r.1 :: rest)

end Ics
