import Verif.Model.Lazy

/-
`heapq` and the iterator of the timeline once more, counting the comparisons: the claim of
/repo/src/ics/timeline.py:64-66 is about their number.
-/
namespace Ics

/-- A result with the number of comparisons made on the way, also if it is an exception
(/repo/src/ics/timeline.py:64-66). -/
structure Counted (α : Type) where
  result : Except PyErr α
  cost : Nat

/-- Doing nothing, or one thing after the other (Python's sequential execution in heapq.py of CPython, called by
/repo/src/ics/timeline.py:71-73): the numbers of comparisons add up. -/
instance : Monad Counted where
  pure a := ⟨.ok a, 0⟩
  bind x f :=
    match x.result with
    | .error e => ⟨.error e, x.cost⟩
    | .ok a => ⟨(f a).result, x.cost + (f a).cost⟩

/-- An exception (heapq.py of CPython, called by /repo/src/ics/timeline.py:71-73). -/
def Counted.error {α : Type} (e : PyErr) : Counted α := ⟨.error e, 0⟩

/-- One comparison (`<` in heapq.py:213, 268 of CPython, called by /repo/src/ics/timeline.py:71-73). -/
def counted {α : Type} (lt : α → α → Except PyErr Bool) (a b : α) : Counted Bool := ⟨lt a b, 1⟩

/-- The loop of `_siftdown` (heapq.py:205-217 of CPython; called by /repo/src/ics/timeline.py:73). -/
def siftdownLoopC {α : Type} (lt : α → α → Except PyErr Bool) (start : Nat) (new : α) : Nat → List α → Nat → Counted (List α)
  | 0, heap, pos => pure (heap.set pos new)
  | fuel + 1, heap, pos =>
    if start < pos then
      match heap[(pos - 1) / 2]? with
      | none => .error .indexError
      | some parent => do
        if ← counted lt new parent then siftdownLoopC lt start new fuel (heap.set pos parent) ((pos - 1) / 2)
        else pure (heap.set pos new)
    else pure (heap.set pos new)

/-- `_siftdown` (heapq.py:205-217 of CPython; called by /repo/src/ics/timeline.py:73). -/
def siftdownC {α : Type} (lt : α → α → Except PyErr Bool) (heap : List α) (start pos : Nat) : Counted (List α) :=
  match heap[pos]? with
  | none => .error .indexError
  | some new => siftdownLoopC lt start new pos heap pos

/-- The position of the smaller child (heapq.py:267-269 of CPython; called by /repo/src/ics/timeline.py:71-73). -/
def smallerChildC {α : Type} (lt : α → α → Except PyErr Bool) (heap : List α) (child : Nat) : Counted Nat :=
  if child + 1 < heap.length then
    match heap[child]?, heap[child + 1]? with
    | some a, some b => do
      if ← counted lt a b then pure child else pure (child + 1)
    | _, _ => .error .indexError
  else pure child

/-- The loop of `_siftup` (heapq.py:265-273 of CPython; called by /repo/src/ics/timeline.py:71-73). -/
def siftupLoopC {α : Type} (lt : α → α → Except PyErr Bool) : Nat → List α → Nat → Counted (List α × Nat)
  | 0, heap, pos => pure (heap, pos)
  | fuel + 1, heap, pos =>
    if 2 * pos + 1 < heap.length then do
      let c ← smallerChildC lt heap (2 * pos + 1)
      match heap[c]? with
      | none => .error .indexError
      | some x => siftupLoopC lt fuel (heap.set pos x) c
    else pure (heap, pos)

/-- `_siftup` (heapq.py:259-277 of CPython; called by /repo/src/ics/timeline.py:71-73). -/
def siftupC {α : Type} (lt : α → α → Except PyErr Bool) (heap : List α) (pos : Nat) : Counted (List α) :=
  match heap[pos]? with
  | none => .error .indexError
  | some new => do
    let r ← siftupLoopC lt heap.length heap pos
    siftdownC lt (r.1.set r.2 new) pos r.2

/-- `_siftup` at several positions one after the other (heapq.py:169-170 of CPython; called by
/repo/src/ics/timeline.py:71). -/
def siftupAllC {α : Type} (lt : α → α → Except PyErr Bool) : List Nat → List α → Counted (List α)
  | [], heap => pure heap
  | i :: is, heap => do
    let heap ← siftupC lt heap i
    siftupAllC lt is heap

/-- `heapify` (heapq.py:160-170 of CPython; called by /repo/src/ics/timeline.py:71). -/
def heapifyC {α : Type} (lt : α → α → Except PyErr Bool) (heap : List α) : Counted (List α) :=
  siftupAllC lt (List.range (heap.length / 2)).reverse heap

/-- `heappop` (heapq.py:135-143 of CPython; called by /repo/src/ics/timeline.py:73). -/
def heappopC {α : Type} (lt : α → α → Except PyErr Bool) (heap : List α) : Counted (α × List α) :=
  match heap.getLast? with
  | none => .error .indexError
  | some last =>
    match heap.dropLast with
    | [] => pure (last, [])
    | x :: rest => do
      let h ← siftupC lt (last :: rest) 0
      pure (x, h)

/-- `while heap: yield heapq.heappop(heap)` up to the next `yield` (/repo/src/ics/timeline.py:72-73), with the number of
comparisons. -/
def Env.popNextC (e : Env) (k : Nat) (heap : List TItem) : (Next TItem × IterGen) × Nat :=
  match heap with
  | [] => ((.stops, .done), 0)
  | _ :: _ =>
    let r := heappopC (e.itemLt k) heap
    match r.result with
    | .error x => ((.raises x, .done), r.cost)
    | .ok (it, heap) => ((.yields it, .running heap), r.cost)

/-- `next` of a generator of `iterator` (/repo/src/ics/timeline.py:56-73), with the number of comparisons. -/
def Env.iterNextC (e : Env) (k : Nat) (n : Option Normalization) (events : List TEvent) :
    IterGen → (Next TItem × IterGen) × Nat
  | .start =>
    match e.items n events with
    | .error x => ((.raises x, .done), 0)
    | .ok its =>
      let r := heapifyC (e.itemLt k) its
      match r.result with
      | .error x => ((.raises x, .done), r.cost)
      | .ok heap => ((e.popNextC k heap).1, r.cost + (e.popNextC k heap).2)
  | .running heap => e.popNextC k heap
  | .done => ((.stops, .done), 0)

/-- The number of comparisons in an execution (/repo/src/ics/timeline.py:56-73; see `runGen`). -/
def Env.comparisons (e : Env) (k : Nat) (n : Option Normalization) : List TEvent → IterGen → List Act → Nat
  | _, _, [] => 0
  | events, g, .next :: acts =>
    (e.iterNextC k n events g).2 + e.comparisons k n events (e.iterNextC k n events g).1.2 acts
  | _, g, .assign events :: acts => e.comparisons k n events g acts

end Ics
