import Verif.Model.Timeline

/-
The generators of /repo/src/ics/timeline.py, one `next` at a time.
-/
namespace Ics

/-- What `next` gives for the generators of /repo/src/ics/timeline.py:56-127: it yields something, or raises
`StopIteration` or another exception. -/
inductive Next (α : Type) where
  | yields (x : α)
  | stops
  | raises (err : PyErr)
deriving DecidableEq, Repr

/-- A generator object of `iterator` (/repo/src/ics/timeline.py:56-73): not started, suspended after a `yield` with
this heap, or finished. -/
inductive IterGen where
  | start
  | running (heap : List TItem)
  | done

/-- `while heap: yield heapq.heappop(heap)` up to the next `yield` (/repo/src/ics/timeline.py:72-73).  A generator that
raises is finished. -/
def Env.popNext (e : Env) (k : Nat) (heap : List TItem) : Next TItem × IterGen :=
  match heap with
  | [] => (.stops, .done)
  | _ :: _ =>
    match heappop (e.itemLt k) heap with
    | .error x => (.raises x, .done)
    | .ok (it, heap) => (.yields it, .running heap)

/-- `next` of a generator of `iterator` (/repo/src/ics/timeline.py:56-73); `events` is `self._calendar.events` at that
moment. -/
def Env.iterNext (e : Env) (k : Nat) (n : Option Normalization) (events : List TEvent) : IterGen → Next TItem × IterGen
  | .start =>
    match e.items n events with
    | .error x => (.raises x, .done)
    | .ok its =>
      match heapify (e.itemLt k) its with
      | .error x => (.raises x, .done)
      | .ok heap => e.popNext k heap
  | .running heap => e.popNext k heap
  | .done => (.stops, .done)

/-- A generator object of `__iter__`, `included`, `overlapping`, `start_after` or `at`
(/repo/src/ics/timeline.py:75-127): not started, suspended in the loop with the condition and the inner generator, or
finished. -/
inductive SelGen where
  | start
  | running (cond : TItem → Except PyErr Bool) (inner : IterGen)
  | done

/-- `for timespan, event in self.iterator(): if <condition>: yield event` up to the next `yield`
(/repo/src/ics/timeline.py:83-84, 94-96, 106-108, 116-118, 125-127).  `fuel` bounds the number of rounds. -/
def Env.selectLoop (e : Env) (k : Nat) (n : Option Normalization) (events : List TEvent) (cond : TItem → Except PyErr Bool) :
    Nat → IterGen → Next TEvent × SelGen
  | 0, _ => (.raises .outOfFuel, .done)
  | fuel + 1, inner =>
    match e.iterNext k n events inner with
    | (.stops, _) => (.stops, .done)
    | (.raises x, _) => (.raises x, .done)
    | (.yields it, inner) =>
      match cond it with
      | .error x => (.raises x, .done)
      | .ok true => (.yields it.2, .running cond inner)
      | .ok false => e.selectLoop k n events cond fuel inner

/-- How many rounds the loop of `selectLoop` can take: the events, or those left in the heap, and a last round
(/repo/src/ics/timeline.py:67-73). -/
def IterGen.rounds (events : List TEvent) : IterGen → Nat
  | .start => events.length + 1
  | .running heap => heap.length + 1
  | .done => 1

/-- `next` of a generator of `__iter__`, `included`, `overlapping`, `start_after` or `at`
(/repo/src/ics/timeline.py:75-127); `cond` is the condition that is prepared before the loop (ibid. 93, 105, 115, 124). -/
def Env.selectNext (e : Env) (k : Nat) (n : Option Normalization) (cond : Except PyErr (TItem → Except PyErr Bool))
    (events : List TEvent) : SelGen → Next TEvent × SelGen
  | .start =>
    match cond with
    | .error x => (.raises x, .done)
    | .ok cond => e.selectLoop k n events cond (IterGen.start.rounds events) .start
  | .running cond inner => e.selectLoop k n events cond (inner.rounds events) inner
  | .done => (.stops, .done)

/-- The condition of `__iter__`, which has none (/repo/src/ics/timeline.py:83-84). -/
def condAll : Except PyErr (TItem → Except PyErr Bool) := .ok fun _ => .ok true

/-- The condition of `included` (/repo/src/ics/timeline.py:93-95). -/
def Env.condIncluded (e : Env) (k : Nat) (n : Option Normalization) (q : Query) : Except PyErr (TItem → Except PyErr Bool) := do
  let query ← e.querySpan n q
  .ok fun it => e.isIncludedIn k it.1 query

/-- The condition of `overlapping` (/repo/src/ics/timeline.py:105-107). -/
def Env.condOverlapping (e : Env) (k : Nat) (n : Option Normalization) (q : Query) :
    Except PyErr (TItem → Except PyErr Bool) := do
  let query ← e.querySpan n q
  .ok fun it => e.intersects k it.1 query

/-- The condition of `start_after` (/repo/src/ics/timeline.py:115-117). -/
def Env.condStartAfter (e : Env) (n : Option Normalization) (d : DT) : Except PyErr (TItem → Except PyErr Bool) := do
  let d ← e.timelineDT n d
  .ok (e.beginsAfter d)

/-- The condition of `at` (/repo/src/ics/timeline.py:124-126). -/
def Env.condAt (e : Env) (k : Nat) (n : Option Normalization) (d : DT) : Except PyErr (TItem → Except PyErr Bool) := do
  let d ← e.timelineDT n d
  .ok fun it => e.includesInstant k it.1 d

/-- The condition of the generator that `on` returns (/repo/src/ics/timeline.py:129-141); `on` itself is no generator, so
what goes wrong with the day is raised when it is called. -/
def Env.condOn (e : Env) (k : Nat) (n : Option Normalization) (d : DT) (strict : Bool) :
    Except PyErr (Except PyErr (TItem → Except PyErr Bool)) := do
  let query ← e.dayQuery n d
  .ok (if strict then e.condIncluded k n (.span query none) else e.condOverlapping k n (.span query none))

/-- What can happen between the calls of `next`: a call, or the events of the calendar become others
(`self._calendar.events`, /repo/src/ics/timeline.py:68, is a list that can be changed at any time). -/
inductive Act where
  | next
  | assign (events : List TEvent)

/-- What the calls of `next` give in an execution (/repo/src/ics/timeline.py:56-127); `step` is `next` of the
generator. -/
def runGen {γ α : Type} (step : List TEvent → γ → Next α × γ) : List TEvent → γ → List Act → List (Next α)
  | _, _, [] => []
  | events, g, .next :: acts => (step events g).1 :: runGen step events (step events g).2 acts
  | _, g, .assign events :: acts => runGen step events g acts

end Ics
