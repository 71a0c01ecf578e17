import Verif.Model.Entry
import Verif.Py.Heapq

/-
/repo/src/ics/timeline.py.
-/
namespace Ics

/-- An event of a calendar as seen by the timeline (`Event`, /repo/src/ics/event.py:251-317).  `rest`
stands for all attributes besides timespan and summary; equal numbers mean that they are equal. -/
structure TEvent where
  entry : Entry
  rest : Nat := 0
deriving DecidableEq, Repr

/-- `==` of two events: all attributes are compared (`attr.s(eq=True)`,
/repo/src/ics/event.py:54, 251). -/
def Env.eventEq (e : Env) (a b : TEvent) : Bool :=
  e.spanEq a.entry.timespan b.entry.timespan && decide (a.entry.summary = b.entry.summary) &&
    decide (a.rest = b.rest)

/-- What the timeline iterates over (/repo/src/ics/timeline.py:56): the normalized span with the
event. -/
abbrev TItem := Span × TEvent

/-- `<` of two items, which are tuples (/repo/src/ics/timeline.py:71-73; `tuplerichcompare` of
CPython): the first components that are not `==` decide.  The `tzlocal()` objects created by all
comparisons have the numbers `k` to `k + 3`: no comparison sees those of another one. -/
def Env.itemLt (e : Env) (k : Nat) (a b : TItem) : Except PyErr Bool :=
  if e.spanEq a.1 b.1 then
    if e.eventEq a.2 b.2 then .ok false else e.entryLt k a.2.entry b.2.entry
  else e.spanLt k a.1 b.1

/-- `if self._normalization: timespan = self._normalization.normalize(timespan)`
(/repo/src/ics/timeline.py:52-54). -/
def Env.timelineSpan (e : Env) (n : Option Normalization) (s : Span) : Except PyErr Span :=
  match n with
  | none => .ok s
  | some n => e.normalizeSpan n s

/-- `__normalize_datetime` (/repo/src/ics/timeline.py:30-37). -/
def Env.timelineDT (e : Env) (n : Option Normalization) (d : DT) : Except PyErr DT :=
  match n with
  | none => .ok d
  | some n => e.normalizeDT n d

/-- The arguments `start` and `stop` of a query (/repo/src/ics/timeline.py:39-41): a span, or one or
two times. -/
inductive Query where
  | span (s : Span) (stop : Option DT)
  | times (start : DT) (stop : Option DT)

/-- `__normalize_timespan` of the arguments of a query (/repo/src/ics/timeline.py:39-54). -/
def Env.querySpan (e : Env) (n : Option Normalization) : Query → Except PyErr Span
  | .span s none => e.timelineSpan n s
  | .span _ (some _) => .error .valueError
  | .times b en => do
    let s ← e.mkSpan ⟨.plain, some b, en, none, .second⟩
    e.timelineSpan n s

/-- The items of all events that have a time (/repo/src/ics/timeline.py:67-70). -/
def Env.items (e : Env) (n : Option Normalization) : List TEvent → Except PyErr (List TItem)
  | [] => .ok []
  | x :: xs => do
    let s ← e.timelineSpan n x.entry.timespan
    let rest ← e.items n xs
    .ok (if s.truthy then (s, x) :: rest else rest)

/-- `iterator` (/repo/src/ics/timeline.py:56-73), everything it yields.  Simplified: if a comparison
raises, what was yielded before is not shown; see `Env.iterNext` for that. -/
def Env.iterator (e : Env) (k : Nat) (n : Option Normalization) (events : List TEvent) :
    Except PyErr (List TItem) := do
  let its ← e.items n events
  let heap ← heapify (e.itemLt k) its
  popAll (e.itemLt k) heap.length heap

/-- `__iter__` (/repo/src/ics/timeline.py:75-84). -/
def Env.timeline (e : Env) (k : Nat) (n : Option Normalization) (events : List TEvent) :
    Except PyErr (List TEvent) := do
  let its ← e.iterator k n events
  .ok (its.map Prod.snd)

/-- `for timespan, event in self.iterator(): if <condition>: yield event`
(/repo/src/ics/timeline.py:94-96, 106-108, 116-118, 125-127).  Simplified: if the condition raises,
what was yielded before is not shown, and if the iteration raises, too, which exception comes first; see `Env.selectNext`
for that. -/
def selectItems (p : TItem → Except PyErr Bool) : List TItem → Except PyErr (List TEvent)
  | [] => .ok []
  | it :: its => do
    let b ← p it
    let rest ← selectItems p its
    .ok (if b then it.2 :: rest else rest)

/-- `included` (/repo/src/ics/timeline.py:86-96). -/
def Env.included (e : Env) (k : Nat) (n : Option Normalization) (events : List TEvent) (q : Query) :
    Except PyErr (List TEvent) := do
  let query ← e.querySpan n q
  let its ← e.iterator k n events
  selectItems (fun it => e.isIncludedIn k it.1 query) its

/-- `overlapping` (/repo/src/ics/timeline.py:98-108). -/
def Env.overlapping (e : Env) (k : Nat) (n : Option Normalization) (events : List TEvent) (q : Query) :
    Except PyErr (List TEvent) := do
  let query ← e.querySpan n q
  let its ← e.iterator k n events
  selectItems (fun it => e.intersects k it.1 query) its

/-- The condition of `start_after` (/repo/src/ics/timeline.py:117). -/
def Env.beginsAfter (e : Env) (d : DT) (it : TItem) : Except PyErr Bool :=
  match it.1.begin? with
  | none => .ok false
  | some b => e.gt b d

/-- `start_after` (/repo/src/ics/timeline.py:110-118). -/
def Env.startAfter (e : Env) (k : Nat) (n : Option Normalization) (events : List TEvent) (d : DT) :
    Except PyErr (List TEvent) := do
  let d ← e.timelineDT n d
  let its ← e.iterator k n events
  selectItems (e.beginsAfter d) its

/-- `at` (/repo/src/ics/timeline.py:120-127). -/
def Env.at (e : Env) (k : Nat) (n : Option Normalization) (events : List TEvent) (d : DT) :
    Except PyErr (List TEvent) := do
  let d ← e.timelineDT n d
  let its ← e.iterator k n events
  selectItems (fun it => e.includesInstant k it.1 d) its

/-- The query of `on` (/repo/src/ics/timeline.py:135-137). -/
def Env.dayQuery (e : Env) (n : Option Normalization) (d : DT) : Except PyErr Span := do
  let later ← d.add 1000000
  let en ← e.ceilDay later
  e.querySpan n (.times d.floorDay (some en))

/-- `on` (/repo/src/ics/timeline.py:129-141). -/
def Env.on (e : Env) (k : Nat) (n : Option Normalization) (events : List TEvent) (d : DT)
    (strict : Bool) : Except PyErr (List TEvent) := do
  let query ← e.dayQuery n d
  if strict then e.included k n events (.span query none)
  else e.overlapping k n events (.span query none)

/-- `today` (/repo/src/ics/timeline.py:143-149): `localNow` is the local wall clock time; `date.today()`
is its date, which `ensure_datetime` turns into midnight. -/
def Env.today (e : Env) (k : Nat) (n : Option Normalization) (events : List TEvent) (localNow : Int)
    (strict : Bool) : Except PyErr (List TEvent) :=
  e.on k n events ⟨localNow - localNow % dayUs, false, none⟩ strict

/-- `now` (/repo/src/ics/timeline.py:151-155): `utcNow` is the current instant; `datetime.utcnow()` is
naive. -/
def Env.now (e : Env) (k : Nat) (n : Option Normalization) (events : List TEvent) (utcNow : Int) :
    Except PyErr (List TEvent) :=
  e.at k n events ⟨utcNow, false, none⟩

end Ics
