import Verif.Model.Timespan

/-
The time-related attributes of events and todos: /repo/src/ics/event.py, /repo/src/ics/todo.py.
-/
namespace Ics

/-- The part of an event or todo that concerns time (`CalendarEntryAttrs`,
/repo/src/ics/event.py:55-73): `tsType` is `_TIMESPAN_TYPE` (73, 287; todo.py:40). -/
structure Entry where
  tsType : SpanCls
  timespan : Span
  summary : Option Str := none
deriving DecidableEq, Repr

/-- `isinstance(value, _TIMESPAN_TYPE)` (/repo/src/ics/event.py:84). -/
def isInstance (v : Span) (t : SpanCls) : Bool := decide (t = .plain) || decide (v.cls = t)

/-- `validate_timespan` (/repo/src/ics/event.py:82-85). -/
def Env.validateTimespan (e : Env) (t : SpanCls) (v : Span) : Except PyErr Unit :=
  if isInstance v t then e.validate v else .error .typeError

/-- Assignment to `timespan` (`RuntimeAttrValidation.__setattr__`, /repo/src/ics/types.py:126-140):
the validator runs first; the attribute changes only if it does not raise.  An action on an object
gives its outcome together with the object afterwards. -/
def Env.setTimespan (e : Env) (v : Span) (x : Entry) : Except PyErr Unit × Entry :=
  match e.validateTimespan x.tsType v with
  | .error err => (.error err, x)
  | .ok () => (.ok (), { x with timespan := v })

/-- `self.timespan = <expression>` (/repo/src/ics/event.py:103, 123, 141, 146, 172, 175, 182, 185):
the expression is evaluated before the assignment. -/
def Env.assign (e : Env) (v : Except PyErr Span) (x : Entry) : Except PyErr Unit × Entry :=
  match v with
  | .error err => (.error err, x)
  | .ok v => e.setTimespan v x

/-- The operations that change the time of an event or todo (/repo/src/ics/event.py:101-185). -/
inductive Edit where
  | timespan (v : Span)
  | begin (v : Option DT)
  | end_ (v : Option DT)
  | duration (v : Option Int)
  | convertEnd (t : EndTarget)
  | makeAllDay
  | unsetAllDay
  | replaceTimezone (tz : Option Tz)
  | convertTimezone (tz : Option Tz)
deriving Repr

/-- `Todo.convert_end` renames the target (/repo/src/ics/todo.py:66-69). -/
def Entry.endTarget (x : Entry) (t : EndTarget) : EndTarget :=
  if x.tsType = .todo ∧ t = .due then .end_ else t

/-- One edit (/repo/src/ics/event.py:101-185; todo.py:66-73).  `ensure_datetime` and `ensure_timedelta`
are the identity on the values of the model. -/
def Env.edit (e : Env) (x : Entry) : Edit → Except PyErr Unit × Entry
  | .timespan v => e.setTimespan v x
  | .begin v => e.assign (e.mkSpan { x.timespan with begin? := v }) x
  | .end_ v => e.assign (e.mkSpan { x.timespan with end? := v, dur? := none }) x
  | .duration v => e.assign (e.mkSpan { x.timespan with dur? := v, end? := none }) x
  | .convertEnd t => e.assign (e.convertEnd x.timespan (x.endTarget t)) x
  | .makeAllDay => e.assign (e.makeAllDay x.timespan) x
  | .unsetAllDay => e.assign (e.mkSpan { x.timespan with prec := .other "seconds".toList }) x
  | .replaceTimezone tz => e.assign (e.replaceTimezone x.timespan tz) x
  | .convertTimezone tz => e.assign (e.convertTimezone x.timespan tz) x

/-- Creation of an event or todo (`Event.__init__`, /repo/src/ics/event.py:289-317; `Todo.__init__`,
todo.py:42-62) from begin, end/due and duration. -/
def Env.newEntry (e : Env) (todo : Bool) (b en : Option DT) (d : Option Int) : Except PyErr Entry := do
  let cls := if todo then SpanCls.todo else SpanCls.event
  let s ← e.mkSpan ⟨cls, b, en, d, .second⟩
  e.validateTimespan cls s
  .ok ⟨cls, s, none⟩

/-- Creation of an event or todo from a span (`timespan=`; /repo/src/ics/event.py:305-317). -/
def Env.newEntryFrom (e : Env) (todo : Bool) (s : Span) : Except PyErr Entry := do
  let cls := if todo then SpanCls.todo else SpanCls.event
  e.validateTimespan cls s
  .ok ⟨cls, s, none⟩

/-- Several edits one after the other, each in a `try` block: the object afterwards
(a sequence of the mutators of event.py:101-185 and todo.py:66-71 as called by a user). -/
def Env.edits (e : Env) (x : Entry) : List Edit → Entry
  | [] => x
  | c :: cs => e.edits (e.edit x c).2 cs

/-! ### Comparison of events and todos -/

/-- `a < b` on `str`: code points compared from the left (used by the tuple comparisons of
/repo/src/ics/event.py:210). -/
def strLt : Str → Str → Bool
  | [], [] => false
  | [], _ :: _ => true
  | _ :: _, [] => false
  | a :: as, b :: bs => decide (a.toNat < b.toNat) || (decide (a.toNat = b.toNat) && strLt as bs)

/-- `self.summary or ""` (/repo/src/ics/event.py:205). -/
def Entry.sumKey (x : Entry) : Str := x.summary.getD []

/-- `cmp_tuple() <op> cmp_tuple()` of two entries (/repo/src/ics/event.py:196-233): the summary is the
third component of the tuples; `sop` is the operator on strings, `rest` the result for equal
tuples. -/
def Env.entryOp (e : Env) (op : DT → DT → Except PyErr Bool) (sop : Str → Str → Bool) (rest : Bool)
    (k : Nat) (a b : Entry) : Except PyErr Bool := do
  let x ← e.cmpTuple k a.timespan
  let y ← e.cmpTuple (k + 2) b.timespan
  e.tupleOp op (.ok (if a.sumKey = b.sumKey then rest else sop a.sumKey b.sumKey)) x y

/-- `__lt__` of events and todos (/repo/src/ics/event.py:207-212). -/
def Env.entryLt (e : Env) (k : Nat) (a b : Entry) : Except PyErr Bool :=
  e.entryOp e.lt strLt false k a b

/-- `__gt__` of events and todos (/repo/src/ics/event.py:214-219). -/
def Env.entryGt (e : Env) (k : Nat) (a b : Entry) : Except PyErr Bool :=
  e.entryOp e.gt (fun s t => strLt t s) false k a b

/-- `__le__` of events and todos (/repo/src/ics/event.py:221-226). -/
def Env.entryLe (e : Env) (k : Nat) (a b : Entry) : Except PyErr Bool :=
  e.entryOp e.le (fun s t => !strLt t s) true k a b

/-- `__ge__` of events and todos (/repo/src/ics/event.py:228-233). -/
def Env.entryGe (e : Env) (k : Nat) (a b : Entry) : Except PyErr Bool :=
  e.entryOp e.ge (fun s t => !strLt s t) true k a b

/-! ### Normalization of events and calendars -/

/-- `Normalization.normalize` of an event or todo (/repo/src/ics/timespan.py:89-106, 114-132): the object
is changed in place. -/
def Env.normalizeEntry (e : Env) (n : Normalization) (x : Entry) : Except PyErr Unit × Entry :=
  match n.action x.timespan.isFloating with
  | .ignore => (.ok (), x)
  | .replace => e.edit x (.replaceTimezone n.replacement)
  | .convert => e.edit x (.convertTimezone n.replacement)

/-- The list comprehension of `Calendar.normalize` (/repo/src/ics/icalendar.py:140-145): all-day entries
are skipped; the first exception ends it, the objects treated before stay changed.  Simplified: the
objects in the list are distinct. -/
def Env.normalizeAll (e : Env) (n : Normalization) : List Entry → Except PyErr Unit × List Entry
  | [] => (.ok (), [])
  | x :: xs =>
    if x.timespan.isAllDay then
      let r := e.normalizeAll n xs
      (r.1, x :: r.2)
    else
      match e.normalizeEntry n x with
      | (.error err, y) => (.error err, y :: xs)
      | (.ok (), y) =>
        let r := e.normalizeAll n xs
        (r.1, y :: r.2)

end Ics
