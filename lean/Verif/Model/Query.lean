import Verif.Model.Entry

/-
The interval queries of events and todos: /repo/src/ics/event.py:235-248.
-/
namespace Ics

/-- What is passed to the queries: an event or todo, a time span, a `datetime` or `None`
(`CalendarEntryOrTimespanOrInstant`, /repo/src/ics/types.py:77-83). -/
inductive Operand where
  | entry (x : Entry)
  | span (s : Span)
  | instant (d : DT)
  | none_

/-- `get_timespan_if_calendar_entry` (/repo/src/ics/types.py:101-109). -/
def timespanIfEntry : Operand → Operand
  | .entry x => .span x.timespan
  | o => o

/-- A query of a span that calls `other.timespan_tuple` (/repo/src/ics/timespan.py:478-554): what is no span has no such
attribute; the tuple of the span itself is computed before. -/
def Env.withSpan (e : Env) (k : Nat) (s : Span) (query : Span → Except PyErr Bool) : Operand → Except PyErr Bool
  | .span o => query o
  | _ => do
    let _ ← e.spanTuple k none s
    .error .attributeError

/-- `CalendarEntryAttrs.starts_within` (/repo/src/ics/event.py:235-236). -/
def Env.entryStartsWithin (e : Env) (k : Nat) (x : Entry) (o : Operand) : Except PyErr Bool :=
  e.withSpan k x.timespan (e.startsWithin k x.timespan) (timespanIfEntry o)

/-- `CalendarEntryAttrs.ends_within` (/repo/src/ics/event.py:238-239). -/
def Env.entryEndsWithin (e : Env) (k : Nat) (x : Entry) (o : Operand) : Except PyErr Bool :=
  e.withSpan k x.timespan (e.endsWithin k x.timespan) (timespanIfEntry o)

/-- `CalendarEntryAttrs.intersects` (/repo/src/ics/event.py:241-242). -/
def Env.entryIntersects (e : Env) (k : Nat) (x : Entry) (o : Operand) : Except PyErr Bool :=
  e.withSpan k x.timespan (e.intersects k x.timespan) (timespanIfEntry o)

/-- `CalendarEntryAttrs.includes` (/repo/src/ics/event.py:244-245; the case distinction is that of
/repo/src/ics/timespan.py:519-540). -/
def Env.entryIncludes (e : Env) (k : Nat) (x : Entry) (o : Operand) : Except PyErr Bool :=
  match timespanIfEntry o with
  | .instant t => e.includesInstant k x.timespan t
  | o => e.withSpan k x.timespan (e.includes k x.timespan) o

/-- `CalendarEntryAttrs.is_included_in` (/repo/src/ics/event.py:247-248). -/
def Env.entryIsIncludedIn (e : Env) (k : Nat) (x : Entry) (o : Operand) : Except PyErr Bool :=
  e.withSpan k x.timespan (e.isIncludedIn k x.timespan) (timespanIfEntry o)

end Ics
