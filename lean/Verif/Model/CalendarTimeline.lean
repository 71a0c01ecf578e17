import Verif.Model.Component
import Verif.Model.Timeline

/-
The events of a calendar as its timeline sees them: /repo/src/ics/timeline.py:66-70, icalendar.py:76.
-/
namespace Ics

/-- The attribute `timespan` (/repo/src/ics/event.py:56); every event has one. -/
def Obj.timespanOf (o : EntryObj) : Span :=
  match o.get "timespan".toList with
  | .one (.span s) => s
  | _ => { cls := o.cls.spanCls }

/-- The attribute `summary` (/repo/src/ics/event.py:57). -/
def Obj.summaryOf (o : EntryObj) : Option Str :=
  match o.get "summary".toList with
  | .one (.text t) => some t
  | _ => none

/-- An event as the timeline compares it (/repo/src/ics/event.py:54-70, 251-266): its time, its summary and, as the number
`num`, all other attributes. -/
def Obj.asEvent (num : EntryObj → Nat) (o : EntryObj) : TEvent := ⟨⟨o.cls.spanCls, o.timespanOf, o.summaryOf⟩, num o⟩

/-- `self._calendar.events` (/repo/src/ics/timeline.py:66-69). -/
def Obj.timelineEvents (num : EntryObj → Nat) (o : CalObj) : List TEvent :=
  match o.get "events".toList with
  | .many l => l.filterMap fun
    | .comp e => some (e.asEvent num)
    | _ => none
  | _ => []

/-- Iterating over `calendar.timeline` (/repo/src/ics/icalendar.py:76, timeline.py:75-84), whose normalization is `None`. -/
def Obj.timeline (L : Lib) (num : EntryObj → Nat) (k : Nat) (o : CalObj) : Except PyErr (List TEvent) :=
  L.toEnv.timeline k none (o.timelineEvents num)

end Ics
