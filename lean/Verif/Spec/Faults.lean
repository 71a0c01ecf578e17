import Verif.Spec.Accepts
import Verif.Model.Component

/-
What can go wrong while a calendar is read: the reasons for each kind of exception, in terms of the items of the text.
-/
namespace Ics

/-- The properties that a component of the class knows. -/
def propertyNames : Cls → List Str
  | .calendar => ["VERSION", "PRODID", "SCALE", "METHOD"].map String.toList
  | .event => ["DTSTART", "DTEND", "DUE", "DURATION", "SUMMARY", "UID", "DESCRIPTION", "LOCATION", "URL", "STATUS", "CREATED",
      "LAST-MODIFIED", "DTSTAMP", "ATTACH", "CLASSIFICATION", "TRANSPARENT", "ORGANIZER", "GEO", "ATTENDEE",
      "CATEGORIES"].map String.toList
  | .todo => ["DTSTART", "DTEND", "DUE", "DURATION", "SUMMARY", "UID", "DESCRIPTION", "LOCATION", "URL", "STATUS", "CREATED",
      "LAST-MODIFIED", "DTSTAMP", "ATTACH", "PERCENT", "PRIORITY", "COMPLETED"].map String.toList
  | .audioAlarm => ["ACTION", "TRIGGER", "REPEAT", "DURATION", "ATTACH"].map String.toList
  | .customAlarm => ["ACTION", "TRIGGER", "REPEAT", "DURATION"].map String.toList
  | .displayAlarm => ["ACTION", "TRIGGER", "REPEAT", "DURATION", "DESCRIPTION"].map String.toList
  | .emailAlarm => ["ACTION", "TRIGGER", "REPEAT", "DURATION", "SUMMARY", "DESCRIPTION", "ATTENDEE",
      "ATTACH"].map String.toList
  | .noneAlarm => ["ACTION", "TRIGGER", "REPEAT", "DURATION"].map String.toList

/-- The components that a component of the class has as members. -/
def componentNames : Cls → List Str
  | .calendar => ["VEVENT", "VTODO"].map String.toList
  | .event => ["VALARM".toList]
  | .todo => ["VALARM".toList]
  | _ => []

/-- The properties that are dates or times. -/
def timeNames : Cls → List Str
  | .calendar => []
  | .event => ["DTSTART", "DTEND", "DUE", "CREATED", "LAST-MODIFIED", "DTSTAMP"].map String.toList
  | .todo => ["DTSTART", "DTEND", "DUE", "CREATED", "LAST-MODIFIED", "DTSTAMP", "COMPLETED"].map String.toList
  | _ => ["TRIGGER".toList]

/-- The properties that are durations. -/
def durationNames : Cls → List Str
  | .calendar => []
  | .event => ["DURATION".toList]
  | .todo => ["DURATION".toList]
  | _ => ["TRIGGER", "DURATION"].map String.toList

/-- The properties that are converted to UTC. -/
def stampNames : Cls → List Str
  | .event => ["CREATED", "LAST-MODIFIED", "DTSTAMP"].map String.toList
  | .todo => ["CREATED", "LAST-MODIFIED", "DTSTAMP"].map String.toList
  | _ => []

/-- A line with the name of a component, or a component with the name of a property. -/
def WrongKind (c : Cls) : Item → Prop
  | .line cl => cl.name ∈ componentNames c
  | .cont name _ => name ∈ propertyNames c

/-- Is the property a date without a time? -/
def IsDate (cl : ContentLine) : Prop := ∃ q, dictGet? cl.params "VALUE".toList = some [⟨q, "DATE".toList⟩]

/-- Is the line the trigger of an alarm as a date and time instead of a duration? -/
def TimeTrigger (cl : ContentLine) : Prop :=
  cl.name = "TRIGGER".toList ∧ ∃ q, dictGet? cl.params "VALUE".toList = some [⟨q, "DATE-TIME".toList⟩]

/-- Does the line give a zone: with a `Z` at the end or a `TZID`? -/
def Zoned (cl : ContentLine) : Prop :=
  EndsInZ cl.value ∨ ∃ v, dictGet? cl.params "TZID".toList = some [v] ∧ v.text ≠ []

/-- Does the line give the end of an event or todo? -/
def IsEnd (cl : ContentLine) : Prop := cl.name = "DTEND".toList ∨ cl.name = "DUE".toList

/-- The last line that gives an end. -/
def LastEnd (items : List Item) (cl : ContentLine) : Prop :=
  IsEnd cl ∧ ∃ before after, items = before ++ .line cl :: after ∧ ∀ cl', .line cl' ∈ after → ¬ IsEnd cl'

/-- Is a wall clock outside of the years 1 to 9999? -/
def OutOfYears (w : Int) : Prop := w < clock 1 1 1 0 0 0 ∨ clock 9999 12 31 23 59 59 + 1000000 ≤ w

/-- The reasons why the items of one component are not accepted, and what is raised then; for a `ValueError` no reason is
given. -/
inductive Fault (L : Lib) (c : Cls) (items : List Item) : PyErr → Prop
  /-- An item of the wrong kind. -/
  | kind {i : Item} : i ∈ items → WrongKind c i → Fault L c items .assertionError
  /-- A date or time with an empty value. -/
  | empty {cl : ContentLine} : .line cl ∈ items → cl.name ∈ timeNames c → cl.value = [] → Fault L c items .indexError
  /-- A text that is no duration. -/
  | noDuration {cl : ContentLine} : .line cl ∈ items → cl.name ∈ durationNames c → ¬ TimeTrigger cl →
      (¬ ∃ v, LooseDuration cl.value v) → Fault L c items .indexError
  /-- A duration of more than 999999999 days. -/
  | long {cl : ContentLine} {v : Int} : .line cl ∈ items → cl.name ∈ durationNames c → ¬ TimeTrigger cl →
      LooseDuration cl.value v → v < -(999999999 * 86400) ∨ (999999999 + 1) * 86400 ≤ v → Fault L c items .overflowError
  /-- A time whose instant is outside of the years 1 to 9999, or that is so in the zone `ics.UTC`. -/
  | stamp {cl : ContentLine} {y m d h n s : Nat} {tz : Option Tz} : .line cl ∈ items → cl.name ∈ stampNames c →
      DateTimeText (stripped cl.value) y m d h n s → (tz.isSome ↔ Zoned cl) →
      (let w := clock y m d h n s
       let u := w - (match tz with | some t => L.tzOff t w false | none => L.sysOff w false)
       OutOfYears u ∨ OutOfYears (L.tzFromUtc (.zone L.icsUtc) u).1) →
      Fault L c items .overflowError
  /-- An all-day event or todo that begins on the last day there is and has an end.  If there are several ends, the last one
  counts. -/
  | lastDay {b e : ContentLine} : c = .event ∨ c = .todo → .line b ∈ items → b.name = "DTSTART".toList →
      LastEnd items e → IsDate b → IsDate e → stripped b.value = "99991231".toList →
      Fault L c items .overflowError
  /-- An event or todo of whose begin and end exactly one has a zone. -/
  | mixed {b e : ContentLine} : c = .event ∨ c = .todo → .line b ∈ items → b.name = "DTSTART".toList →
      LastEnd items e → ¬ IsDate b → ¬ IsDate e → (Zoned b ↔ ¬ Zoned e) → Fault L c items .typeError
  | value : Fault L c items .valueError

/-- The class of alarms for the value of the line ACTION. -/
inductive ActionClass : Str → Cls → Prop
  | display : ActionClass "DISPLAY".toList .displayAlarm
  | audio : ActionClass "AUDIO".toList .audioAlarm
  | email : ActionClass "EMAIL".toList .emailAlarm
  | none : ActionClass "NONE".toList .noneAlarm
  | custom {s : Str} : s ∉ ["DISPLAY", "AUDIO", "EMAIL", "NONE"].map String.toList → ActionClass s .customAlarm

/-- The reasons why an alarm is not accepted. -/
inductive AlarmFault (L : Lib) (items : List Item) : PyErr → Prop
  /-- A component named ACTION instead of a line. -/
  | action {is : List Item} : .cont "ACTION".toList is ∈ items → AlarmFault L items .attributeError
  | own {cl : ContentLine} {c : Cls} {e : PyErr} : .line cl ∈ items → cl.name = "ACTION".toList →
      ActionClass cl.value c → Fault L c items e → AlarmFault L items e
  | value : AlarmFault L items .valueError

/-- The reasons why an event or todo is not accepted. -/
inductive EntryFault (L : Lib) (c : Cls) (items : List Item) : PyErr → Prop
  | own {e : PyErr} : Fault L c items e → EntryFault L c items e
  | alarm {is : List Item} {e : PyErr} : .cont "VALARM".toList is ∈ items → AlarmFault L is e → EntryFault L c items e

/-- The reasons why a calendar is not accepted. -/
inductive CalendarFault (L : Lib) (items : List Item) : PyErr → Prop
  | own {e : PyErr} : Fault L .calendar items e → CalendarFault L items e
  /-- A time zone that is not accepted. -/
  | zone {is : List Item} {e : PyErr} : .cont "VTIMEZONE".toList is ∈ items → L.tzLoad is = .error e →
      CalendarFault L items e
  | event {is : List Item} {e : PyErr} : .cont "VEVENT".toList is ∈ items → EntryFault L .event is e →
      CalendarFault L items e
  | todo {is : List Item} {e : PyErr} : .cont "VTODO".toList is ∈ items → EntryFault L .todo is e → CalendarFault L items e

end Ics
