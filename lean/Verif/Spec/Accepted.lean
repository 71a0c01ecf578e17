import Verif.Spec.Represent
import Verif.Spec.Url
import Verif.Spec.Contentline

/-
Which texts give components that survive being written: what can get lost is listed here.
-/
namespace Ics

variable {σ : Type}

/-- A time in a year that is written with four digits, in a zone that the reader knows. -/
def SafeTime (L : Lib) (zones : List (Str × Nat)) (d : DT) : Prop :=
  (L.padYear = true ∨ 364877 * 86400000000 ≤ d.wall) ∧ RepZone L zones d.tz

/-- A value that was read and survives being written: a URL that is not like `http:foo` (see C62), a safe
time, or coordinates that are the same when written with six decimals.  `M` is about the members. -/
def SafeVal (L : Lib) (zones : List (Str × Nat)) (M : σ → Prop) : Val σ → Prop
  | .dt d => SafeTime L zones d
  | .span s => (∀ d, s.begin? = some d → SafeTime L zones d) ∧ ∀ d, s.end? = some d → SafeTime L zones d
  | .url u => ¬u.Slashless
  | .person _ (.url u) _ => ¬u.Slashless
  | .geo a b => L.parseFloat (L.formatFloat a) = some a ∧ L.parseFloat (L.formatFloat b) = some b ∧
      ';' ∉ L.formatFloat a
  | .comp m => M m
  | _ => True

/-- A component all of whose values are safe. -/
structure SafeObj (L : Lib) (zones : List (Str × Nat)) (M : σ → Prop) (o : Obj σ) : Prop where
  one : ∀ k v, o.get k = .one v → SafeVal L zones M v
  many : ∀ k l, o.get k = .many l → ∀ v ∈ l, SafeVal L zones M v

/-- An alarm with safe values. -/
def SafeAlarm (L : Lib) (zones : List (Str × Nat)) (o : Alarm) : Prop := SafeObj L zones (fun _ => True) o

/-- An event or todo with safe values, and with safe alarms. -/
def SafeEntry (L : Lib) (zones : List (Str × Nat)) (o : EntryObj) : Prop := SafeObj L zones (SafeAlarm L zones) o

/-- A calendar with safe events and todos. -/
def SafeCalendar (L : Lib) (zones : List (Str × Nat)) (o : CalObj) : Prop := SafeObj L zones (SafeEntry L zones) o

/-- Lines that keep all they say: the parameters are dictionaries (as after parsing) and not called
`__merge_next`, and there is one attendee per line. -/
structure SafeLines (items : List Item) : Prop where
  params : ∀ cl, .line cl ∈ items → GoodParams cl.params
  attendee : ∀ cl, .line cl ∈ items → cl.name = "ATTENDEE".toList → ',' ∉ cl.value

/-- The items of an alarm: safe lines, and an action that is known. -/
structure SafeAlarmItems (items : List Item) : Prop extends SafeLines items where
  action : ∀ cl, .line cl ∈ items → cl.name = "ACTION".toList →
    String.ofList cl.value ∈ ["DISPLAY", "AUDIO", "NONE", "EMAIL"]

/-- The items of an event or a todo: safe lines, a DTSTAMP (otherwise it is the present time, with
microseconds), an end of an event with no parameters but VALUE and TZID, and safe alarms. -/
structure SafeEntryItems (c : Cls) (items : List Item) : Prop extends SafeLines items where
  stamp : ∃ cl, .line cl ∈ items ∧ cl.name = "DTSTAMP".toList
  endParams : ∀ cl, .line cl ∈ items → cl.name = "DTEND".toList ∨ cl.name = "DUE".toList ∧ c = .event →
    ∀ k ∈ cl.params.map Prod.fst, k = "VALUE".toList ∨ k = "TZID".toList
  alarms : ∀ is, .cont "VALARM".toList is ∈ items → SafeAlarmItems is

/-- The items of a calendar: safe lines, events and todos. -/
structure SafeCalendarItems (items : List Item) : Prop extends SafeLines items where
  events : ∀ is, .cont "VEVENT".toList is ∈ items → SafeEntryItems .event is
  todos : ∀ is, .cont "VTODO".toList is ∈ items → SafeEntryItems .todo is

/-- The offsets of all zones, and that of the system, are whole seconds. -/
def WholeOffsets (L : Lib) : Prop :=
  (∀ n w f, L.off n w f % 1000000 = 0) ∧ ∀ w f, L.sysOff w f % 1000000 = 0

/-- The names of all zones are not empty and have no carriage returns, and numbers are written without line
breaks. -/
structure WritableLib (L : Lib) : Prop where
  zones : ∀ t z, L.conv t = .timezone z → L.tzid z ≠ [] ∧ '\r' ∉ L.tzid z
  floats : ∀ n, NoBreak (L.formatFloat n)

end Ics
