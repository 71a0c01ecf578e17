import Verif.Spec.Represent

/-
The date-times of a component, the zones they are in, and TZID parameters.
-/
namespace Ics

variable {σ : Type}

/-- A date-time that is written with a TZID: it is in the zone `z`, and that is not UTC. -/
def InZone (L : Lib) (z : Nat) (d : DT) : Prop :=
  (∀ n, d.tz = some (.zone n) → L.isUtc n = false) ∧ ∃ t, d.tz = some t ∧ L.conv t = .timezone z

/-- The date-times of a component: the values of its attributes, start and end of its time span unless it
is a span of whole days (the end only if it is not given by a duration), and those of its members. -/
inductive TimeOf (M : σ → DT → Prop) (o : Obj σ) (d : DT) : Prop
  | single (k : String) : k ∈ oneAttrs o.cls → o.get k.toList = .one (.dt d) → TimeOf M o d
  | list (k : String) (l : List (Val σ)) : k ∈ listAttrs o.cls → o.get k.toList = .many l → .dt d ∈ l → TimeOf M o d
  | begin (s : Span) : o.cls = .event ∨ o.cls = .todo → o.get "timespan".toList = .one (.span s) →
      s.prec ≠ .day → s.begin? = some d → TimeOf M o d
  | end_ (s : Span) : o.cls = .event ∨ o.cls = .todo → o.get "timespan".toList = .one (.span s) →
      s.prec ≠ .day → s.dur? = none → s.end? = some d → TimeOf M o d
  | member (k : String) (l : List (Val σ)) (m : σ) : k ∈ memberAttrs o.cls → o.get k.toList = .many l →
      .comp m ∈ l → M m d → TimeOf M o d

/-- The date-times of an alarm. -/
def AlarmTime (o : Alarm) (d : DT) : Prop := TimeOf (fun _ _ => False) o d

/-- The date-times of an event or todo with its alarms. -/
def EntryTime (o : EntryObj) (d : DT) : Prop := TimeOf AlarmTime o d

/-- The date-times of a calendar. -/
def CalendarTime (o : CalObj) (d : DT) : Prop := TimeOf EntryTime o d

/-- Parameters without TZID. -/
def NoTzid (p : Params) : Prop := "TZID".toList ∉ p.map Prod.fst

/-- A component in which only date-times are written with a TZID: it is not among the parameters that were
not understood, nor among those of a person. -/
structure OnlyTimesTzid (M : σ → Prop) (o : Obj σ) : Prop where
  extra : ∀ cl, LineIn cl o.extra → NoTzid cl.params
  one : ∀ k p, dictGet? o.extraParams k = some (.one p) → NoTzid p
  many : ∀ k ps, dictGet? o.extraParams k = some (.many ps) → ∀ p ∈ ps, NoTzid p
  person : ∀ k ∈ oneAttrs o.cls, ∀ a e x, o.get k.toList = .one (.person a e x) → NoTzid x
  persons : ∀ k ∈ listAttrs o.cls, ∀ l, o.get k.toList = .many l → ∀ a e x, .person a e x ∈ l → NoTzid x
  member : ∀ k ∈ memberAttrs o.cls, ∀ l, o.get k.toList = .many l → ∀ m, .comp m ∈ l → M m

/-- The same for alarms. -/
def AlarmTzid (o : Alarm) : Prop := OnlyTimesTzid (fun _ => True) o

/-- The same for events and todos. -/
def EntryTzid (o : EntryObj) : Prop := OnlyTimesTzid AlarmTzid o

/-- The same for calendars. -/
def CalendarTzid (o : CalObj) : Prop := OnlyTimesTzid EntryTzid o

/-- A calendar whose parts have their usual names: what is in `extra` is not understood by calendars, and
events and todos are called VEVENT and VTODO. -/
structure UsualNames (o : CalObj) : Prop where
  extra : ∀ i ∈ o.extra, unhandled .calendar i = true
  events : ∀ l, o.get "events".toList = .many l → ∀ m, .comp m ∈ l → m.extraName = "VEVENT".toList
  todos : ∀ l, o.get "todos".toList = .many l → ∀ m, .comp m ∈ l → m.extraName = "VTODO".toList

/-- A VTIMEZONE with the given TZID. -/
def DefinesZone (n : Str) (i : Item) : Prop :=
  ∃ is p, i = .cont "VTIMEZONE".toList is ∧ named "TZID" is = [.line ⟨"TZID".toList, p, escapeText n⟩]

/-- What is assumed about writing zones: the result is a VTIMEZONE with the TZID of the zone. -/
def ZonesDefine (L : Lib) : Prop := ∀ z i, L.tzDump z = .ok i → DefinesZone (L.tzid z) i

/-- Among the items of a calendar there is exactly one VTIMEZONE with this TZID, with no event or todo
before it, and it satisfies `P`. -/
def DefinedOnce (n : Str) (P : Item → Prop) (items : List Item) : Prop :=
  ∃ pre x post, items = pre ++ x :: post ∧ DefinesZone n x ∧ P x ∧ (∀ y ∈ pre ++ post, ¬DefinesZone n y) ∧
    ∀ y ∈ pre, y.name ≠ "VEVENT".toList ∧ y.name ≠ "VTODO".toList

end Ics
