import Verif.Spec.Timespan
import Verif.Spec.Component
import Mathlib.Data.List.Forall2

/-
What is in a written component, in which order and how often.
-/
namespace Ics

variable {σ : Type}

/-- A place in a written component. -/
inductive Slot where
  /-- a line for an attribute with one value -/
  | one (attr line : String)
  /-- the lines for an attribute with a list of values -/
  | list (attr line : String)
  /-- the components in the component -/
  | members (attr : String)
  /-- the lines about the time -/
  | time
  /-- the action of an alarm -/
  | action
  /-- the time zones -/
  | zones
deriving DecidableEq, Repr

/-- The places of the components, in their order. -/
def layout (c : Cls) : List Slot :=
  let entry := [.time, .one "summary" "SUMMARY", .one "uid" "UID", .one "description" "DESCRIPTION",
    .one "location" "LOCATION", .one "url" "URL", .one "status" "STATUS", .one "created" "CREATED",
    .one "last_modified" "LAST-MODIFIED", .one "dtstamp" "DTSTAMP", .members "alarms", .list "attach" "ATTACH"]
  let alarm := [.action, .one "trigger" "TRIGGER", .one "repeat" "REPEAT", .one "duration" "DURATION"]
  match c with
  | .calendar => [.one "version" "VERSION", .one "prodid" "PRODID", .one "scale" "SCALE", .one "method" "METHOD", .zones,
      .members "events", .members "todos"]
  | .event => entry ++ [.one "classification" "CLASSIFICATION", .one "transparent" "TRANSPARENT",
      .one "organizer" "ORGANIZER", .one "geo" "GEO", .list "attendees" "ATTENDEE", .list "categories" "CATEGORIES"]
  | .todo => entry ++ [.one "percent" "PERCENT", .one "priority" "PRIORITY", .one "completed" "COMPLETED"]
  | .audioAlarm => alarm ++ [.one "attach" "ATTACH"]
  | .customAlarm => alarm ++ [.one "_action" "ACTION"]
  | .displayAlarm => alarm ++ [.one "description" "DESCRIPTION"]
  | .emailAlarm => alarm ++ [.one "summary" "SUMMARY", .one "description" "DESCRIPTION", .list "attendees" "ATTENDEE",
      .list "attach" "ATTACH"]
  | .noneAlarm => alarm

/-- A line of this name. -/
def LineOf (n : String) (i : Item) : Prop := ∃ p t, i = .line ⟨n.toList, p, t⟩

/-- One line of this name if the condition holds, and nothing otherwise. -/
def LineIf (c : Bool) (n : String) (is : List Item) : Prop :=
  (c = true ∧ ∃ i, is = [i] ∧ LineOf n i) ∨ (c = false ∧ is = [])

/-- What the standard alarms do. -/
def actionText : Cls → Option String
  | .audioAlarm => some "AUDIO"
  | .displayAlarm => some "DISPLAY"
  | .emailAlarm => some "EMAIL"
  | .noneAlarm => some "NONE"
  | _ => none

/-- What is in the places: `Z` is what is written for a time zone, `P` what is written for a component in it. -/
inductive Holds (Z : Item → Prop) (P : σ → Item → Prop) (o : Obj σ) : Slot → List Item → Prop
  | absent {a l : String} : o.get a.toList = .none → Holds Z P o (.one a l) []
  | present {a l : String} {v : Val σ} {i : Item} : o.get a.toList = .one v → LineOf l i → Holds Z P o (.one a l) [i]
  /-- At least one line if there are values, and one for each unless parameters of them say otherwise. -/
  | list {a l : String} {vs : List (Val σ)} {is : List Item} : o.get a.toList = .many vs → (∀ i ∈ is, LineOf l i) →
      (vs ≠ [] → is ≠ []) → is.length ≤ vs.length →
      (dictGet? o.extraParams (extraKey a.toList) = none → is.length = vs.length) → Holds Z P o (.list a l) is
  | members {a : String} {ms : List σ} {is : List Item} : o.get a.toList = .many (ms.map .comp) → List.Forall₂ P ms is →
      Holds Z P o (.members a) is
  /-- When it begins, and then when it ends or how long it takes. -/
  | time {s : Span} {b e d : List Item} : o.get "timespan".toList = .one (.span s) → LineIf s.begin?.isSome "DTSTART" b →
      LineIf (s.end?.isSome && s.dur?.isNone) (if s.cls = .todo then "DUE" else "DTEND") e →
      LineIf s.dur?.isSome "DURATION" d → Holds Z P o .time (b ++ e ++ d)
  | action {p : Params} {t : Str} : (∀ x, actionText o.cls = some x → t = x.toList) →
      Holds Z P o .action [.line ⟨"ACTION".toList, p, t⟩]
  | zones {is : List Item} : (∀ i ∈ is, Z i) → Holds Z P o .zones is

/-- A written component: the places of its class in their order, and then the items of `extra`. -/
def Laid (Z : Item → Prop) (P : σ → Item → Prop) (o : Obj σ) (i : Item) : Prop :=
  ∃ parts, i = .cont o.extraName (parts.flatten ++ o.extra) ∧ List.Forall₂ (Holds Z P o) (layout o.cls) parts

def AlarmLaid (o : Alarm) (i : Item) : Prop := Laid (fun _ => False) (fun m _ => nomatch m) o i

def EntryLaid (o : EntryObj) (i : Item) : Prop := Laid (fun _ => False) AlarmLaid o i

def CalendarLaid (L : Lib) (o : CalObj) (i : Item) : Prop := Laid (fun i => ∃ z, L.tzDump z = .ok i) EntryLaid o i

/-! ### What RFC 5545 demands -/

/-- The number of lines with this name. -/
def lineCount (n : String) (is : List Item) : Nat :=
  is.countP fun
    | .line cl => cl.name = n.toList
    | .cont _ _ => false

/-- RFC 5545, section 3.6.1, for the properties the program knows under their names. -/
structure RfcEvent (is : List Item) : Prop where
  once : ∀ n ∈ ["UID", "DTSTAMP"], lineCount n is = 1
  most : ∀ n ∈ ["DTSTART", "CREATED", "DESCRIPTION", "GEO", "LAST-MODIFIED", "LOCATION", "ORGANIZER", "STATUS", "SUMMARY",
    "URL"], lineCount n is ≤ 1
  either : lineCount "DTEND" is + lineCount "DURATION" is ≤ 1
  noDue : lineCount "DUE" is = 0

/-- RFC 5545, section 3.6.2, likewise. -/
structure RfcTodo (is : List Item) : Prop where
  once : ∀ n ∈ ["UID", "DTSTAMP"], lineCount n is = 1
  most : ∀ n ∈ ["DTSTART", "COMPLETED", "CREATED", "DESCRIPTION", "LAST-MODIFIED", "LOCATION", "PRIORITY", "STATUS",
    "SUMMARY", "URL"], lineCount n is ≤ 1
  either : lineCount "DUE" is + lineCount "DURATION" is ≤ 1
  start : lineCount "DURATION" is = 1 → lineCount "DTSTART" is = 1
  noEnd : lineCount "DTEND" is = 0

/-- RFC 5545, section 3.6.6: the properties required of each kind of alarm, and that DURATION and REPEAT come together. -/
structure RfcAlarm (c : Cls) (is : List Item) : Prop where
  action : lineCount "ACTION" is = 1
  trigger : lineCount "TRIGGER" is = 1
  together : lineCount "DURATION" is = lineCount "REPEAT" is
  description : c = .displayAlarm ∨ c = .emailAlarm → lineCount "DESCRIPTION" is = 1
  summary : c = .emailAlarm → lineCount "SUMMARY" is = 1
  attendee : c = .emailAlarm → 1 ≤ lineCount "ATTENDEE" is
  attach : c = .audioAlarm → lineCount "ATTACH" is ≤ 1

end Ics
