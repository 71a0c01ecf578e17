import Verif.Spec.Accepts
import Verif.Spec.ReadText

/-
What the lines of a calendar say about people, places, attachments and alarms, and about the calendar itself.
-/
namespace Ics

/-- Pieces with commas between them. -/
inductive Pieces : Str → List Str → Prop
  | one {v : Str} : ',' ∉ v → Pieces v [v]
  | more {v w : Str} {l : List Str} : ',' ∉ v → Pieces w l → Pieces (v ++ ',' :: w) (v :: l)

/-- The line has the parameter `VALUE=ty`. -/
def HasType (cl : ContentLine) (ty : String) : Prop := ∃ q, dictGet? cl.params "VALUE".toList = some [⟨q, ty.toList⟩]

/-- The parameter VALUE of the line, if it has one, is `ty`. -/
def OnlyType (cl : ContentLine) (ty : String) : Prop := ∀ v, dictGet? cl.params "VALUE".toList = some [v] → v.text = ty.toList

/-- The value `v` is what the lines `name` of a component say, one after the other. -/
def GivenAll {σ : Type} (items : List Item) (name : String) (P : ContentLine → List (Val σ) → Prop) (v : AttrVal σ) : Prop :=
  ∃ (lines : List ContentLine) (groups : List (List (Val σ))),
    (items.filter fun i => i.name = name.toList) = lines.map .line ∧ List.Forall₂ P lines groups ∧ v = .many groups.flatten

/-- The organizer: an address, with the parameters of the line. -/
def SaysOrganizer {σ : Type} (L : Lib) (cl : ContentLine) (v : AttrVal σ) : Prop :=
  OnlyType cl "ORGANIZER" ∧ ∃ u, urlparse L.urlChecks cl.value = .ok u ∧
    v = .one (.person false (.url u) (dictErase cl.params "VALUE".toList))

/-- Attendees: addresses with commas between them.  The first one gets all the parameters of the line, the others only a mark
that there was one before. -/
def SaysAttendees {σ : Type} (L : Lib) (cl : ContentLine) (vs : List (Val σ)) : Prop :=
  OnlyType cl "ATTENDEE" ∧ ∃ l u us, Pieces cl.value l ∧ List.Forall₂ (fun t u => urlparse L.urlChecks t = .ok u) l (u :: us) ∧
    vs = .person true (.url u) (dictErase cl.params "VALUE".toList) ::
      us.map fun u => .person true (.url u) [("__merge_next".toList, [⟨false, "TRUE".toList⟩])]

/-- A place: latitude and longitude. -/
def SaysGeo {σ : Type} (L : Lib) (cl : ContentLine) (v : AttrVal σ) : Prop :=
  ∃ a b x y, cl.value = a ++ ';' :: b ∧ ';' ∉ a ∧ L.parseFloat a = some x ∧ L.parseFloat b = some y ∧ v = .one (.geo x y)

/-- An attachment: bytes in base 64 with `VALUE=BINARY`, otherwise an address. -/
def SaysFile {σ : Type} (L : Lib) (cl : ContentLine) (t : Str) (v : Val σ) : Prop :=
  (HasType cl "BINARY" ∧ ∃ b, b64decode t = .ok b ∧ v = .bytes b) ∨
    (¬ HasType cl "BINARY" ∧ ∃ u, urlparse L.urlChecks t = .ok u ∧ v = .url u)

/-- Attachments with commas between them. -/
def SaysFiles {σ : Type} (L : Lib) (cl : ContentLine) (vs : List (Val σ)) : Prop :=
  ∃ l, Pieces cl.value l ∧ List.Forall₂ (SaysFile L cl) l vs

/-- A duration. -/
def SaysDuration {σ : Type} (cl : ContentLine) (v : AttrVal σ) : Prop :=
  ∃ n, LooseDuration cl.value n ∧ v = .one (.dur (n * 1000000))

/-- When an alarm goes off: a moment with `VALUE=DATE-TIME`, otherwise a duration. -/
def SaysTrigger {σ : Type} (Z : Str → Nat → Prop) (utc : Nat) (cl : ContentLine) (v : AttrVal σ) : Prop :=
  (HasType cl "DATE-TIME" ∧ SaysMoment Z utc cl v) ∨ (¬ HasType cl "DATE-TIME" ∧ SaysDuration cl v)

/-- The kind of alarm that the value of ACTION stands for. -/
def ActionOf (action : Str) (c : Cls) : Prop :=
  (action, c) ∈ [("DISPLAY".toList, .displayAlarm), ("AUDIO".toList, .audioAlarm), ("NONE".toList, .noneAlarm),
      ("EMAIL".toList, Cls.emailAlarm)] ∨
    action ∉ ["DISPLAY".toList, "AUDIO".toList, "NONE".toList, "EMAIL".toList] ∧ c = .customAlarm

/-- Kind and values of an alarm are those that its lines say. -/
structure AlarmSaid (L : Lib) (Z : Str → Nat → Prop) (items : List Item) (a : Alarm) : Prop where
  action : ∃ cl, (items.filter fun i => i.name = "ACTION".toList) = [.line cl] ∧ ActionOf cl.value a.cls
  trigger : Given items "TRIGGER" (SaysTrigger Z L.utc) .none (a.get "trigger".toList)
  again : Given items "REPEAT" (fun cl v => ∃ n, IntSays cl.value n ∧ v = .one (.int n)) .none (a.get "repeat".toList)
  duration : Given items "DURATION" SaysDuration .none (a.get "duration".toList)
  custom : a.cls = .customAlarm → Given items "ACTION" SaysText .none (a.get "_action".toList)
  audio : a.cls = .audioAlarm →
    Given items "ATTACH" (fun cl v => ∃ x, SaysFile L cl cl.value x ∧ v = .one x) .none (a.get "attach".toList)
  description : a.cls = .displayAlarm ∨ a.cls = .emailAlarm →
    Given items "DESCRIPTION" SaysText .none (a.get "description".toList)
  summary : a.cls = .emailAlarm → Given items "SUMMARY" SaysText .none (a.get "summary".toList)
  attendees : a.cls = .emailAlarm → GivenAll items "ATTENDEE" (SaysAttendees L) (a.get "attendees".toList)
  attach : a.cls = .emailAlarm → GivenAll items "ATTACH" (SaysFiles L) (a.get "attach".toList)

/-- Attachments and alarms of an event or todo are those that its lines and components say. -/
structure PartsSaid (L : Lib) (Z : Str → Nat → Prop) (items : List Item) (o : EntryObj) : Prop where
  attach : GivenAll items "ATTACH" (SaysFiles L) (o.get "attach".toList)
  alarms : ∃ as : List Alarm, o.get "alarms".toList = .many (as.map .comp) ∧
    List.Forall₂ (fun i a => ∃ is, i = .cont "VALARM".toList is ∧ AlarmSaid L Z is a) (named "VALARM" items) as

/-- Organizer, place and attendees of an event are those that its lines say. -/
structure PeopleSaid (L : Lib) (items : List Item) (o : EntryObj) : Prop where
  organizer : Given items "ORGANIZER" (SaysOrganizer L) .none (o.get "organizer".toList)
  geo : Given items "GEO" (SaysGeo L) .none (o.get "geo".toList)
  attendees : GivenAll items "ATTENDEE" (SaysAttendees L) (o.get "attendees".toList)

/-- The values of a calendar are those that its lines say; two of them must be given. -/
structure CalendarSaid (items : List Item) (o : CalObj) : Prop where
  version : ∃ cl, .line cl ∈ items ∧ cl.name = "VERSION".toList ∧ SaysText cl (o.get "version".toList)
  prodid : ∃ cl, .line cl ∈ items ∧ cl.name = "PRODID".toList ∧ SaysText cl (o.get "prodid".toList)
  scale : Given items "SCALE" SaysText .none (o.get "scale".toList)
  method : Given items "METHOD" SaysText .none (o.get "method".toList)

end Ics
