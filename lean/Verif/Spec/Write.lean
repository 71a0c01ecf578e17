import Verif.Model.CalendarText

/-
What a calendar has to look like in order to be written.
-/
namespace Ics

/-- The kinds of values that have a form as text. -/
inductive ValKind where
  | text
  | url
  | bytes
  | time
  | duration
  | int
  | bool
  | geo
  | organizer
  | attendee
deriving DecidableEq, Repr

variable {σ : Type}

/-- The value is of the kind. -/
inductive OfKind : ValKind → Val σ → Prop
  | text {s : Str} : OfKind .text (.text s)
  | url {u : Url} : OfKind .url (.url u)
  | bytes {b : List (Fin 256)} : OfKind .bytes (.bytes b)
  | time {d : DT} : OfKind .time (.dt d)
  | duration {us : Int} : OfKind .duration (.dur us)
  | int {n : Int} : OfKind .int (.int n)
  | bool {b : Bool} : OfKind .bool (.bool b)
  | geo {a b : Nat} : OfKind .geo (.geo a b)
  | organizer {e : Email} {p : Params} : OfKind .organizer (.person false e p)
  | attendee {e : Email} {p : Params} : OfKind .attendee (.person true e p)

/-- The attributes with one value, and the kinds of this value. -/
def loneAttrs (c : Cls) : List (String × List ValKind) :=
  let entry : List (String × List ValKind) := [("summary", [.text]), ("uid", [.text]), ("description", [.text]),
    ("location", [.text]), ("url", [.text, .url]), ("status", [.text]), ("created", [.time]), ("last_modified", [.time]),
    ("dtstamp", [.time])]
  let alarm : List (String × List ValKind) := [("trigger", [.duration, .time]), ("repeat", [.int, .bool]),
    ("duration", [.duration])]
  match c with
  | .calendar => [("version", [.text]), ("prodid", [.text]), ("scale", [.text]), ("method", [.text])]
  | .event => entry ++ [("classification", [.text]), ("transparent", [.bool]), ("organizer", [.organizer]), ("geo", [.geo])]
  | .todo => entry ++ [("percent", [.int, .bool]), ("priority", [.int, .bool]), ("completed", [.time])]
  | .audioAlarm => alarm ++ [("attach", [.url, .bytes])]
  | .customAlarm => alarm ++ [("_action", [.text])]
  | .displayAlarm => alarm ++ [("description", [.text])]
  | .emailAlarm => alarm ++ [("summary", [.text]), ("description", [.text])]
  | .noneAlarm => alarm

/-- The attributes that are lists, and the kinds of the values in them. -/
def listAttrKinds : Cls → List (String × List ValKind)
  | .event => [("attach", [.url, .bytes]), ("attendees", [.attendee]), ("categories", [.text])]
  | .todo => [("attach", [.url, .bytes])]
  | .emailAlarm => [("attendees", [.attendee]), ("attach", [.url, .bytes])]
  | _ => []

/-- The attributes that are lists of components. -/
def memberLists : Cls → List String
  | .calendar => ["events", "todos"]
  | .event => ["alarms"]
  | .todo => ["alarms"]
  | _ => []

/-- All attributes are of the right type; `P` is that for the components in it. -/
structure Typed (P : σ → Prop) (o : Obj σ) : Prop where
  one : ∀ a ks, (a, ks) ∈ loneAttrs o.cls →
    o.get a.toList = .none ∨ ∃ v, o.get a.toList = .one v ∧ ∃ k ∈ ks, OfKind k v
  list : ∀ a ks, (a, ks) ∈ listAttrKinds o.cls → ∃ l, o.get a.toList = .many l ∧ ∀ v ∈ l, ∃ k ∈ ks, OfKind k v
  members : ∀ a ∈ memberLists o.cls, ∃ l, o.get a.toList = .many l ∧ ∀ v ∈ l, ∃ m, v = .comp m ∧ P m
  span : o.cls = .event ∨ o.cls = .todo → ∃ s, o.get "timespan".toList = .one (.span s)
  action : o.cls = .customAlarm → ∃ t, o.get "_action".toList = .one (.text t)

/-- The components in an object. -/
def MemberOf (o : Obj σ) (m : σ) : Prop := ∃ a ∈ memberLists o.cls, ∃ l, o.get a.toList = .many l ∧ .comp m ∈ l

/-- An object has no parameters that are kept besides the attributes; `P` is that for the components in it. -/
def NoParams (P : σ → Prop) (o : Obj σ) : Prop := o.extraParams = [] ∧ ∀ m, MemberOf o m → P m

/-- The times that are written with their time zone; `P` is that for the components in it. -/
inductive WrittenTime (P : σ → DT → Prop) (o : Obj σ) : DT → Prop
  | attr {a : String} {ks : List ValKind} {d : DT} : (a, ks) ∈ loneAttrs o.cls → o.get a.toList = .one (.dt d) → WrittenTime P o d
  | begin {s : Span} {d : DT} : o.cls = .event ∨ o.cls = .todo → o.get "timespan".toList = .one (.span s) →
      s.prec ≠ .day → s.begin? = some d → WrittenTime P o d
  | end {s : Span} {d : DT} : o.cls = .event ∨ o.cls = .todo → o.get "timespan".toList = .one (.span s) →
      s.prec ≠ .day → s.dur? = none → s.end? = some d → WrittenTime P o d
  | member {m : σ} {d : DT} : MemberOf o m → P m d → WrittenTime P o d

/-- The parameters of these names are a list that is not empty. -/
def ListedParams (o : Obj σ) (key : String) : Prop := ∃ p ps, dictGet? o.extraParams key.toList = some (.many (p :: ps))

/-- Some parameters of this name. -/
def SomeParams (o : Obj σ) (key : Str) : Prop :=
  (∃ p, p ≠ [] ∧ dictGet? o.extraParams key = some (.one p)) ∨ ∃ ps, ps ≠ [] ∧ dictGet? o.extraParams key = some (.many ps)

/-! ### The parameters of the values of a list -/

/-- Equal as dictionaries: as many keys, and the same texts for each. -/
def SameDict (p q : Params) : Prop :=
  p.length = q.length ∧ ∀ x ∈ p, ∃ l, dictGet? q x.1 = some l ∧ l.map PVal.text = x.2.map PVal.text

/-- The parameters say that the value is on one line with the next one. -/
def Marked (p : Params) : Prop :=
  ∃ l, dictGet? p "__merge_next".toList = some l ∧ l.map PVal.text = ["TRUE".toList]

/-- The parameters of the line on which the value is written: binary data have a VALUE, and persons have parameters of their
own. -/
def lineParams (v : Val σ) (p : Params) : Params :=
  let p := dictErase p "__merge_next".toList
  match v with
  | .bytes _ => dictSet p "VALUE".toList [⟨false, "BINARY".toList⟩]
  | .person _ _ x => dictUpdate p x
  | _ => p

/-- Values with their parameters that are written on one line: all but the last are marked, and they have the same
parameters as the first. -/
def OnOneLine (g : List (Val σ × Params)) : Prop :=
  ∃ init last, g = init ++ [last] ∧ (∀ x ∈ init, Marked x.2) ∧ ¬ Marked last.2 ∧
    ∀ x rest, g = x :: rest → ∀ y ∈ rest, SameDict (lineParams x.1 x.2) (lineParams y.1 y.2)

/-- The values can be written on lines. -/
def OnLines (l : List (Val σ × Params)) : Prop := ∃ gs : List (List (Val σ × Params)), l = gs.flatten ∧ ∀ g ∈ gs, OnOneLine g

/-- What can be wrong with the parameters of a list. -/
inductive ListFault (values : List (Val σ)) : ExtraVal → PyErr → Prop
  /-- A dictionary, and no list of dictionaries. -/
  | dict {p : Params} : p ≠ [] → p.length = values.length → ListFault values (.one p) .attributeError
  | dictLength {p : Params} : p ≠ [] → p.length ≠ values.length → ListFault values (.one p) .valueError
  /-- The numbers of values and parameters differ. -/
  | length {ps : List Params} : ps ≠ [] → ps.length ≠ values.length → ListFault values (.many ps) .valueError
  /-- Values that are to be on one line have different parameters, or there is nothing to be on one line with. -/
  | lines {ps : List Params} : ps ≠ [] → ps.length = values.length → ¬ OnLines (values.zip ps) →
      ListFault values (.many ps) .valueError

/-- The reasons why an object whose attributes are of the right types cannot be written; `P` is that for the components in
it. -/
inductive WriteFault (L : Lib) (P : σ → PyErr → Prop) (o : Obj σ) : PyErr → Prop
  /-- A number of more than 4300 digits. -/
  | number {a : String} {ks : List ValKind} {n : Int} : (a, ks) ∈ loneAttrs o.cls → o.get a.toList = .one (.int n) →
      10 ^ 4300 ≤ n.natAbs → WriteFault L P o .valueError
  /-- A time in a zone that has no name. -/
  | zone {d : DT} {t : Tz} : WrittenTime (fun _ _ => False) o d → L.dtIsUtc d = false → d.tz = some t → L.conv t = .unserializable →
      WriteFault L P o .valueError
  /-- A list of parameters for an attribute with one value. -/
  | params {a : String} {ks : List ValKind} {v : Val σ} {p : Params} {ps : List Params} : (a, ks) ∈ loneAttrs o.cls →
      o.get a.toList = .one v → dictGet? o.extraParams (upper a.toList) = some (.many (p :: ps)) →
      WriteFault L P o .attributeError
  /-- A list of parameters for the begin, the duration or the end. -/
  | beginParams {s : Span} {b : DT} : o.cls = .event ∨ o.cls = .todo → o.get "timespan".toList = .one (.span s) →
      s.begin? = some b → ListedParams o "BEGIN" → WriteFault L P o .attributeError
  | durationParams {s : Span} {d : Int} : o.cls = .event ∨ o.cls = .todo → o.get "timespan".toList = .one (.span s) →
      s.dur? = some d → ListedParams o "DURATION" → WriteFault L P o .attributeError
  | endParams {s : Span} {d : DT} : o.cls = .event ∨ o.cls = .todo → o.get "timespan".toList = .one (.span s) →
      s.dur? = none → s.end? = some d → ListedParams o (if s.cls = .todo then "DUE" else "DTEND") →
      WriteFault L P o .attributeError
  /-- Parameters for an attribute that is a list, which do not fit the values. -/
  | listParams {a : String} {ks : List ValKind} {values : List (Val σ)} {x : ExtraVal} {e : PyErr} :
      (a, ks) ∈ listAttrKinds o.cls → o.get a.toList = .many values → dictGet? o.extraParams (upper a.toList) = some x →
      ListFault values x e → WriteFault L P o e
  /-- A list of parameters for the action of an alarm. -/
  | actionParams {ps : List Params} : o.cls ∉ [Cls.calendar, .event, .todo] →
      dictGet? o.extraParams "ACTION".toList = some (.many ps) → WriteFault L P o .typeError
  /-- Parameters for the components. -/
  | memberParams {a : String} : a ∈ memberLists o.cls → SomeParams o (upper a.toList) → WriteFault L P o .valueError
  /-- A component that cannot be written. -/
  | member {m : σ} {e : PyErr} : MemberOf o m → P m e → WriteFault L P o e

/-! ### Alarms, events and todos, calendars -/

def TypedAlarm (o : Alarm) : Prop := o.cls ∉ [Cls.calendar, .event, .todo] ∧ Typed (fun m => nomatch m) o
def TypedEntry (o : EntryObj) : Prop := (o.cls = .event ∨ o.cls = .todo) ∧ Typed TypedAlarm o
def TypedCalendar (o : CalObj) : Prop := o.cls = .calendar ∧ Typed TypedEntry o

def AlarmWritten (o : Alarm) : DT → Prop := WrittenTime (fun m _ => nomatch m) o
def EntryWritten (o : EntryObj) : DT → Prop := WrittenTime AlarmWritten o
def CalendarWritten (o : CalObj) : DT → Prop := WrittenTime EntryWritten o

def AlarmWriteFault (L : Lib) (o : Alarm) : PyErr → Prop := WriteFault L (fun m _ => nomatch m) o
def EntryWriteFault (L : Lib) (o : EntryObj) : PyErr → Prop := WriteFault L (AlarmWriteFault L) o

/-- The time zone is used by a time of the calendar. -/
def UsesZone (L : Lib) (o : CalObj) (z : Nat) : Prop :=
  ∃ d t, CalendarWritten o d ∧ L.dtIsUtc d = false ∧ d.tz = some t ∧ L.conv t = .timezone z

/-- The reasons why a calendar cannot be written: besides the above a time zone that cannot be written. -/
inductive CalendarWriteFault (L : Lib) (o : CalObj) : PyErr → Prop
  | own {e : PyErr} : WriteFault L (EntryWriteFault L) o e → CalendarWriteFault L o e
  | zone {z : Nat} {e : PyErr} : UsesZone L o z → L.tzDump z = .error e → CalendarWriteFault L o e

/-- There are no parameters that are kept besides the attributes anywhere in the calendar. -/
def PlainCalendar (o : CalObj) : Prop := NoParams (NoParams (NoParams fun m => nomatch m)) o

/-- All numbers in the object have at most 4300 digits. -/
def SmallNumbers (P : σ → Prop) (o : Obj σ) : Prop :=
  (∀ a ks n, (a, ks) ∈ loneAttrs o.cls → o.get a.toList = .one (.int n) → n.natAbs < 10 ^ 4300) ∧ ∀ m, MemberOf o m → P m

/-- Only alarms are in events and todos, only events and todos are in calendars. -/
def CalendarClasses (o : CalObj) : Prop :=
  o.cls = .calendar ∧ ∀ m, MemberOf o m → (m.cls = .event ∨ m.cls = .todo) ∧
    ∀ n, MemberOf m n → n.cls ∉ [Cls.calendar, .event, .todo]

/-- The attributes of events, todos, alarms and calendars that take any value when they are assigned. -/
def uncheckedAttrs : Cls → List String
  | .calendar => ["scale", "method"]
  | .event => ["summary", "uid", "description", "location", "url", "transparent"]
  | .todo => ["summary", "uid", "description", "location", "url"]
  | .audioAlarm => ["repeat", "attach"]
  | .customAlarm => ["repeat", "_action"]
  | .displayAlarm => ["repeat", "description"]
  | .emailAlarm => ["repeat", "summary", "description"]
  | .noneAlarm => ["repeat"]

/-- `o'` is `o` after the value was assigned to the attribute. -/
def Assigned (L : Lib) (o : Obj σ) (a : String) (v : AttrVal σ) (o' : Obj σ) : Prop :=
  ∃ s, .value s ∈ o.cls.convs ∧ s.attr = a.toList ∧ o.setattr L a.toList s.check v = .ok o'

end Ics
