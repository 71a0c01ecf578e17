import Mathlib.Data.List.Forall2
import Verif.Spec.Component

/-
Which components can be written and read back, and what it means that two components are the same.
-/
namespace Ics

variable {σ : Type}

/-! ### Equal components -/

/-- The same wall clock in the same zone; any two zone objects for UTC count as the same. -/
def SameTime (L : Lib) (a b : DT) : Prop :=
  a.wall = b.wall ∧ a.fold = b.fold ∧
    (a.tz = b.tz ∨ ∃ m n, a.tz = some (.zone m) ∧ b.tz = some (.zone n) ∧ L.isUtc m = true ∧ L.isUtc n = true)

/-- Both missing, or the same time. -/
def SameTime? (L : Lib) : Option DT → Option DT → Prop
  | none, none => True
  | some a, some b => SameTime L a b
  | _, _ => False

/-- The same time span. -/
structure SameSpan (L : Lib) (a b : Span) : Prop where
  cls : a.cls = b.cls
  begin : SameTime? L a.begin? b.begin?
  end_ : SameTime? L a.end? b.end?
  dur : a.dur? = b.dur?
  prec : a.prec = b.prec

/-- The same value; `R` says when two members (alarms, events, todos) are the same. -/
inductive SameVal (L : Lib) (R : σ → σ → Prop) : Val σ → Val σ → Prop
  | same (v : Val σ) : SameVal L R v v
  | dt {a b : DT} : SameTime L a b → SameVal L R (.dt a) (.dt b)
  | span {a b : Span} : SameSpan L a b → SameVal L R (.span a) (.span b)
  | comp {a b : σ} : R a b → SameVal L R (.comp a) (.comp b)

/-- The same value of an attribute; lists have the same values in the same order. -/
inductive SameAttr (L : Lib) (R : σ → σ → Prop) : AttrVal σ → AttrVal σ → Prop
  | none : SameAttr L R .none .none
  | one {v w : Val σ} : SameVal L R v w → SameAttr L R (.one v) (.one w)
  | many {l m : List (Val σ)} : List.Forall₂ (SameVal L R) l m → SameAttr L R (.many l) (.many m)

/-- The attributes with at most one value. -/
def oneAttrs : Cls → List String
  | .calendar => ["version", "prodid", "scale", "method"]
  | .event =>
    ["summary", "uid", "description", "location", "url", "status", "created", "last_modified", "dtstamp",
      "classification", "transparent", "organizer", "geo"]
  | .todo =>
    ["summary", "uid", "description", "location", "url", "status", "created", "last_modified", "dtstamp",
      "percent", "priority", "completed"]
  | .audioAlarm => ["trigger", "repeat", "duration", "attach"]
  | .customAlarm => ["trigger", "repeat", "duration", "_action"]
  | .displayAlarm => ["trigger", "repeat", "duration", "description"]
  | .emailAlarm => ["trigger", "repeat", "duration", "summary", "description"]
  | .noneAlarm => ["trigger", "repeat", "duration"]

/-- The attributes that are lists of values. -/
def listAttrs : Cls → List String
  | .event => ["attach", "attendees", "categories"]
  | .todo => ["attach"]
  | .emailAlarm => ["attendees", "attach"]
  | _ => []

/-- The attributes that are lists of components. -/
def memberAttrs : Cls → List String
  | .calendar => ["events", "todos"]
  | .event => ["alarms"]
  | .todo => ["alarms"]
  | _ => []

/-- All attributes. -/
def allAttrs (c : Cls) : List String :=
  (if c = .event ∨ c = .todo then ["timespan"] else []) ++ oneAttrs c ++ listAttrs c ++ memberAttrs c

/-- The keys of the parameters that are not those of a list of values: of the single attributes, of the lists
of components (which have none), of the time span and of the action of an alarm. -/
def oneParamKeys (c : Cls) : List String :=
  (oneAttrs c).map String.toUpper ++ (memberAttrs c).map String.toUpper ++
    (match c with
      | .calendar => []
      | .event => ["BEGIN", "END", "DTEND", "DUE", "DURATION"]
      | .todo => ["BEGIN", "END", "DTEND", "DUE", "DURATION"]
      | _ => ["ACTION"])

/-- Two components of the same class with the same attributes, the same items that were not understood and
the same parameters.  The parameters of a list may be missing in the first; then they are missing in the
second, too, or they say that every value has a line of its own. -/
structure SameObj (L : Lib) (R : σ → σ → Prop) (a b : Obj σ) : Prop where
  cls : a.cls = b.cls
  extraName : a.extraName = b.extraName
  extra : a.extra = b.extra
  attrs : ∀ k ∈ allAttrs a.cls, SameAttr L R (a.get k.toList) (b.get k.toList)
  params : ∀ k ∈ oneParamKeys a.cls, dictGet? a.extraParams k.toList = dictGet? b.extraParams k.toList
  listParams : ∀ k ∈ listAttrs a.cls, ∀ ps, dictGet? a.extraParams k.toUpper.toList = some (.many ps) →
    dictGet? b.extraParams k.toUpper.toList = some (.many ps)
  newParams : ∀ k ∈ listAttrs a.cls, dictGet? a.extraParams k.toUpper.toList = none →
    dictGet? b.extraParams k.toUpper.toList = none ∨
      ∃ l, b.get k.toList = .many l ∧ dictGet? b.extraParams k.toUpper.toList =
        some (.many (l.map fun _ => [("__merge_next".toList, [⟨false, "FALSE".toList⟩])]))

/-! ### Representable components -/

/-- What is assumed about the zone objects for UTC. -/
structure UtcOk (L : Lib) : Prop where
  ics : L.isUtc L.icsUtc = true
  utc : L.isUtc L.utc = true
  off : ∀ n w f, L.isUtc n = true → L.off n w f = 0
  fromUtc : ∀ u, L.fromUtc L.icsUtc u = (u, false)

/-- A zone that the reader knows: none at all, UTC, or one with a name that stands for it. -/
def RepZone (L : Lib) (zones : List (Str × Nat)) : Option Tz → Prop
  | none => True
  | some (.zone n) =>
    L.isUtc n = true ∨ (L.conv (.zone n) = .timezone n ∧ L.tzid n ≠ [] ∧ dictGet? zones (L.tzid n) = some n)
  | _ => False

/-- A whole second of a year that is written with four digits, in a zone that the reader knows. -/
def RepTime (L : Lib) (zones : List (Str × Nat)) (d : DT) : Prop :=
  d.wall % 1000000 = 0 ∧ d.fold = false ∧ 0 ≤ d.wall ∧ d.wall < maxWall ∧
    (L.padYear = true ∨ 364877 * 86400000000 ≤ d.wall) ∧ RepZone L zones d.tz

/-- Whole seconds. -/
def RepDur (us : Int) : Prop := us % 1000000 = 0 ∧ tdMin ≤ us ∧ us ≤ tdMax

/-- A URL that is what its text is read as. -/
def RepUrl (L : Lib) (u : Url) : Prop := urlparse L.urlChecks u.geturl = .ok u

/-- The parameters of a person: a dictionary without VALUE. -/
def RepPerson (extra : Params) : Prop := (extra.map Prod.fst).Nodup ∧ "VALUE".toList ∉ extra.map Prod.fst

/-- A value of one of the types of an attribute that survives being written. -/
def RepVal (L : Lib) (zones : List (Str × Nat)) : ValConv → Val σ → Prop
  | .text, .text _ => True
  | .uri, .url u => RepUrl L u
  | .binary, .bytes _ => True
  | .datetime, .dt d => RepTime L zones d
  | .duration, .dur us => RepDur us
  | .integer, .int n => n.natAbs < 10 ^ 4300
  | .boolean, .bool _ => True
  | .geo, .geo a b => L.parseFloat (L.formatFloat a) = some a ∧ L.parseFloat (L.formatFloat b) = some b ∧
      ';' ∉ L.formatFloat a
  | .organizer, .person false (.url u) extra => RepUrl L u ∧ RepPerson extra
  | .attendee, .person true (.url u) extra => RepUrl L u ∧ RepPerson extra
  | _, _ => False

/-- Parameters that survive being written: none at all or some that do not say how the value is written. -/
def RepParams (reserved : List String) : Option ExtraVal → Prop
  | none => True
  | some (.one p) => p ≠ [] ∧ ∀ k ∈ reserved, k.toList ∉ p.map Prod.fst
  | some (.many _) => False

/-- A single-valued attribute: no value and no parameters, or a value of one of its types that its
validator accepts.  The `uid`, the `dtstamp`, the version and the product id must not be missing. -/
def RepSingle (L : Lib) (zones : List (Str × Nat)) (o : Obj σ) (s : AttrSpec) : Prop :=
  match o.get s.attr with
  | .none => dictGet? o.extraParams (upper s.attr) = none ∧
      s.attr ∉ ["uid", "dtstamp", "version", "prodid"].map String.toList
  | .one v => ∃ c, s.convs.find? (fun c => c.accepts v) = some c ∧ RepVal L zones c v ∧
      s.check.run L (.one v) = .ok (.one v) ∧
      RepParams (if c = .datetime then ["VALUE", "TZID"] else ["VALUE"]) (dictGet? o.extraParams (upper s.attr)) ∧
      (c = .organizer → dictGet? o.extraParams (upper s.attr) = none)
  | .many _ => False

/-- The values of one line of a list, with the parameters of that line: all of the same type; the text of
a URI contains no comma; the address of an attendee contains no comma, there is one attendee in a line, and
the parameters are those of the attendee. -/
structure RepGroup (L : Lib) (zones : List (Str × Nat)) (s : AttrSpec) (p : Params) (vs : List (Val σ)) : Prop where
  nonempty : vs ≠ []
  unique : (p.map Prod.fst).Nodup
  params : "VALUE".toList ∉ p.map Prod.fst ∧ mergeKey ∉ p.map Prod.fst
  same : ∃ c, ∀ v ∈ vs, s.convs.find? (fun c => c.accepts v) = some c ∧ RepVal L zones c v
  url : ∀ u, .url u ∈ vs → ',' ∉ u.geturl
  attendee : ∀ a u x, .person a (.url u) x ∈ vs → ',' ∉ u.geturl ∧ mergeKey ∉ x.map Prod.fst ∧ p = [] ∧ vs.length = 1

/-- A list: the values without any parameters, which puts each of them on a line of its own, or with the
parameters that a list has after it was read (see C49). -/
def RepMulti (L : Lib) (zones : List (Str × Nat)) (o : Obj σ) (s : AttrSpec) : Prop :=
  ∃ groups : List (Params × List (Val σ)), (∀ g ∈ groups, RepGroup L zones s g.1 g.2) ∧
    o.get s.attr = .many (groups.map Prod.snd).flatten ∧
    ((dictGet? o.extraParams (upper s.attr) = none ∧ ∀ g ∈ groups, g.1 = [] ∧ g.2.length = 1) ∨
      (groups ≠ [] ∧ dictGet? o.extraParams (upper s.attr) =
        some (.many (groups.map fun g => (markLast (g.2.map fun v => (v, setMerge g.1 true))).map Prod.snd).flatten)))

/-- A time span: valid, of the class that the component needs, with a precision of days or seconds, or
without begin and end and with the precision `None` (represented by `.other []`, see `postSpan`) that such
a component has after it was read. -/
structure RepSpan (L : Lib) (zones : List (Str × Nat)) (o : Obj σ) (s : Span) : Prop where
  get : o.get "timespan".toList = .one (.span s)
  cls : s.cls = o.cls.spanCls
  valid : L.validate s = .ok ()
  timed : ((s.begin?.isSome ∨ s.end?.isSome) ∧ (s.prec = .day ∨ s.prec = .second)) ∨
    (s.begin? = none ∧ s.end? = none ∧ s.prec = .other [])
  begin : ∀ d, s.begin? = some d → RepTime L zones d
  end_ : ∀ d, s.end? = some d → RepTime L zones d
  dur : ∀ d, s.dur? = some d → RepDur d
  beginParams : RepParams ["VALUE", "TZID"] (dictGet? o.extraParams "BEGIN".toList) ∧
    (s.begin? = none → dictGet? o.extraParams "BEGIN".toList = none)
  endParams : dictGet? o.extraParams "END".toList = none ∧ dictGet? o.extraParams "DTEND".toList = none
  dueParams : RepParams ["VALUE", "TZID"] (dictGet? o.extraParams "DUE".toList) ∧
    (s.end? = none ∨ o.cls ≠ .todo → dictGet? o.extraParams "DUE".toList = none)
  durParams : RepParams [] (dictGet? o.extraParams "DURATION".toList) ∧
    (s.dur? = none → dictGet? o.extraParams "DURATION".toList = none)

/-- A component that can be written and read back; `M` says which members (by attribute) can. -/
structure RepObj (L : Lib) (zones : List (Str × Nat)) (M : Str → σ → Prop) (o : Obj σ) : Prop where
  cls : o.cls ≠ .customAlarm
  name : o.extraName = o.cls.icsName
  extra : ∀ i ∈ o.extra, unhandled o.cls i = true
  single : ∀ s, .value s ∈ o.cls.convs → s.multi = false → RepSingle L zones o s
  multi : ∀ s, .value s ∈ o.cls.convs → s.multi = true → RepMulti L zones o s
  members : ∀ a n, .member a n ∈ o.cls.convs → dictGet? o.extraParams (upper a) = none ∧
    ∃ ms : List σ, o.get a = .many (ms.map .comp) ∧ ∀ m ∈ ms, M a m
  time : .timespan ∈ o.cls.convs → ∃ s, RepSpan L zones o s
  action : .alarmAction ∈ o.cls.convs → RepParams [] (dictGet? o.extraParams "ACTION".toList)

/-- The zone that a reader takes for a TZID: the one of the VTIMEZONE of that name if there is one,
otherwise one that is known by name. -/
def Knows (L : Lib) (zones : List (Str × Nat)) (name : Str) (zone : Nat) : Prop :=
  dictGet? zones name = some zone ∨
    dictGet? zones name = none ∧ (L.fromTzid name = some zone ∨ L.fromTzid name = none ∧ L.gettz name = some zone)

/-! ### Alarms, events, todos and calendars -/

/-- The same alarm, which has no members. -/
def SameAlarm (L : Lib) (a b : Alarm) : Prop := SameObj L (fun _ _ => False) a b

/-- The same event or todo. -/
def SameEntry (L : Lib) (a b : EntryObj) : Prop := SameObj L (SameAlarm L) a b

/-- The same calendar. -/
def SameCalendar (L : Lib) (a b : CalObj) : Prop := SameObj L (SameEntry L) a b

/-- A representable alarm of one of the four standard classes. -/
def RepAlarm (L : Lib) (zones : List (Str × Nat)) (o : Alarm) : Prop :=
  o.cls ∈ [Cls.audioAlarm, .displayAlarm, .emailAlarm, .noneAlarm] ∧ RepObj L zones (fun _ _ => False) o

/-- A representable event or todo. -/
def RepEntry (L : Lib) (zones : List (Str × Nat)) (o : EntryObj) : Prop :=
  (o.cls = .event ∨ o.cls = .todo) ∧ RepObj L zones (fun _ m => RepAlarm L zones m) o

/-- A representable calendar: representable events are events, and representable todos are todos. -/
def RepCalendar (L : Lib) (zones : List (Str × Nat)) (o : CalObj) : Prop :=
  o.cls = .calendar ∧ RepObj L zones (fun a m => RepEntry L zones m ∧
    m.cls = if a = "events".toList then .event else .todo) o

end Ics
