import Verif.Model.Component

/-
How the converters of a class are found from the definition of the class, and in which order they are
registered.
-/
namespace Ics

/-! ### Types and definitions of attributes -/

/-- The classes that occur in the type annotations of components
(/repo/src/ics/event.py:56-70, 253-266, todo.py:23-29, alarm.py:34-97, icalendar.py:17-32,
timezone/__init__.py:103-108, 131-134, component.py:18-26) or that have a value converter (valuetype/*.py). -/
inductive TypeName where
  | str | url | bytes | bytearray | bool | int | float | datetime | date | time | utcOffset | timedelta
  | timespan | eventTimespan | todoTimespan | geo | organizer | attendee | rruleset | container | dict
  | baseAlarm | audioAlarm | customAlarm | displayAlarm | emailAlarm | noneAlarm
  | event | todo | calendar
  | observance | standard | daylight | timezone
deriving DecidableEq, Repr

/-- A type annotation (/repo/src/ics/converter/base.py:261-288): `None`, a class, a `Union` (also `Optional`)
with its arguments, `List[...]` and `List` without an argument.  Simplified: other generic types do not occur. -/
inductive PyType where
  | none
  | cls (t : TypeName)
  | union (args : List PyType)
  | list (elem : PyType)
  | bareList

/-- An attribute of a class as `attr.ib` defines it: name, type, whether it is an argument of `__init__`,
whether it has a default value, the entries `ics_ignore`, `ics_type`, `ics_name`, `ics_priority` and
`ics_required` of its metadata (/repo/src/ics/converter/base.py:133-144, 222-227, 252, value.py:39), and what
happens on assignment.  Simplified: `ics_converter` (base.py:224-226), which no class uses, is left out. -/
structure AttrDecl where
  name : Str
  type : Option PyType
  init : Bool := true
  hasDefault : Bool := true
  ignore : Option Bool := none
  icsType : Option PyType := none
  icsName : Option Str := none
  priority : Option Int := none
  required : Option Bool := none
  check : Check := .any

/-! ### Value converters -/

/-- The instances of `ValueConverter` (/repo/src/ics/valuetype/generic.py:44, 94, 123, 152, 187, text.py:38, 128,
datetime.py:165, 194, 227, 288, 373, 441, special.py:43, 84, 97); `CalendarUserAddressConverterClass`
(generic.py:196) is never instantiated. -/
inductive VConv where
  | binary | boolean | integer | float | uri | rawText | text | datetime | date | time | utcOffset | duration
  | period | geo | organizer | attendee
deriving DecidableEq, Repr

/-- `python_type` (/repo/src/ics/valuetype/generic.py:24, 54, 103, 132, 164, text.py:18, 47, datetime.py:145, 174,
205, 236, 297, 382, special.py:20, 80, 93). -/
def VConv.pythonType : VConv → TypeName
  | .binary => .bytes
  | .boolean => .bool
  | .integer => .int
  | .float => .float
  | .uri => .url
  | .rawText => .str
  | .text => .str
  | .datetime => .datetime
  | .date => .date
  | .time => .time
  | .utcOffset => .utcOffset
  | .duration => .timedelta
  | .period => .timespan
  | .geo => .geo
  | .organizer => .organizer
  | .attendee => .attendee

/-- `ics_type` (/repo/src/ics/valuetype/generic.py:20, 50, 99, 128, 160, text.py:14, 43, datetime.py:141, 170, 201,
232, 293, 378, special.py:16, 76, 89). -/
def VConv.icsType : VConv → String
  | .binary => "BINARY"
  | .boolean => "BOOLEAN"
  | .integer => "INTEGER"
  | .float => "FLOAT"
  | .uri => "URI"
  | .rawText => "RAWTEXT"
  | .text => "TEXT"
  | .datetime => "DATE-TIME"
  | .date => "DATE"
  | .time => "TIME"
  | .utcOffset => "UTC-OFFSET"
  | .duration => "DURATION"
  | .period => "PERIOD"
  | .geo => "X-GEO"
  | .organizer => "ORGANIZER"
  | .attendee => "ATTENDEE"

/-! ### Unwrapping types -/

/-- `v not in NoneTypes` (/repo/src/ics/converter/base.py:24, 275). -/
def PyType.notNone : PyType → Bool
  | .none => false
  | _ => true

/-- `unwrap_type` (/repo/src/ics/converter/base.py:261-288): whether the attribute is a list, and
`value_types`.  `value_type` is left out: it is the only one of `value_types` or their `Union`. -/
def unwrapType : PyType → Except PyErr (Bool × List PyType)
  | .union args =>
    match args.filter PyType.notNone with
    | [] => .error .indexError
    | vs => .ok (false, vs)
  | .list elem => do
    let (multi, vs) ← unwrapType elem
    if multi then .error .assertionError else .ok (true, vs)
  | .bareList => .error .indexError
  | t => .ok (false, [t])

/-- `extract_attr_type` (/repo/src/ics/converter/base.py:243-258). -/
def extractAttrType (a : AttrDecl) : Except PyErr (Bool × List PyType) :=
  match a.icsType <|> a.type with
  | some t => unwrapType t
  | none => .error .valueError

/-! ### Converters -/

/-- The kinds of converters: `AttributeValueConverter` with its value converters (/repo/src/ics/converter/value.py:14),
`MemberComponentConverter` with the `NAME` of the component (component.py:26), `TimespanConverter`
(types/timespan.py:28), `RecurrenceConverter` (types/various.py:31), `TimezoneObservanceMemberMeta`
(types/timezone.py:37), `AlarmActionConverter` (types/various.py:99), `CalendarTimezoneConverter`
(types/calendar.py:56). -/
inductive DKind where
  | value (convs : List VConv)
  | member (name : Str)
  | timespan
  | recurrence
  | observances
  | alarmAction
  | calendarTimezone
deriving DecidableEq, Repr

/-- A converter with what `__attrs_post_init__` stores in it (/repo/src/ics/converter/base.py:110-148):
attribute, `ics_name` (value.py:37-42), `is_multi_value`, `is_required`, `priority`, and the check of the
attribute.  `AlarmActionConverter` and `CalendarTimezoneConverter` have no attribute; for them the name is empty. -/
structure Derived where
  kind : DKind
  attr : Str := []
  ics : Str := []
  multi : Bool := false
  required : Bool := false
  priority : Int := 0
  check : Check := .any
deriving DecidableEq, Repr

/-- `filter_ics_names` (/repo/src/ics/converter/value.py:44-46, component.py:38-40, types/timespan.py:33-35,
types/various.py:32-34, 106-108, types/timezone.py:38-40, types/calendar.py:61-63). -/
def Derived.names (d : Derived) : List Str :=
  match d.kind with
  | .value _ => [d.ics]
  | .member name => [name]
  | .timespan => ["DTSTART".toList, "DTEND".toList, "DUE".toList, "DURATION".toList]
  | .recurrence => ["RRULE".toList, "RDATE".toList, "EXRULE".toList, "EXDATE".toList, "DTSTART".toList]
  | .observances => ["STANDARD".toList, "DAYLIGHT".toList]
  | .alarmAction => ["ACTION".toList]
  | .calendarTimezone => ["VTIMEZONE".toList]

/-- `ics_name` (/repo/src/ics/converter/value.py:37-42); an empty name in the metadata counts as none. -/
def icsNameOf (a : AttrDecl) : Str :=
  match a.icsName with
  | some (c :: s) => c :: s
  | _ =>
    let s := (upper a.name).map fun c => if c = '_' then '-' else c
    ((s.dropWhile (· = '-')).reverse.dropWhile (· = '-')).reverse

/-- `is_required` (/repo/src/ics/converter/base.py:134-144). -/
def isRequired (a : AttrDecl) : Bool :=
  match a.required with
  | some b => b
  | none => a.init && !a.hasDefault

/-! ### The registered converters -/

/-- The subclass of `ComponentMeta` that is registered for a class (/repo/src/ics/__init__.py:39-40,
converter/types/various.py:158-163, types/timezone.py:77-84, types/calendar.py:76).  Those that differ
neither in `find_converters` nor in `__call__` are not distinguished. -/
inductive MetaKind where
  | plain
  | alarm
  | calendar
  | observance
deriving DecidableEq, Repr

/-- An entry of `ComponentMeta.BY_TYPE` (/repo/src/ics/converter/component.py:60-77): the kind of the meta
class, the `NAME` of the component and `converters`. -/
structure Meta where
  kind : MetaKind
  name : Str
  converters : List Derived
deriving Repr

/-- `ComponentMeta.BY_TYPE`, `AttributeConverter.BY_TYPE` and `ValueConverter.BY_TYPE`
(/repo/src/ics/converter/component.py:68, base.py:105, valuetype/base.py:13). -/
structure Registry where
  metas : List (TypeName × Meta) := []
  attrs : List (TypeName × DKind) := []
  values : List (TypeName × VConv) := []

/-- `ValueConverter.BY_TYPE.get` for every type (/repo/src/ics/converter/value.py:27-35). -/
def valueConverters (r : Registry) : List PyType → Except PyErr (List VConv)
  | [] => .ok []
  | .cls t :: ts =>
    match dictGet? r.values t with
    | some c => do
      let cs ← valueConverters r ts
      .ok (c :: cs)
    | none => .error .valueError
  | _ :: _ => .error .valueError

/-- `default_priority` (/repo/src/ics/converter/base.py:195-197, types/timespan.py:29-31). -/
def DKind.defaultPriority : DKind → Int
  | .timespan => 1000
  | _ => 0

/-- The instance of an `AttributeConverter` for an attribute (/repo/src/ics/converter/base.py:127-148). -/
def mkDerived (a : AttrDecl) (multi : Bool) (k : DKind) : Derived :=
  { kind := k, attr := a.name, ics := icsNameOf a, multi := multi, required := isRequired a,
    priority := a.priority.getD k.defaultPriority, check := a.check }

/-- `ComponentMeta.__call__` (/repo/src/ics/converter/component.py:115-119, types/timezone.py:72-74). -/
def Meta.call (m : Meta) : DKind :=
  match m.kind with
  | .observance => .observances
  | _ => .member m.name

/-- The special converter for a single type: that of a component, or an explicitly registered one
(/repo/src/ics/converter/base.py:228-236). -/
def specialKind (r : Registry) : List PyType → Option DKind
  | [.cls t] =>
    match dictGet? r.metas t with
    | some m => some m.call
    | none => dictGet? r.attrs t
  | _ => none

/-- `get_converter_for` (/repo/src/ics/converter/base.py:207-240). -/
def getConverterFor (r : Registry) (a : AttrDecl) : Except PyErr (Option Derived) :=
  if a.ignore.getD (!a.init) then .ok none
  else do
    let (multi, vs) ← extractAttrType a
    match specialKind r vs with
    | some k => .ok (some (mkDerived a multi k))
    | none => do
      let cs ← valueConverters r vs
      .ok (some (mkDerived a multi (.value cs)))

/-- The converters of the attributes of a class, in their order (/repo/src/ics/converter/component.py:110-113,
types/various.py:131-141). -/
def attrConverters (r : Registry) : List AttrDecl → Except PyErr (List Derived)
  | [] => .ok []
  | a :: as => do
    let d ← getConverterFor r a
    let ds ← attrConverters r as
    .ok (d.toList ++ ds)

/-- One step of sorting: a converter goes before those of the same or a lower priority
(`sorted(..., reverse=True)` keeps the order of converters with the same priority,
/repo/src/ics/converter/base.py:298). -/
def insertConv (d : Derived) : List Derived → List Derived
  | [] => [d]
  | x :: l => if x.priority ≤ d.priority then d :: x :: l else x :: insertConv d l

/-- `sort_converters` (/repo/src/ics/converter/base.py:291-298), by insertion from the end: the same as any stable
sorting. -/
def sortConverters (l : List Derived) : List Derived := l.foldr insertConv []

/-- `find_converters` (/repo/src/ics/converter/component.py:105-113, types/various.py:131-141,
types/calendar.py:20-23), with the priorities of types/various.py:102-104 and types/calendar.py:57-59. -/
def findConverters (r : Registry) (k : MetaKind) (attrs : List AttrDecl) : Except PyErr (List Derived) := do
  let ds ← attrConverters r attrs
  match k with
  | .alarm => .ok (sortConverters (ds ++ [{ kind := .alarmAction, priority := 1000 }]))
  | .calendar => .ok (sortConverters (sortConverters ds ++ [{ kind := .calendarTimezone, priority := 600 }]))
  | _ => .ok (sortConverters ds)

/-- The loop that fills `converter_lookup` (/repo/src/ics/converter/component.py:80, 83-85). -/
def lookupAdd (d : Derived) : List Str → List (Str × List Derived) → List (Str × List Derived)
  | [], t => t
  | n :: ns, t => lookupAdd d ns (dictSet t n ((dictGet? t n).getD [] ++ [d]))

/-- `converter_lookup` (/repo/src/ics/converter/component.py:80-85, 97-101). -/
def buildLookup : List Derived → List (Str × List Derived) → List (Str × List Derived)
  | [], t => t
  | d :: ds, t => buildLookup ds (lookupAdd d d.names t)

/-! ### The classes -/

/-- The attributes of `Component` (/repo/src/ics/component.py:18-26). -/
def componentDecls : List AttrDecl :=
  [{ name := "extra".toList, type := some (.cls .container), init := false, hasDefault := false, ignore := some true },
    { name := "extra_params".toList, type := some (.cls .dict), init := false, ignore := some true }]

/-- `Optional[t]` (/repo/src/ics/event.py:57). -/
def optional (t : TypeName) : PyType := .union [.cls t, .none]

/-- The attributes of `CalendarEntryAttrs` (/repo/src/ics/event.py:56-70). -/
def entryDecls : List AttrDecl :=
  componentDecls ++
  [{ name := "timespan".toList, type := some (.cls .timespan), hasDefault := false },
    { name := "summary".toList, type := some (optional .str) },
    { name := "uid".toList, type := some (.cls .str) },
    { name := "description".toList, type := some (optional .str) },
    { name := "location".toList, type := some (optional .str) },
    { name := "url".toList, type := some (.union [.none, .cls .str, .cls .url]) },
    { name := "status".toList, type := some (optional .str), check := .status },
    { name := "created".toList, type := some (optional .datetime), check := .utc },
    { name := "last_modified".toList, type := some (optional .datetime), check := .utc },
    { name := "dtstamp".toList, type := some (.cls .datetime), check := .utcRequired },
    { name := "alarms".toList, type := some (.list (.cls .baseAlarm)), check := .list },
    { name := "attach".toList, type := some (.list (.union [.cls .url, .cls .bytes])), check := .list }]

/-- The attributes of `EventAttrs` (/repo/src/ics/event.py:253-266). -/
def eventDecls : List AttrDecl :=
  entryDecls ++
  [{ name := "classification".toList, type := some (optional .str), check := .strOpt },
    { name := "transparent".toList, type := some (optional .bool) },
    { name := "organizer".toList, type := some (optional .organizer), check := .organizerOpt },
    { name := "geo".toList, type := some (optional .geo), check := .geo },
    { name := "attendees".toList, type := some (.list (.cls .attendee)), icsName := some "ATTENDEE".toList, check := .list },
    { name := "categories".toList, type := some (.list (.cls .str)), check := .list }]

/-- The attributes of `TodoAttrs` (/repo/src/ics/todo.py:23-29). -/
def todoDecls : List AttrDecl :=
  entryDecls ++
  [{ name := "percent".toList, type := some (optional .int), check := .range 100 },
    { name := "priority".toList, type := some (optional .int), check := .range 9 },
    { name := "completed".toList, type := some (optional .datetime), check := .datetime }]

/-- The attributes of `BaseAlarm` (/repo/src/ics/alarm.py:34-38). -/
def alarmDecls : List AttrDecl :=
  componentDecls ++
  [{ name := "trigger".toList, type := some (.union [.cls .timedelta, .cls .datetime, .none]), check := .trigger },
    { name := "repeat".toList, type := some (.cls .int) },
    { name := "duration".toList, type := some (.cls .timedelta), check := .timedelta }]

/-- The attributes of `CalendarAttrs` (/repo/src/ics/icalendar.py:17-32). -/
def calendarDecls : List AttrDecl :=
  componentDecls ++
  [{ name := "version".toList, type := some (.cls .str), hasDefault := false, priority := some 1000, check := .str },
    { name := "prodid".toList, type := some (.cls .str), hasDefault := false, priority := some 900, check := .str },
    { name := "scale".toList, type := some (optional .str), priority := some 800 },
    { name := "method".toList, type := some (optional .str), priority := some 700 },
    { name := "events".toList, type := some (.list (.cls .event)), priority := some (-100), check := .list },
    { name := "todos".toList, type := some (.list (.cls .todo)), priority := some (-200), check := .list }]

/-- The attributes of `TimezoneObservance` (/repo/src/ics/timezone/__init__.py:103-108).  The checks are not
modelled here. -/
def observanceDecls : List AttrDecl :=
  componentDecls ++
  [{ name := "tzoffsetfrom".toList, type := some (.cls .utcOffset), hasDefault := false },
    { name := "tzoffsetto".toList, type := some (.cls .utcOffset), hasDefault := false },
    { name := "rrule".toList, type := some (.cls .rruleset), hasDefault := false },
    { name := "tzname".toList, type := some (optional .str) },
    { name := "comment".toList, type := some (optional .str) }]

/-- The attributes of `Timezone` (/repo/src/ics/timezone/__init__.py:131-134).  The checks are not modelled here. -/
def timezoneDecls : List AttrDecl :=
  componentDecls ++
  [{ name := "tzid".toList, type := some (.cls .str), hasDefault := false },
    { name := "observances".toList, type := some (.list (.cls .observance)) },
    { name := "tzurl".toList, type := some (optional .url) },
    { name := "last_modified".toList, type := some (optional .datetime) }]

/-! ### Registration -/

/-- A statement that registers a converter: creating a `ValueConverter` (/repo/src/ics/valuetype/base.py:15-17),
`ValueConverter.BY_TYPE[t] = c` (valuetype/text.py:129, generic.py:45), `AttributeConverter.BY_TYPE[t] = k`
(converter/types/timespan.py:149-151, types/various.py:96), `ComponentMeta.BY_TYPE[t] = Meta(t)`. -/
inductive RegStep where
  | value (c : VConv)
  | valueType (t : TypeName) (c : VConv)
  | attr (t : TypeName) (k : DKind)
  | component (t : TypeName) (kind : MetaKind) (name : Str) (attrs : List AttrDecl)

/-- One registration (/repo/src/ics/valuetype/base.py:15-17, converter/component.py:68, 78-79). -/
def RegStep.run (r : Registry) : RegStep → Except PyErr Registry
  | .value c => .ok { r with values := dictSetDefault r.values c.pythonType c }
  | .valueType t c => .ok { r with values := dictSet r.values t c }
  | .attr t k => .ok { r with attrs := dictSet r.attrs t k }
  | .component t kind name attrs => do
    let ds ← findConverters r kind attrs
    .ok { r with metas := dictSet r.metas t ⟨kind, name, ds⟩ }

/-- Several registrations (/repo/src/ics/__init__.py:18-43). -/
def runSteps : List RegStep → Registry → Except PyErr Registry
  | [], r => .ok r
  | s :: ss, r => do
    let r ← s.run r
    runSteps ss r

/-- 1) all simple value type converters (/repo/src/ics/__init__.py:21-25): valuetype/generic.py:44-45, 94, 123, 152,
187, text.py:38, 128-129, datetime.py:165, 194, 227, 288, 373, 441, special.py:43, 84, 97. -/
def valueSteps : List RegStep :=
  [.value .binary, .valueType .bytearray .binary, .value .boolean, .value .integer, .value .float, .value .uri,
    .value .rawText, .value .text, .valueType .str .text,
    .value .datetime, .value .date, .value .time, .value .utcOffset, .value .duration, .value .period,
    .value .geo, .value .organizer, .value .attendee]

/-- 2) attribute converters and alarms (/repo/src/ics/__init__.py:28-31): types/timespan.py:149-151,
types/various.py:96, 158-163. -/
def attrSteps : List RegStep :=
  [.attr .timespan .timespan, .attr .eventTimespan .timespan, .attr .todoTimespan .timespan,
    .attr .rruleset .recurrence,
    .component .baseAlarm .alarm "VALARM".toList alarmDecls,
    .component .audioAlarm .alarm "VALARM".toList
      (alarmDecls ++ [{ name := "attach".toList, type := some (.union [.cls .url, .cls .bytes, .none]) }]),
    .component .customAlarm .alarm "VALARM".toList (alarmDecls ++ [{ name := "_action".toList, type := some (.cls .str) }]),
    .component .displayAlarm .alarm "VALARM".toList (alarmDecls ++ [{ name := "description".toList, type := some (.cls .str) }]),
    .component .emailAlarm .alarm "VALARM".toList
      (alarmDecls ++
        [{ name := "summary".toList, type := some (.cls .str) },
          { name := "description".toList, type := some (.cls .str) },
          { name := "attendees".toList, type := some (.list (.cls .attendee)), icsName := some "ATTENDEE".toList },
          { name := "attach".toList, type := some (.list (.union [.cls .url, .cls .bytes, .none])) }]),
    .component .noneAlarm .alarm "VALARM".toList alarmDecls]

/-- 3) the remaining components (/repo/src/ics/__init__.py:33-40): types/timezone.py:77-84, `Event` and `Todo`. -/
def componentSteps : List RegStep :=
  [.component .observance .observance "ABSTRACT-COMPONENT".toList observanceDecls,
    .component .standard .plain "STANDARD".toList observanceDecls,
    .component .daylight .plain "DAYLIGHT".toList observanceDecls,
    .component .timezone .plain "VTIMEZONE".toList timezoneDecls,
    .component .event .plain "VEVENT".toList eventDecls,
    .component .todo .plain "VTODO".toList todoDecls]

/-- 4) the calendar (/repo/src/ics/__init__.py:43): types/calendar.py:76. -/
def calendarSteps : List RegStep := [.component .calendar .calendar "VCALENDAR".toList calendarDecls]

/-- `initialize_converters` (/repo/src/ics/__init__.py:18-46), called for the first time. -/
def initializeConverters : Except PyErr Registry :=
  runSteps (valueSteps ++ attrSteps ++ componentSteps ++ calendarSteps) {}

end Ics
