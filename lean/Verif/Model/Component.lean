import Verif.Model.Value
import Verif.Model.Parser

/-
Components and their converters: /repo/src/ics/component.py, /repo/src/ics/converter/.
-/
namespace Ics

/-- The modelled component classes: `Calendar` (/repo/src/ics/icalendar.py:35), `Event` (event.py:274),
`Todo` (todo.py:32) and the alarms (alarm.py:48, 61, 74, 87, 109). -/
inductive Cls where
  | calendar
  | event
  | todo
  | audioAlarm
  | customAlarm
  | displayAlarm
  | emailAlarm
  | noneAlarm
deriving DecidableEq, Repr

/-- `NAME` (/repo/src/ics/icalendar.py:47, event.py:286, todo.py:39, alarm.py:32). -/
def Cls.icsName : Cls → Str
  | .calendar => "VCALENDAR".toList
  | .event => "VEVENT".toList
  | .todo => "VTODO".toList
  | _ => "VALARM".toList

/-- The value of an attribute: `None`, one value, or a list (/repo/src/ics/converter/base.py:147-171). -/
inductive AttrVal (σ : Type) where
  | none
  | one (v : Val σ)
  | many (l : List (Val σ))
deriving DecidableEq, Repr

/-- An entry of `extra_params`: a dictionary for a single-valued attribute, a list of dictionaries for a
multi-valued one (/repo/src/ics/component.py:10, 21). -/
inductive ExtraVal where
  | one (p : Params)
  | many (ps : List Params)
deriving DecidableEq, Repr

/-- A component (/repo/src/ics/component.py:14-30): class, attributes by name, name and items of the
container `extra`, and `extra_params`. -/
structure Obj (σ : Type) where
  cls : Cls
  attrs : List (Str × AttrVal σ)
  extraName : Str
  extra : List Item
  extraParams : List (Str × ExtraVal)
deriving Repr

/-- The attrs converter and validator of an attribute, run when it is assigned
(`RuntimeAttrValidation.__setattr__`, /repo/src/ics/types.py:126-140); the attributes are listed in
/repo/src/ics/event.py:56-70, 253-266, todo.py:23-29, alarm.py:34-97, icalendar.py:17-32. -/
inductive Check where
  | any
  | status
  | utc
  | utcRequired
  | str
  | strOpt
  | organizerOpt
  | geo
  | range (max : Int)
  | datetime
  | timedelta
  | trigger
  | timespan (cls : SpanCls)
  | list
deriving DecidableEq, Repr

/-- `STATUS_VALUES` without `None` (/repo/src/ics/event.py:33). -/
def statusValues : List Str := ["TENTATIVE", "CONFIRMED", "CANCELLED"].map String.toList

/-- Converter and validator of an attribute (/repo/src/ics/event.py:63-70 with `ensure_utc`,
timezone/__init__.py:41-45, and `validate_not_none`, utils.py:162-164; event.py:82-85, 253-266 with
`make_geo`, geo.py:19-25; todo.py:23-29; alarm.py:34-38 with `ensure_timedelta`, utils.py:52-62;
icalendar.py:17-32).  Simplified: tuples and dictionaries as `datetime` or `timedelta` are not
modelled, nor are iterables other than lists for list attributes (they are given a `TypeError`). -/
def Check.run {σ : Type} (L : Lib) : Check → AttrVal σ → Except PyErr (AttrVal σ)
  | .any, v => .ok v
  | .status, .none => .ok .none
  | .status, .one (.text s) => if upper s ∈ statusValues then .ok (.one (.text (upper s))) else .error .valueError
  | .status, _ => .error .typeError
  | .utc, .none => .ok .none
  | .utc, .one (.dt d) => (L.astimezone d (.zone L.icsUtc)).map fun d => .one (.dt d)
  | .utc, .one (.url _) => .error .typeError
  | .utc, _ => .error .valueError
  | .utcRequired, .one (.dt d) => (L.astimezone d (.zone L.icsUtc)).map fun d => .one (.dt d)
  | .utcRequired, .one (.url _) => .error .typeError
  | .utcRequired, _ => .error .valueError
  | .str, .one (.text s) => .ok (.one (.text s))
  | .str, _ => .error .typeError
  | .strOpt, .none => .ok .none
  | .strOpt, .one (.text s) => .ok (.one (.text s))
  | .strOpt, _ => .error .typeError
  | .organizerOpt, .none => .ok .none
  | .organizerOpt, .one (.person false e x) => .ok (.one (.person false e x))
  | .organizerOpt, _ => .error .typeError
  | .geo, .one (.geo a b) => .ok (.one (.geo a b))
  | .geo, .one (.url _) => .error .typeError
  | .geo, _ => .ok .none
  | .range _, .none => .ok .none
  | .range max, .one (.int n) => if 0 ≤ n ∧ n ≤ max then .ok (.one (.int n)) else .error .valueError
  | .range _, .one (.bool b) => .ok (.one (.bool b))
  | .range _, _ => .error .valueError
  | .datetime, .none => .ok .none
  | .datetime, .one (.dt d) => .ok (.one (.dt d))
  | .datetime, .one (.url _) => .error .typeError
  | .datetime, _ => .error .valueError
  | .timedelta, .none => .ok .none
  | .timedelta, .one (.dur d) => .ok (.one (.dur d))
  | .timedelta, .one (.url _) => .error .typeError
  | .timedelta, _ => .error .valueError
  | .trigger, .none => .ok .none
  | .trigger, .one (.dur d) => .ok (.one (.dur d))
  | .trigger, .one (.dt d) => .ok (.one (.dt d))
  | .trigger, _ => .error .typeError
  | .timespan cls, .one (.span s) => (L.validateTimespan cls s).map fun _ => .one (.span s)
  | .timespan _, _ => .error .typeError
  | .list, .many l => .ok (.many l)
  | .list, _ => .error .typeError

/-- An attribute handled by an `AttributeValueConverter` (/repo/src/ics/converter/value.py:14-42,
converter/base.py:110-145): name, iCalendar name, whether it is a list, whether it is required, the value
converters in the order of the type annotation, and what happens on assignment. -/
structure AttrSpec where
  attr : Str
  ics : Str
  multi : Bool
  required : Bool
  convs : List ValConv
  check : Check
deriving DecidableEq, Repr

/-- The converters of a component (/repo/src/ics/converter/value.py:14, component.py:26,
types/timespan.py:28, types/various.py:99, types/calendar.py:56). -/
inductive Conv where
  | value (s : AttrSpec)
  | member (attr ics : Str)
  | timespan
  | alarmAction
  | calendarTimezone
deriving DecidableEq, Repr

/-- `filter_ics_names` (/repo/src/ics/converter/value.py:44-46, component.py:38-40, types/timespan.py:33-35,
types/various.py:106-108, types/calendar.py:61-63). -/
def Conv.names : Conv → List Str
  | .value s => [s.ics]
  | .member _ ics => [ics]
  | .timespan => ["DTSTART", "DTEND", "DUE", "DURATION"].map String.toList
  | .alarmAction => ["ACTION".toList]
  | .calendarTimezone => ["VTIMEZONE".toList]

/-- A single-valued attribute that is not required; the iCalendar name is the upper-cased attribute name
with `-` for `_` (/repo/src/ics/converter/value.py:37-42). -/
def attr1 (attr ics : String) (convs : List ValConv) (check : Check := .any) : Conv :=
  .value ⟨attr.toList, ics.toList, false, false, convs, check⟩

/-- A multi-valued attribute (/repo/src/ics/converter/base.py:261-288). -/
def attrN (attr ics : String) (convs : List ValConv) (check : Check := .list) : Conv :=
  .value ⟨attr.toList, ics.toList, true, false, convs, check⟩

/-- The converters of `CalendarEntryAttrs` (/repo/src/ics/event.py:56-70). -/
def entryConvs : List Conv :=
  [.timespan,
    attr1 "summary" "SUMMARY" [.text],
    attr1 "uid" "UID" [.text],
    attr1 "description" "DESCRIPTION" [.text],
    attr1 "location" "LOCATION" [.text],
    attr1 "url" "URL" [.text, .uri],
    attr1 "status" "STATUS" [.text] .status,
    attr1 "created" "CREATED" [.datetime] .utc,
    attr1 "last_modified" "LAST-MODIFIED" [.datetime] .utc,
    attr1 "dtstamp" "DTSTAMP" [.datetime] .utcRequired,
    .member "alarms".toList "VALARM".toList,
    attrN "attach" "ATTACH" [.uri, .binary]]

/-- The converters of `BaseAlarm` (/repo/src/ics/alarm.py:34-38). -/
def alarmConvs : List Conv :=
  [.alarmAction,
    attr1 "trigger" "TRIGGER" [.duration, .datetime] .trigger,
    attr1 "repeat" "REPEAT" [.integer],
    attr1 "duration" "DURATION" [.duration] .timedelta]

/-- `ComponentMeta.converters` (/repo/src/ics/converter/component.py:105-113 with `sort_converters`,
base.py:291-298; types/calendar.py:20-23; types/various.py:131-141): the attributes in the order of the
class definitions (/repo/src/ics/event.py:56-70, 253-266, todo.py:23-29, alarm.py:53, 66, 79, 92-97,
icalendar.py:17-32), sorted by priority. -/
def Cls.convs : Cls → List Conv
  | .calendar =>
    [.value ⟨"version".toList, "VERSION".toList, false, true, [.text], .str⟩,
      .value ⟨"prodid".toList, "PRODID".toList, false, true, [.text], .str⟩,
      attr1 "scale" "SCALE" [.text],
      attr1 "method" "METHOD" [.text],
      .calendarTimezone,
      .member "events".toList "VEVENT".toList,
      .member "todos".toList "VTODO".toList]
  | .event =>
    entryConvs ++
      [attr1 "classification" "CLASSIFICATION" [.text] .strOpt,
        attr1 "transparent" "TRANSPARENT" [.boolean],
        attr1 "organizer" "ORGANIZER" [.organizer] .organizerOpt,
        attr1 "geo" "GEO" [.geo] .geo,
        attrN "attendees" "ATTENDEE" [.attendee],
        attrN "categories" "CATEGORIES" [.text]]
  | .todo =>
    entryConvs ++
      [attr1 "percent" "PERCENT" [.integer] (.range 100),
        attr1 "priority" "PRIORITY" [.integer] (.range 9),
        attr1 "completed" "COMPLETED" [.datetime] .datetime]
  | .audioAlarm => alarmConvs ++ [attr1 "attach" "ATTACH" [.uri, .binary]]
  | .customAlarm => alarmConvs ++ [attr1 "_action" "ACTION" [.text]]
  | .displayAlarm => alarmConvs ++ [attr1 "description" "DESCRIPTION" [.text]]
  | .emailAlarm =>
    alarmConvs ++
      [attr1 "summary" "SUMMARY" [.text],
        attr1 "description" "DESCRIPTION" [.text],
        attrN "attendees" "ATTENDEE" [.attendee] .any,
        attrN "attach" "ATTACH" [.uri, .binary] .any]
  | .noneAlarm => alarmConvs

/-- `converter_lookup` (/repo/src/ics/converter/component.py:78-101, 154). -/
def Cls.lookup (c : Cls) (name : Str) : List Conv := c.convs.filter fun cv => name ∈ cv.names

/-- `_TIMESPAN_TYPE` (/repo/src/ics/event.py:73, 287, todo.py:40). -/
def Cls.spanCls : Cls → SpanCls
  | .event => .event
  | .todo => .todo
  | _ => .plain

/-- `DEFAULT_PRODID` (/repo/src/ics/icalendar.py:49). -/
def defaultProdid : Str := "ics.py 0.8.0.dev0 - http://git.io/lLljaA".toList

/-- The value an attribute has in a new component (/repo/src/ics/event.py:56-70, 253-266, 311-317,
todo.py:23-29, 56-62, alarm.py:34-97, icalendar.py:17-32, 67-75). -/
def defaultAttr {σ : Type} (L : Lib) (attr : Str) (multi : Bool) : AttrVal σ :=
  if multi then .many []
  else if attr = "uid".toList then .one (.text L.uid)
  else if attr = "dtstamp".toList then .one (.dt L.now)
  else if attr = "version".toList then .one (.text "2.0".toList)
  else if attr = "prodid".toList then .one (.text defaultProdid)
  else .none

/-- The attribute of a converter with its value in a new component (see `defaultAttr`,
/repo/src/ics/converter/base.py:110). -/
def Conv.default {σ : Type} (L : Lib) (c : Cls) : Conv → List (Str × AttrVal σ)
  | .value s => [(s.attr, defaultAttr L s.attr s.multi)]
  | .member attr _ => [(attr, .many [])]
  | .timespan => [("timespan".toList, .one (.span { cls := c.spanCls }))]
  | .alarmAction => []
  | .calendarTimezone => []

/-- `clazz()` (/repo/src/ics/converter/component.py:127; component.py:28-30). -/
def newObj {σ : Type} (L : Lib) (c : Cls) : Obj σ :=
  ⟨c, c.convs.flatMap (Conv.default L c), c.icsName, [], []⟩

/-- `getattr(component, attr)` (/repo/src/ics/converter/base.py:161-162); an absent attribute is
`None` here. -/
def Obj.get {σ : Type} (o : Obj σ) (attr : Str) : AttrVal σ := (dictGet? o.attrs attr).getD .none

/-- `setattr(component, attr, value)` (/repo/src/ics/types.py:126-140). -/
def Obj.setattr {σ : Type} (L : Lib) (o : Obj σ) (attr : Str) (check : Check) (v : AttrVal σ) :
    Except PyErr (Obj σ) :=
  (check.run L v).map fun v => { o with attrs := dictSet o.attrs attr v }

/-- Which kind of end a timespan line gives (/repo/src/ics/converter/types/timespan.py:67). -/
inductive EndName where
  | end_
  | due
deriving DecidableEq, Repr

/-- The context entries of `TimespanConverter` (/repo/src/ics/converter/types/timespan.py:12-25). -/
structure SpanCtx where
  seen : List Str := []
  begin? : Option DT := none
  end? : Option DT := none
  dur? : Option Int := none
  prec? : Option Precision := none
  endName? : Option EndName := none
deriving DecidableEq, Repr

/-- The state while a component is populated (/repo/src/ics/converter/component.py:149-161): the
component, `current_value_count` by attribute (converter/value.py:53-57; one component at a time), the
entries of the timespan converter and the available time zones. -/
structure LState (σ : Type) where
  obj : Obj σ
  counts : List (Str × Nat)
  span : SpanCtx
  ctx : Ctx
deriving Repr

/-- The key of the parameters of an attribute (/repo/src/ics/converter/base.py:176, 192). -/
def extraKey (attr : Str) : Str := upper attr

/-- `set_or_append_extra_params` for a single-valued attribute (/repo/src/ics/converter/base.py:173-181). -/
def Obj.setExtraParams {σ : Type} (o : Obj σ) (name : Str) (p : Params) : Obj σ :=
  if p = [] then o else { o with extraParams := dictSet o.extraParams (extraKey name) (.one p) }

/-- `set_or_append_extra_params` for a multi-valued attribute (/repo/src/ics/converter/base.py:173-181). -/
def Obj.appendExtraParams {σ : Type} (o : Obj σ) (name : Str) (p : Params) : Except PyErr (Obj σ) :=
  match dictGet? o.extraParams (extraKey name) with
  | none => .ok { o with extraParams := dictSet o.extraParams (extraKey name) (.many [p]) }
  | some (.many ps) => .ok { o with extraParams := dictSet o.extraParams (extraKey name) (.many (ps ++ [p])) }
  | some (.one _) => .error .attributeError

/-- `set_or_append_value` for a multi-valued attribute (/repo/src/ics/converter/base.py:147-157): a list
is changed in place, no validator runs. -/
def Obj.appendValue {σ : Type} (o : Obj σ) (attr : Str) (v : Val σ) : Except PyErr (Obj σ) :=
  match o.get attr with
  | .none => .ok { o with attrs := dictSet o.attrs attr (.many [v]) }
  | .many l => .ok { o with attrs := dictSet o.attrs attr (.many (l ++ [v])) }
  | .one _ => .error .attributeError

/-- The first converter with the given `ics_type` (/repo/src/ics/converter/value.py:98-102). -/
def findByType (convs : List ValConv) (ty : Str) : Except PyErr ValConv :=
  match convs.find? fun c => c.icsType = ty with
  | some c => .ok c
  | none => .error .valueError

/-- `__prepare_params` (/repo/src/ics/converter/value.py:92-105). -/
def prepareParams (convs : List ValConv) (params : Params) : Except PyErr (Params × ValConv) :=
  let rest := dictErase params "VALUE".toList
  match dictGet? params "VALUE".toList with
  | some [v] => (findByType convs v.text).map fun c => (rest, c)
  | some (_ :: _ :: _) => .error .valueError
  | _ =>
    match convs with
    | c :: _ => .ok (rest, c)
    | [] => .error .indexError

/-- The key `__merge_next` (/repo/src/ics/converter/value.py:67, 72, 146). -/
def mergeKey : Str := "__merge_next".toList

/-- `params["__merge_next"] = ["TRUE"]` or `["FALSE"]` (/repo/src/ics/converter/value.py:67, 72). -/
def setMerge (p : Params) (b : Bool) : Params := dictSet p mergeKey [⟨false, boolSerialize b⟩]

/-- The loop over the values of one line (/repo/src/ics/converter/value.py:61-69): the parsed values with
their parameters, which are passed on from one value to the next. -/
def parseValues {σ : Type} (L : Lib) (c : ValConv) : List Str → Params → Ctx →
    Except PyErr (List (Val σ × Params) × Ctx)
  | [], _, ctx => .ok ([], ctx)
  | v :: vs, p, ctx => do
    let (x, p, ctx) ← c.parse L v p ctx
    let (rest, ctx) ← parseValues L c vs (setMerge p true) ctx
    .ok ((x, setMerge p true) :: rest, ctx)

/-- The last value of a line is marked (/repo/src/ics/converter/value.py:70-72). -/
def markLast {σ : Type} : List (Val σ × Params) → List (Val σ × Params)
  | [] => []
  | [(v, p)] => [(v, setMerge p false)]
  | x :: y :: l => x :: markLast (y :: l)

/-- Append values and parameters to a multi-valued attribute (/repo/src/ics/converter/value.py:68-69). -/
def Obj.appendAll {σ : Type} (attr : Str) : List (Val σ × Params) → Obj σ → Except PyErr (Obj σ)
  | [], o => .ok o
  | (v, p) :: l, o => do
    let o ← o.appendExtraParams attr p
    let o ← o.appendValue attr v
    o.appendAll attr l

/-- `raise` what a generator ended with (/repo/src/ics/converter/value.py:61, the `for` loop). -/
def genEnd (e : Option PyErr) : Except PyErr Unit :=
  match e with
  | some e => .error e
  | none => .ok ()

/-- `current_value_count` (/repo/src/ics/converter/value.py:53-57). -/
def LState.count {σ : Type} (st : LState σ) (attr : Str) : Nat := (dictGet? st.counts attr).getD 0

/-- `AttributeValueConverter.populate` for a multi-valued attribute
(/repo/src/ics/converter/value.py:59-72). -/
def populateMulti {σ : Type} (L : Lib) (s : AttrSpec) (cl : ContentLine) (st : LState σ) :
    Except PyErr (LState σ) := do
  let (p, c) ← prepareParams s.convs cl.params
  let g := c.split cl.value
  let (vals, ctx) ← parseValues L c g.items p st.ctx
  genEnd g.err
  let o ← st.obj.appendAll s.attr (markLast vals)
  .ok { st with obj := o, ctx := ctx, counts := dictSet st.counts s.attr (st.count s.attr + vals.length) }

/-- `AttributeValueConverter.populate` for a single-valued attribute
(/repo/src/ics/converter/value.py:73-86). -/
def populateSingle {σ : Type} (L : Lib) (s : AttrSpec) (cl : ContentLine) (st : LState σ) :
    Except PyErr (LState σ) := do
  raiseIf (decide (0 < st.count s.attr))
  let (p, c) ← prepareParams s.convs cl.params
  let (v, p, ctx) ← c.parse L cl.value p st.ctx
  let o ← (st.obj.setExtraParams s.attr p).setattr L s.attr s.check (.one v)
  .ok { st with obj := o, ctx := ctx, counts := dictSet st.counts s.attr (st.count s.attr + 1) }

/-- The value of a DTSTART, DTEND or DUE line and its precision
(/repo/src/ics/converter/types/timespan.py:48-58); a `date` is represented by its midnight, which is what
`ensure_datetime` (utils.py:32-33) makes of it. -/
def parseSpanValue (L : Lib) (cl : ContentLine) (ctx : Ctx) :
    Except PyErr (DT × Precision × Params × Ctx) :=
  let rest := dictErase cl.params "VALUE".toList
  let ty := ((dictGet? cl.params "VALUE".toList).map pvalTexts).getD ["DATE-TIME".toList]
  if ty = ["DATE-TIME".toList] then
    (parseDt L.toWorld datetimeFormats cl.value rest ctx).map fun r => (r.1, .second, r.2.1, r.2.2)
  else if ty = ["DATE".toList] then
    (parseDate L.toWorld cl.value rest ctx).map fun r => (⟨r.1, false, none⟩, .day, r.2.1, r.2.2)
  else .error .valueError

/-- A DTSTART, DTEND or DUE line (/repo/src/ics/converter/types/timespan.py:46-70). -/
def populateSpanTime {σ : Type} (L : Lib) (cl : ContentLine) (st : LState σ) : Except PyErr (LState σ) := do
  let (v, prec, p, ctx) ← parseSpanValue L cl st.ctx
  raiseIf (decide (st.span.prec?.getD prec ≠ prec))
  let span := { st.span with prec? := some (st.span.prec?.getD prec) }
  if cl.name = "DTSTART".toList then
    .ok { st with
      obj := st.obj.setExtraParams "begin".toList p
      span := { span with begin? := some v }
      ctx := ctx }
  else
    let due := decide (cl.name = "DUE".toList)
    .ok { st with
      obj := st.obj.setExtraParams (if due then "due".toList else "end".toList) p
      span := { span with end? := some v, endName? := some (if due then .due else .end_) }
      ctx := ctx }

/-- A DURATION line (/repo/src/ics/converter/types/timespan.py:72-77). -/
def populateSpanDuration {σ : Type} (cl : ContentLine) (st : LState σ) : Except PyErr (LState σ) := do
  let d ← durationParse cl.value
  .ok { st with
    obj := st.obj.setExtraParams "duration".toList cl.params
    span := { st.span with dur? := some d } }

/-- `TimespanConverter.populate` (/repo/src/ics/converter/types/timespan.py:37-79). -/
def populateSpan {σ : Type} (L : Lib) (cl : ContentLine) (st : LState σ) : Except PyErr (LState σ) := do
  raiseIf (decide (cl.name ∈ st.span.seen))
  let st := { st with span := { st.span with seen := st.span.seen ++ [cl.name] } }
  if cl.name = "DURATION".toList then populateSpanDuration cl st else populateSpanTime L cl st

/-- `get_type_from_action` (/repo/src/ics/alarm.py:119-129). -/
def alarmCls (action : Str) : Cls :=
  if action = "DISPLAY".toList then .displayAlarm
  else if action = "AUDIO".toList then .audioAlarm
  else if action = "NONE".toList then .noneAlarm
  else if action = "EMAIL".toList then .emailAlarm
  else .customAlarm

/-- `AlarmActionConverter.populate` (/repo/src/ics/converter/types/various.py:110-117). -/
def populateAction {σ : Type} (cl : ContentLine) (st : LState σ) : Except PyErr (LState σ) :=
  if st.obj.cls ≠ alarmCls cl.value then .error .assertionError
  else if cl.params = [] then .ok st
  else .ok { st with obj := { st.obj with
    extraParams := dictSet st.obj.extraParams "ACTION".toList (.one cl.params) } }

/-- `load_instance` of the members of a component: iCalendar name, items and available zones; the loaded
member and the zones afterwards (/repo/src/ics/converter/component.py:42-47, 121-129). -/
abbrev MemberLoad (σ : Type) := Str → List Item → Ctx → Except PyErr (σ × Ctx)

/-- `MemberComponentConverter.populate` (/repo/src/ics/converter/component.py:42-47).  All members are
lists. -/
def populateMember {σ : Type} (mem : MemberLoad σ) (attr name : Str) (items : List Item) (st : LState σ) :
    Except PyErr (LState σ) := do
  let (m, ctx) ← mem name items st.ctx
  let o ← st.obj.appendValue attr (.comp m)
  .ok { st with obj := o, ctx := ctx }

/-- `conv.populate(instance, line, context)`: whether the item was consumed, and the state afterwards
(/repo/src/ics/converter/value.py:48-87, component.py:42-47, types/timespan.py:37-79,
types/various.py:110-117, types/calendar.py:65-69). -/
def Conv.populate {σ : Type} (L : Lib) (mem : MemberLoad σ) (cv : Conv) (item : Item) (st : LState σ) :
    Except PyErr (Bool × LState σ) :=
  match cv, item with
  | .value s, .line cl =>
    (if s.multi then populateMulti L s cl st else populateSingle L s cl st).map fun st => (true, st)
  | .value _, .cont _ _ => .error .assertionError
  | .member attr _, .cont name items => (populateMember mem attr name items st).map fun st => (true, st)
  | .member _ _, .line _ => .error .assertionError
  | .timespan, .line cl => (populateSpan L cl st).map fun st => (true, st)
  | .timespan, .cont _ _ => .error .assertionError
  | .alarmAction, .line cl => (populateAction cl st).map fun st => (true, st)
  | .alarmAction, .cont _ _ => .error .assertionError
  | .calendarTimezone, .cont _ _ => .ok (true, st)
  | .calendarTimezone, .line _ => .ok (false, st)

/-- The name of an item (/repo/src/ics/contentline/container.py:144, 227). -/
def Item.name : Item → Str
  | .line cl => cl.name
  | .cont name _ => name

/-- The converters of one item (/repo/src/ics/converter/component.py:153-156). -/
def populateConvs {σ : Type} (L : Lib) (mem : MemberLoad σ) (item : Item) :
    List Conv → Bool → LState σ → Except PyErr (Bool × LState σ)
  | [], consumed, st => .ok (consumed, st)
  | cv :: cvs, consumed, st => do
    let (b, st) ← cv.populate L mem item st
    populateConvs L mem item cvs (consumed || b) st

/-- One item (/repo/src/ics/converter/component.py:152-158). -/
def populateItem {σ : Type} (L : Lib) (mem : MemberLoad σ) (item : Item) (st : LState σ) :
    Except PyErr (LState σ) := do
  let (consumed, st) ← populateConvs L mem item (st.obj.cls.lookup item.name) false st
  if consumed then .ok st
  else .ok { st with obj := { st.obj with extra := st.obj.extra ++ [item] } }

/-- All items (/repo/src/ics/converter/component.py:152-158). -/
def populateItems {σ : Type} (L : Lib) (mem : MemberLoad σ) : List Item → LState σ → Except PyErr (LState σ)
  | [], st => .ok st
  | i :: is, st => do
    let st ← populateItem L mem i st
    populateItems L mem is st

/-- `_end_name` of a timespan class (/repo/src/ics/timespan.py:168-169, 602-605). -/
def SpanCls.endName : SpanCls → EndName
  | .todo => .due
  | _ => .end_

/-- `TimespanConverter.post_populate` (/repo/src/ics/converter/types/timespan.py:81-101).  The precision is
`None` if there was no DTSTART, DTEND or DUE line; it is represented by `.other []`. -/
def postSpan {σ : Type} (L : Lib) (st : LState σ) : Except PyErr (LState σ) := do
  let s := st.span
  let cls := st.obj.cls.spanCls
  let span ← L.mkSpan ⟨cls, s.begin?, s.end?, s.dur?, s.prec?.getD (.other [])⟩
  raiseIf (decide (s.endName?.getD cls.endName ≠ cls.endName))
  let o ← st.obj.setattr L "timespan".toList (.timespan cls) (.one (.span span))
  .ok { st with obj := o, span := {} }

/-- `post_populate` of a converter (/repo/src/ics/converter/value.py:107-111, types/timespan.py:81-101). -/
def Conv.post {σ : Type} (L : Lib) (cv : Conv) (st : LState σ) : Except PyErr (LState σ) :=
  match cv with
  | .value s =>
    if s.required && st.count s.attr == 0 then .error .valueError
    else .ok { st with counts := dictSet st.counts s.attr 0 }
  | .timespan => postSpan L st
  | _ => .ok st

/-- The loop over the `post_populate` hooks (/repo/src/ics/converter/component.py:160-161). -/
def postAll {σ : Type} (L : Lib) : List Conv → LState σ → Except PyErr (LState σ)
  | [], st => .ok st
  | cv :: cvs, st => do
    let st ← cv.post L st
    postAll L cvs st

/-- `_populate_attrs` of a new instance (/repo/src/ics/converter/component.py:121-161). -/
def loadObj {σ : Type} (L : Lib) (mem : MemberLoad σ) (c : Cls) (items : List Item) (ctx : Ctx) :
    Except PyErr (Obj σ × Ctx) := do
  let st ← populateItems L mem items ⟨newObj L c, [], {}, ctx⟩
  let st ← postAll L c.convs st
  .ok (st.obj, st.ctx)

/-- A component without members: an alarm (/repo/src/ics/alarm.py:27). -/
abbrev Alarm := Obj Empty

/-- An event or a todo; its members are alarms (/repo/src/ics/event.py:69). -/
abbrev EntryObj := Obj Alarm

/-- A calendar; its members are events and todos (/repo/src/ics/icalendar.py:27-32). -/
abbrev CalObj := Obj EntryObj

/-- The one item of that name: `one(container["ACTION"])`
(/repo/src/ics/converter/types/various.py:147-151; utils.py:192-206). -/
def oneItem (items : List Item) (name : Str) : Except PyErr Item :=
  match items.filter fun i => i.name = name with
  | [i] => .ok i
  | _ => .error .valueError

/-- `AlarmMeta.load_instance` (/repo/src/ics/converter/types/various.py:143-155). -/
def loadAlarm (L : Lib) (items : List Item) (ctx : Ctx) : Except PyErr (Alarm × Ctx) := do
  match ← oneItem items "ACTION".toList with
  | .line cl => loadObj L (fun _ _ _ => .error .notImplementedError) (alarmCls cl.value) items ctx
  | .cont _ _ => .error .attributeError

/-- Loading an event or todo (/repo/src/ics/converter/component.py:121-147). -/
def loadEntry (L : Lib) (c : Cls) (items : List Item) (ctx : Ctx) : Except PyErr (EntryObj × Ctx) :=
  loadObj L (fun _ items ctx => loadAlarm L items ctx) c items ctx

/-- Loading a member of a calendar (/repo/src/ics/converter/component.py:42-47; the class is that of the
attribute, /repo/src/ics/icalendar.py:27-32). -/
def loadCalMember (L : Lib) : MemberLoad EntryObj := fun name items ctx =>
  loadEntry L (if name = "VTODO".toList then .todo else .event) items ctx

/-- The time zones of a calendar are loaded first (/repo/src/ics/converter/types/calendar.py:29-35). -/
def loadZones (L : Lib) : List Item → List (Str × Nat) → Except PyErr (List (Str × Nat))
  | [], avail => .ok avail
  | .cont name items :: is, avail =>
    if name = "VTIMEZONE".toList then do
      let z ← L.tzLoad items
      loadZones L is (dictSetDefault avail (L.tzid z) z)
    else loadZones L is avail
  | .line _ :: is, avail => loadZones L is avail

/-- Loading a calendar (/repo/src/ics/converter/types/calendar.py:25-37). -/
def loadCalendar (L : Lib) (items : List Item) : Except PyErr CalObj := do
  let avail ← loadZones L items []
  let (o, _) ← loadObj L (loadCalMember L) .calendar items (some avail)
  .ok o

/-- `populate_instance` checks the name of the container (/repo/src/ics/converter/component.py:137-140);
`Calendar(container)` (/repo/src/ics/icalendar.py:78-80). -/
def loadCalendarItem (L : Lib) : Item → Except PyErr CalObj
  | .cont name items => if name = "VCALENDAR".toList then loadCalendar L items else .error .valueError
  | .line _ => .error .valueError

/-! ### Serialization -/

/-- The context while components are written: the zones used so far
(/repo/src/ics/valuetype/datetime.py:51) and whether the entry `DTSTART` is set
(/repo/src/ics/converter/types/timespan.py:115-116). -/
structure DState where
  ctx : Ctx
  dtstart : Bool := false
deriving DecidableEq, Repr

/-- The parameters of a single-valued attribute: `copy_extra_params(self.get_extra_params(component, name))`
(/repo/src/ics/converter/base.py:183-193, types.py:171-186). -/
def Obj.extraParamsOf {σ : Type} (o : Obj σ) (name : Str) : Except PyErr Params :=
  match dictGet? o.extraParams (extraKey name) with
  | none => .ok []
  | some (.one p) => .ok p
  | some (.many []) => .ok []
  | some (.many (_ :: _)) => .error .attributeError

/-- `__find_value_converter` (/repo/src/ics/converter/value.py:174-182): the converter and the
parameters afterwards. -/
def findConverter {σ : Type} (convs : List ValConv) (p : Params) (v : Val σ) :
    Except PyErr (ValConv × Params) :=
  match convs.find? fun c => c.accepts v with
  | none => .error .valueError
  | some c =>
    if convs.head? = some c then .ok (c, p)
    else .ok (c, dictSet p "VALUE".toList [⟨false, c.icsType⟩])

/-- `AttributeValueConverter.serialize` for a single-valued attribute
(/repo/src/ics/converter/value.py:117-126).  A list has no converter. -/
def dumpSingle {σ : Type} (L : Lib) (s : AttrSpec) (o : Obj σ) (st : DState) :
    Except PyErr (List Item × DState) :=
  match o.get s.attr with
  | .none => .ok ([], st)
  | .one v => do
    let p ← o.extraParamsOf s.attr
    let (c, p) ← findConverter s.convs p v
    let (t, p, ctx) ← c.serialize L v p st.ctx
    .ok ([.line (mkContentLine s.ics p t)], { st with ctx := ctx })
  | .many _ => .error .valueError

/-- `zip_longest(values, extra_params)` after the check of the lengths: no parameters at all, or as many
as values (/repo/src/ics/converter/value.py:131-143). -/
def zipParams {σ : Type} (values : List (Val σ)) (e : Option ExtraVal) :
    Except PyErr (List (Val σ × Params)) :=
  match e with
  | none => .ok (values.map fun v => (v, []))
  | some (.many ps) =>
    if ps = [] then .ok (values.map fun v => (v, []))
    else if ps.length ≠ values.length then .error .valueError
    else .ok (values.zip ps)
  | some (.one p) =>
    if p = [] then .ok (values.map fun v => (v, []))
    else if p.length ≠ values.length then .error .valueError
    else .error .attributeError

/-- Whether `params.pop("__merge_next", None) == ["TRUE"]` (/repo/src/ics/converter/value.py:146). -/
def mergeNext (p : Params) : Bool := (dictGet? p mergeKey).map pvalTexts = some ["TRUE".toList]

/-- `if current_params != params: raise ValueError()` (/repo/src/ics/converter/value.py:153-155). -/
def checkSame (cur : Option Params) (p : Params) : Except PyErr Unit :=
  match cur with
  | none => .ok ()
  | some c => raiseIf (!paramsEq c p)

/-- The loop of `__serialize_multi` (/repo/src/ics/converter/value.py:139-172): `cur` is
`current_params` and `texts` is `current_values`; `current_params` is not `None` exactly if the value
before had `merge_next` set. -/
def dumpMultiLoop {σ : Type} (L : Lib) (s : AttrSpec) :
    List (Val σ × Params) → Option Params → List Str → DState → Except PyErr (List Item × DState)
  | [], cur, _, st => do
    raiseIf cur.isSome
    .ok ([], st)
  | (v, p) :: l, cur, texts, st => do
    let merge := mergeNext p
    let (c, p) ← findConverter s.convs (dictErase p mergeKey) v
    let (t, p, ctx) ← c.serialize L v p st.ctx
    checkSame cur p
    let st := { st with ctx := ctx }
    if merge then dumpMultiLoop L s l (some (cur.getD p)) (texts ++ [t]) st
    else do
      let (is, st) ← dumpMultiLoop L s l none [] st
      .ok (.line (mkContentLine s.ics p (joinComma (texts ++ [t]))) :: is, st)

/-- `__serialize_multi` (/repo/src/ics/converter/value.py:128-172). -/
def dumpMulti {σ : Type} (L : Lib) (s : AttrSpec) (o : Obj σ) (st : DState) :
    Except PyErr (List Item × DState) :=
  match o.get s.attr with
  | .many values => do
    let l ← zipParams values (dictGet? o.extraParams (extraKey s.attr))
    dumpMultiLoop L s l none [] st
  | _ => .error .typeError

/-- `VALUE=DATE` for an all-day span (/repo/src/ics/converter/types/timespan.py:106-111, 121, 130). -/
def spanParams (s : Span) (p : Params) : Params :=
  if s.isAllDay then dictSet p "VALUE".toList [⟨false, "DATE".toList⟩] else p

/-- `dt_conv.serialize` (/repo/src/ics/converter/types/timespan.py:106-111, 122, 131). -/
def dumpSpanValue (L : Lib) (s : Span) (d : DT) (p : Params) (ctx : Ctx) : Except PyErr (Str × Params × Ctx) :=
  if s.isAllDay then .ok (serializeDate L.toWorld d.wall, p, ctx) else serializeDt L.toWorld d p ctx

/-- The DTSTART line (/repo/src/ics/converter/types/timespan.py:113-123). -/
def dumpSpanBegin {σ : Type} (L : Lib) (o : Obj σ) (s : Span) (st : DState) : Except PyErr (List Item × DState) :=
  match s.begin? with
  | none => .ok ([], st)
  | some b =>
    if st.dtstart then .error .assertionError
    else do
      let p ← o.extraParamsOf "begin".toList
      let (t, p, ctx) ← dumpSpanValue L s b (spanParams s p) st.ctx
      .ok ([.line (mkContentLine "DTSTART".toList p t)], { ctx := ctx, dtstart := true })

/-- The names of the line for the end (/repo/src/ics/converter/types/timespan.py:126). -/
def SpanCls.endLine (c : SpanCls) : Str :=
  match c.endName with
  | .end_ => "DTEND".toList
  | .due => "DUE".toList

/-- The line for the end or the duration (/repo/src/ics/converter/types/timespan.py:125-141). -/
def dumpSpanEnd {σ : Type} (L : Lib) (o : Obj σ) (s : Span) (st : DState) : Except PyErr (List Item × DState) :=
  match s.dur?, s.end? with
  | some d, _ => do
    let p ← o.extraParamsOf "duration".toList
    .ok ([.line (mkContentLine "DURATION".toList p (durationSerialize d))], st)
  | none, some en => do
    let p ← o.extraParamsOf s.cls.endLine
    let (t, p, ctx) ← dumpSpanValue L s en (spanParams s p) st.ctx
    .ok ([.line (mkContentLine s.cls.endLine p t)], { st with ctx := ctx })
  | none, none => .ok ([], st)

/-- `TimespanConverter.serialize` (/repo/src/ics/converter/types/timespan.py:103-141). -/
def dumpSpan {σ : Type} (L : Lib) (o : Obj σ) (st : DState) : Except PyErr (List Item × DState) :=
  match o.get "timespan".toList with
  | .one (.span s) => do
    let (a, st) ← dumpSpanBegin L o s st
    let (b, st) ← dumpSpanEnd L o s st
    .ok (a ++ b, st)
  | _ => .error .attributeError

/-- The `action` of an alarm (/repo/src/ics/alarm.py:55-57, 68-70, 81-83, 104-106, 114-116). -/
def Obj.action {σ : Type} (o : Obj σ) : AttrVal σ :=
  match o.cls with
  | .audioAlarm => .one (.text "AUDIO".toList)
  | .displayAlarm => .one (.text "DISPLAY".toList)
  | .emailAlarm => .one (.text "EMAIL".toList)
  | .noneAlarm => .one (.text "NONE".toList)
  | _ => o.get "_action".toList

/-- `AlarmActionConverter.serialize` (/repo/src/ics/converter/types/various.py:119-127).  Simplified: an
action that is not a string, or parameters that are a list, are an error here, and not only when the line
is turned into text. -/
def dumpAction {σ : Type} (o : Obj σ) (st : DState) : Except PyErr (List Item × DState) :=
  match o.action, dictGet? o.extraParams "ACTION".toList with
  | .one (.text a), none => .ok ([.line (mkContentLine "ACTION".toList [] a)], st)
  | .one (.text a), some (.one p) => .ok ([.line (mkContentLine "ACTION".toList p a)], st)
  | _, _ => .error .typeError

/-- `value.to_container(context)` for the members (/repo/src/ics/converter/component.py:57, 163-173): the
container and the context afterwards. -/
abbrev MemberDump (σ : Type) := σ → DState → Except PyErr (Item × DState)

/-- The loop of `MemberComponentConverter.serialize` (/repo/src/ics/converter/component.py:55-57). -/
def dumpMembers {σ : Type} (mem : MemberDump σ) : List (Val σ) → DState → Except PyErr (List Item × DState)
  | [], st => .ok ([], st)
  | .comp m :: l, st => do
    let (i, st) ← mem m st
    let (is, st) ← dumpMembers mem l st
    .ok (i :: is, st)
  | _ :: _, _ => .error .attributeError

/-- Whether `self.get_extra_params(parent)` is truthy (/repo/src/ics/converter/component.py:50-51). -/
def ExtraVal.truthy : ExtraVal → Bool
  | .one p => p ≠ []
  | .many ps => ps ≠ []

/-- `MemberComponentConverter.serialize` (/repo/src/ics/converter/component.py:49-57). -/
def dumpMember {σ : Type} (mem : MemberDump σ) (attr : Str) (o : Obj σ) (st : DState) :
    Except PyErr (List Item × DState) := do
  raiseIf (((dictGet? o.extraParams (extraKey attr)).map ExtraVal.truthy).getD false)
  match o.get attr with
  | .many l => dumpMembers mem l st
  | _ => .error .typeError

/-- `conv.serialize(component, container, context)`: the items appended to the container and the context
afterwards (/repo/src/ics/converter/value.py:113-126, component.py:49-57, types/timespan.py:103-141,
types/various.py:119-127, types/calendar.py:71-73; the place for the time zones is found by
`dumpCalendar`). -/
def Conv.dump {σ : Type} (L : Lib) (mem : MemberDump σ) (cv : Conv) (o : Obj σ) (st : DState) :
    Except PyErr (List Item × DState) :=
  match cv with
  | .value s => if s.multi then dumpMulti L s o st else dumpSingle L s o st
  | .member attr _ => dumpMember mem attr o st
  | .timespan => dumpSpan L o st
  | .alarmAction => dumpAction o st
  | .calendarTimezone => .ok ([], st)

/-- The loop over the converters (/repo/src/ics/converter/component.py:178-179). -/
def dumpConvs {σ : Type} (L : Lib) (mem : MemberDump σ) : List Conv → Obj σ → DState →
    Except PyErr (List Item × DState)
  | [], _, st => .ok ([], st)
  | cv :: cvs, o, st => do
    let (a, st) ← cv.dump L mem o st
    let (b, st) ← dumpConvs L mem cvs o st
    .ok (a ++ b, st)

/-- `post_serialize` (/repo/src/ics/converter/component.py:181-182, types/timespan.py:143-146). -/
def postDump (convs : List Conv) (st : DState) : DState :=
  if .timespan ∈ convs then { st with dtstart := false } else st

/-- `serialize_toplevel` (/repo/src/ics/converter/component.py:163-182). -/
def dumpObj {σ : Type} (L : Lib) (mem : MemberDump σ) (o : Obj σ) (st : DState) : Except PyErr (Item × DState) := do
  let (is, st) ← dumpConvs L mem o.cls.convs o st
  .ok (.cont o.extraName (is ++ o.extra), postDump o.cls.convs st)

/-- Writing an alarm, which has no members (/repo/src/ics/converter/component.py:163-182). -/
def dumpAlarm (L : Lib) (o : Alarm) (st : DState) : Except PyErr (Item × DState) :=
  dumpObj L (fun m _ => nomatch m) o st

/-- Writing an event or todo (/repo/src/ics/converter/component.py:163-182). -/
def dumpEntry (L : Lib) (o : EntryObj) (st : DState) : Except PyErr (Item × DState) :=
  dumpObj L (dumpAlarm L) o st

/-- `tz.to_container()` for all registered zones (/repo/src/ics/converter/types/calendar.py:47-50). -/
def dumpZones (L : Lib) : List (Str × Nat) → Except PyErr (List Item)
  | [] => .ok []
  | (_, z) :: zs => do
    let i ← L.tzDump z
    let is ← dumpZones L zs
    .ok (i :: is)

/-- The converters of a calendar before and after `CalendarTimezoneConverter`, which notes the number of
items written so far (/repo/src/ics/converter/types/calendar.py:71-73). -/
def calConvsBefore : List Conv := Cls.calendar.convs.takeWhile fun cv => cv ≠ .calendarTimezone

/-- The rest of the converters of a calendar (/repo/src/ics/converter/types/calendar.py:56-73). -/
def calConvsAfter : List Conv := Cls.calendar.convs.dropWhile fun cv => cv ≠ .calendarTimezone

/-- Writing a calendar (/repo/src/ics/converter/types/calendar.py:39-53): the time zones are inserted where
`CalendarTimezoneConverter` comes. -/
def dumpCalendar (L : Lib) (o : CalObj) : Except PyErr Item := do
  let (a, st) ← dumpConvs L (dumpEntry L) calConvsBefore o { ctx := some [] }
  let (b, st) ← dumpConvs L (dumpEntry L) calConvsAfter o st
  let zones ← dumpZones L (st.ctx.getD [])
  .ok (.cont o.extraName (a ++ zones ++ (b ++ o.extra)))

end Ics
