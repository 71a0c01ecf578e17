import Verif.Py.Urlparse
import Verif.Model.Text
import Verif.Model.Generic
import Verif.Model.Datetime
import Verif.Model.Period
import Verif.Model.Entry

/-
Attribute values and value converters: /repo/src/ics/valuetype/{base,generic,text,datetime,special}.py
as they are used for the attributes of events, todos, alarms and calendars.
-/
namespace Ics

/-- What the code asks the outside world for, besides `World`: the zone object `ics.UTC`
(/repo/src/ics/timezone/__init__.py), the checks of `urlparse`, the conversion of floats from and to text
(`float(s)` and `"%f" % x`, /repo/src/ics/valuetype/special.py:32, 40; a float is represented by its 64
bits), the result of `uuid4` and `now` (/repo/src/ics/event.py:34-37, utils.py:154-156; simplified: one
value for all components loaded in one go), and how a VTIMEZONE component is read and written
(/repo/src/ics/converter/types/timezone.py, `Timezone.from_container` and `to_container`). -/
structure Lib extends World where
  icsUtc : Nat
  urlChecks : UrlChecks
  parseFloat : Str → Option Nat
  formatFloat : Nat → Str
  uid : Str
  now : DT
  tzLoad : List Item → Except PyErr Nat
  tzDump : Nat → Except PyErr Item

/-- The `email` of a person: given as a string by the user or parsed
(/repo/src/ics/valuetype/special.py:55, 67-71). -/
inductive Email where
  | str (s : Str)
  | url (u : Url)
deriving DecidableEq, Repr

/-- A value of an attribute (/repo/src/ics/event.py:55-70, 252-266, todo.py:22-29, alarm.py:34-97,
icalendar.py:17-32): a string, URL, integer, boolean, byte string, `datetime`, `timedelta` (in
microseconds), `Geo`, `Organizer`/`Attendee` (attendee.py:57-114), `Timespan`, or another component.
Values of other types are not modelled. -/
inductive Val (σ : Type) where
  | text (s : Str)
  | url (u : Url)
  | int (n : Int)
  | bool (b : Bool)
  | bytes (b : List (Fin 256))
  | dt (d : DT)
  | dur (us : Int)
  | geo (lat lon : Nat)
  | person (attendee : Bool) (email : Email) (extra : Params)
  | span (s : Span)
  | comp (c : σ)
deriving DecidableEq, Repr

/-- The value converters of the attributes of events, todos, alarms and calendars
(/repo/src/ics/valuetype/text.py:41, generic.py:18-187, datetime.py:132-165, 291-373, special.py:14-97). -/
inductive ValConv where
  | text
  | uri
  | binary
  | datetime
  | duration
  | integer
  | boolean
  | geo
  | organizer
  | attendee
deriving DecidableEq, Repr

/-- `ics_type` (/repo/src/ics/valuetype/text.py:44, generic.py:21, 51, 100, 161, datetime.py:142, 294,
special.py:17, 77, 90). -/
def ValConv.icsType : ValConv → Str
  | .text => "TEXT".toList
  | .uri => "URI".toList
  | .binary => "BINARY".toList
  | .datetime => "DATE-TIME".toList
  | .duration => "DURATION".toList
  | .integer => "INTEGER".toList
  | .boolean => "BOOLEAN".toList
  | .geo => "X-GEO".toList
  | .organizer => "ORGANIZER".toList
  | .attendee => "ATTENDEE".toList

/-- `isinstance(value, converter.python_type)` (/repo/src/ics/converter/value.py:176): a `bool` is an
`int`. -/
def ValConv.accepts {σ : Type} : ValConv → Val σ → Bool
  | .text, .text _ => true
  | .uri, .url _ => true
  | .binary, .bytes _ => true
  | .datetime, .dt _ => true
  | .duration, .dur _ => true
  | .integer, .int _ => true
  | .integer, .bool _ => true
  | .boolean, .bool _ => true
  | .geo, .geo _ _ => true
  | .organizer, .person att _ _ => !att
  | .attendee, .person att _ _ => att
  | _, _ => false

/-- `split_value_list` (/repo/src/ics/valuetype/base.py:29-30, text.py:66-76). -/
def ValConv.split (c : ValConv) (s : Str) : Gen Str :=
  match c with
  | .text => splitTextList s
  | _ => .done (splitComma s)

/-- `GeoConverter.parse` (/repo/src/ics/valuetype/special.py:23-32). -/
def geoParse {σ : Type} (L : Lib) (value : Str) : Except PyErr (Val σ) :=
  match cutAt ';' value with
  | none => .error .valueError
  | some (a, b) =>
    match L.parseFloat a, L.parseFloat b with
    | some x, some y => .ok (.geo x y)
    | _, _ => .error .valueError

/-- `converter.parse(value, params, context)`: value, parameters and context afterwards
(/repo/src/ics/valuetype/text.py:50-56, generic.py:27-33, 57-78, 106-112, 167-173, datetime.py:156-162, 300-338,
special.py:23-32, 49-57).  A person takes all the parameters. -/
def ValConv.parse {σ : Type} (L : Lib) (c : ValConv) (value : Str) (params : Params) (ctx : Ctx) :
    Except PyErr (Val σ × Params × Ctx) :=
  match c with
  | .text => (unescapeText value).map fun s => (.text s, params, ctx)
  | .uri => (urlparse L.urlChecks value).map fun u => (.url u, params, ctx)
  | .binary => (b64decode value).map fun b => (.bytes b, params, ctx)
  | .datetime => (parseDt L.toWorld datetimeFormats value params ctx).map fun r => (.dt r.1, r.2.1, r.2.2)
  | .duration => (durationParse value).map fun d => (.dur d, params, ctx)
  | .integer => (intParse value).map fun n => (.int n, params, ctx)
  | .boolean => (boolParse value).map fun b => (.bool b, params, ctx)
  | .geo => (geoParse L value).map fun g => (g, params, ctx)
  | .organizer => (urlparse L.urlChecks value).map fun u => (.person false (.url u) params, [], ctx)
  | .attendee => (urlparse L.urlChecks value).map fun u => (.person true (.url u) params, [], ctx)

/-- `params.update(extra)` (/repo/src/ics/valuetype/special.py:66, converter/types/timespan.py:121, 130). -/
def dictUpdate {κ ν : Type} [DecidableEq κ] (d : List (κ × ν)) : List (κ × ν) → List (κ × ν)
  | [] => d
  | kv :: new => dictUpdate (dictSet d kv.1 kv.2) new

/-- The text of the `email` of a person (/repo/src/ics/valuetype/special.py:67-71). -/
def Email.str? : Email → Str
  | .str s => s
  | .url u => u.geturl

/-- `converter.serialize(value, params, context)`: text, parameters and context afterwards
(/repo/src/ics/valuetype/text.py:58-64, generic.py:35-41, 80-91, 114-120, 175-184, datetime.py:148-154, 340-370,
special.py:34-40, 59-71).  Only called for a value of the converter's type
(/repo/src/ics/converter/value.py:174-182); other values are given a `TypeError`. -/
def ValConv.serialize {σ : Type} (L : Lib) (c : ValConv) (v : Val σ) (params : Params) (ctx : Ctx) :
    Except PyErr (Str × Params × Ctx) :=
  match c, v with
  | .text, .text s => .ok (escapeText s, params, ctx)
  | .uri, .url u => .ok (u.geturl, params, ctx)
  | .binary, .bytes b => .ok (b64encode b, params, ctx)
  | .datetime, .dt d => serializeDt L.toWorld d params ctx
  | .duration, .dur us => .ok (durationSerialize us, params, ctx)
  | .integer, .int n => (intSerialize n).map fun s => (s, params, ctx)
  | .integer, .bool b => .ok (if b then "True".toList else "False".toList, params, ctx)
  | .boolean, .bool b => .ok (boolSerialize b, params, ctx)
  | .geo, .geo a b => .ok (L.formatFloat a ++ ';' :: L.formatFloat b, params, ctx)
  | .organizer, .person _ e extra => .ok (e.str?, dictUpdate params extra, ctx)
  | .attendee, .person _ e extra => .ok (e.str?, dictUpdate params extra, ctx)
  | _, _ => .error .typeError

end Ics
