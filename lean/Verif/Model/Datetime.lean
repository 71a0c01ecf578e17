import Verif.Py.Datetime
import Verif.Model.Contentline
import Verif.Model.Duration

/-
`DatetimeConverterMixin`, `DatetimeConverter`, `DateConverter`
(/repo/src/ics/valuetype/datetime.py:31-195).
-/
namespace Ics

/-- What `Timezone.from_tzinfo` makes of a `tzinfo` object
(/repo/src/ics/timezone/converters.py:51-91): a `Timezone` object, `None` for local time, or a
`ValueError`. -/
inductive TzConv where
  | timezone (n : Nat)
  | localTime
  | unserializable
deriving DecidableEq, Repr

/-- What the code asks the outside world for: the behaviour of the zone objects, the names of the
`Timezone` objects (/repo/src/ics/timezone/__init__.py:131), `Timezone.from_tzinfo`
(timezone/converters.py:51-91), `Timezone.from_tzid` (timezone/converters.py:35-48; `none` is
`ValueError`), `dateutil.tz.gettz` (`none` is `None`), the object `dateutil.tz.UTC`, and whether the
platform's `strftime("%Y")` pads the year to four digits (glibc does not). -/
structure World extends Env where
  conv : Tz → TzConv
  tzid : Nat → Str
  fromTzid : Str → Option Nat
  gettz : Str → Option Nat
  utc : Nat
  padYear : Bool

/-- `context`: `none` is `EmptyContext` (/repo/src/ics/types.py:143-168), otherwise the entry
`DatetimeAvailableTimezones`, a dictionary from names to zone objects
(/repo/src/ics/valuetype/datetime.py:34, 51, 71); other entries are not modelled, and an absent entry
is an empty dictionary, which is what `setdefault` makes of it. -/
abbrev Ctx := Option (List (Str × Nat))

/-- `d.setdefault(k, v)` (/repo/src/ics/valuetype/datetime.py:51-52, 126): the dictionary afterwards. -/
def dictSetDefault {κ ν : Type} [DecidableEq κ] (d : List (κ × ν)) (k : κ) (v : ν) : List (κ × ν) :=
  match dictGet? d k with
  | some _ => d
  | none => dictSet d k v

/-- `strftime("%Y")` (/repo/src/ics/valuetype/datetime.py:41-42). -/
def yearStr (pad : Bool) (y : Nat) : Str :=
  if pad then List.replicate (4 - (natStr y).length) '0' ++ natStr y else natStr y

/-- `strftime("%Y%m%d")` (/repo/src/ics/valuetype/datetime.py:183). -/
def dateStr (pad : Bool) (f : Fields) : Str := yearStr pad f.year ++ pad2 f.month ++ pad2 f.day

/-- `strftime("%Y%m%dT%H%M%S")` (/repo/src/ics/valuetype/datetime.py:42). -/
def datetimeStr (pad : Bool) (f : Fields) : Str :=
  dateStr pad f ++ 'T' :: (pad2 f.hour ++ pad2 f.minute ++ pad2 f.second)

/-- Two digits as a number, for `strptime` (/repo/src/ics/valuetype/datetime.py:88). -/
def num2 (a b : Char) : Option Nat :=
  if isDigit a ∧ isDigit b then some (Nat.ofDigitChars 10 [a, b] 0) else none

/-- `%Y`: `\d\d\d\d` (`_strptime.py:203` of CPython, used at
/repo/src/ics/valuetype/datetime.py:88). -/
def yearField (a b c d : Char) : Option Nat :=
  match num2 a b, num2 c d with
  | some x, some y => some (100 * x + y)
  | _, _ => none

/-- `%m` with two characters: `1[0-2]|0[1-9]` (`_strptime.py:192` of CPython, used at
/repo/src/ics/valuetype/datetime.py:88). -/
def monthField (a b : Char) : Option Nat :=
  (num2 a b).filter fun n => 1 ≤ n ∧ n ≤ 12

/-- `%d` with two characters: `3[0-1]|[1-2]\d|0[1-9]| [1-9]` (`_strptime.py:186` of CPython, used at
/repo/src/ics/valuetype/datetime.py:88). -/
def dayField (a b : Char) : Option Nat :=
  if a = ' ' then (num2 '0' b).filter fun n => 1 ≤ n
  else (num2 a b).filter fun n => 1 ≤ n ∧ n ≤ 31

/-- `%H` with two characters (`_strptime.py:188` of CPython, used at
/repo/src/ics/valuetype/datetime.py:88). -/
def hourField (a b : Char) : Option Nat := (num2 a b).filter fun n => n ≤ 23

/-- `%M` with two characters (`_strptime.py:193` of CPython, used at
/repo/src/ics/valuetype/datetime.py:88). -/
def minuteField (a b : Char) : Option Nat := (num2 a b).filter fun n => n ≤ 59

/-- `%S` with two characters (`_strptime.py:194` of CPython, used at
/repo/src/ics/valuetype/datetime.py:88). -/
def secondField (a b : Char) : Option Nat := (num2 a b).filter fun n => n ≤ 61

/-- `strptime` for the part `%H[%M[%S]]` (/repo/src/ics/valuetype/datetime.py:88, 135-137). -/
def strptimeTime (y m d : Nat) (s : Str) : Option Fields :=
  match s with
  | [a, b] => (hourField a b).map fun h => ⟨y, m, d, h, 0, 0⟩
  | [a, b, c, e] =>
    match hourField a b, minuteField c e with
    | some h, some n => some ⟨y, m, d, h, n, 0⟩
    | _, _ => none
  | [a, b, c, e, f, g] =>
    match hourField a b, minuteField c e, secondField f g with
    | some h, some n, some x => some ⟨y, m, d, h, n, x⟩
    | _, _, _ => none
  | _ => none

/-- `strptime` for `%Y%m`, `%Y%m%d`, `%Y%m%dT%H`, `%Y%m%dT%H%M`, `%Y%m%dT%H%M%S`
(/repo/src/ics/valuetype/datetime.py:33, 88, 134-138), where the text has exactly the length of the
format, so that every field has its full width.  The literal `T` is matched case-insensitively. -/
def strptimeFields (s : Str) : Option Fields :=
  match s with
  | y1 :: y2 :: y3 :: y4 :: m1 :: m2 :: s =>
    match yearField y1 y2 y3 y4, monthField m1 m2 with
    | some y, some m =>
      match s with
      | [] => some ⟨y, m, 1, 0, 0, 0⟩
      | d1 :: d2 :: s =>
        match dayField d1 d2 with
        | some d =>
          match s with
          | [] => some ⟨y, m, d, 0, 0, 0⟩
          | t :: s => if t = 'T' ∨ t = 't' then strptimeTime y m d s else none
        | none => none
      | _ => none
    | _, _ => none
  | _ => none

/-- `DatetimeConverter.FORMATS`, the lengths (/repo/src/ics/valuetype/datetime.py:33, 133-138). -/
def datetimeFormats : List Nat := [6, 8, 11, 13, 15]

/-- `DatetimeConverterMixin.FORMATS`, the lengths: used by `DateConverter` and `PeriodConverter`
(/repo/src/ics/valuetype/datetime.py:33). -/
def baseFormats : List Nat := [6, 8]

/-- `value.translate(...)` (/repo/src/ics/valuetype/datetime.py:78-80). -/
def stripDt (s : Str) : Str := s.filter fun c => c ≠ '/' ∧ c ≠ '-' ∧ c ≠ 'Z' ∧ c ≠ 'z'

/-- The `TZID` of the parameters (/repo/src/ics/valuetype/datetime.py:62-71): an absent, empty or
blank one is `None`, more than one is a `ValueError`. -/
def paramTz (params : Params) : Except PyErr (Option Str) :=
  match dictGet? params "TZID".toList with
  | none => .ok none
  | some [] => .ok none
  | some [v] => .ok (if v.text = [] then none else some v.text)
  | some (_ :: _ :: _) => .error .valueError

/-- The zone for a `TZID` (/repo/src/ics/valuetype/datetime.py:96-127): a zone of the context,
otherwise one from `Timezone.from_tzid` or `gettz`, which is then registered.  Without a context
registering raises `AttributeError` (`None.setdefault`). -/
def selectTz (w : World) (ctx : Ctx) (name : Str) : Except PyErr (Nat × Ctx) :=
  match ctx.bind fun d => dictGet? d name with
  | some z => .ok (z, ctx)
  | none =>
    match (w.fromTzid name).orElse fun _ => w.gettz name with
    | none => .error .valueError
    | some z =>
      match ctx with
      | none => .error .attributeError
      | some d => .ok (z, some (dictSetDefault d name z))

/-- `_parse_dt` (/repo/src/ics/valuetype/datetime.py:55-129): the value, the remaining parameters and
the context afterwards. -/
def parseDt (w : World) (formats : List Nat) (value : Str) (params : Params) (ctx : Ctx) :
    Except PyErr (DT × Params × Ctx) :=
  match paramTz params with
  | .error e => .error e
  | .ok tz =>
    let params := dictErase params "TZID".toList
    match value.getLast? with
    | none => .error .indexError
    | some last =>
      let fixedUtc : Bool := last = 'Z' ∨ last = 'z'
      let tr := stripDt value
      if tr.length ∉ formats then .error .valueError
      else
        match strptimeFields tr with
        | none => .error .valueError
        | some f =>
          match wallOf f with
          | .error e => .error e
          | .ok wall =>
            if fixedUtc then
              match tz with
              | some _ => .error .valueError
              | none => .ok (⟨wall, false, some (.zone w.utc)⟩, params, ctx)
            else
              match tz with
              | none => .ok (⟨wall, false, none⟩, params, ctx)
              | some name =>
                match selectTz w ctx name with
                | .error e => .error e
                | .ok (z, ctx) => .ok (⟨wall, false, some (.zone z)⟩, params, ctx)

/-- `is_utc` of the zone of a value (/repo/src/ics/timezone/__init__.py:62-79).  `tzlocal()` is not
UTC for it. -/
def Env.dtIsUtc (e : Env) (d : DT) : Bool :=
  match d.tz with
  | some (.zone n) => e.isUtc n
  | _ => false

/-- `_serialize_dt` (/repo/src/ics/valuetype/datetime.py:36-53): text, parameters and context
afterwards.  Without a context `setdefault` gives `None`, whose `setdefault` is an
`AttributeError`. -/
def serializeDt (w : World) (d : DT) (params : Params) (ctx : Ctx) :
    Except PyErr (Str × Params × Ctx) :=
  if w.dtIsUtc d then .ok (datetimeStr w.padYear (fieldsOf d.wall) ++ ['Z'], params, ctx)
  else
    match d.tz with
    | none => .ok (datetimeStr w.padYear (fieldsOf d.wall), params, ctx)
    | some t =>
      match w.conv t with
      | .unserializable => .error .valueError
      | .localTime => .ok (datetimeStr w.padYear (fieldsOf d.wall), params, ctx)
      | .timezone z =>
        match ctx with
        | none => .error .attributeError
        | some avail =>
          .ok (datetimeStr w.padYear (fieldsOf d.wall),
            dictSet params "TZID".toList [⟨false, w.tzid z⟩],
            some (dictSetDefault avail (w.tzid z) z))

/-- `DateConverter.serialize` (/repo/src/ics/valuetype/datetime.py:177-183), for a date given by the
wall clock of its midnight. -/
def serializeDate (w : World) (wall : Int) : Str := dateStr w.padYear (fieldsOf wall)

/-- `DateConverter.parse` (/repo/src/ics/valuetype/datetime.py:185-191): the wall clock of the
date's midnight. -/
def parseDate (w : World) (value : Str) (params : Params) (ctx : Ctx) :
    Except PyErr (Int × Params × Ctx) :=
  match parseDt w baseFormats value params ctx with
  | .ok (d, params, ctx) => .ok (d.wall - d.wall % dayUs, params, ctx)
  | .error e => .error e

end Ics
