import Verif.Model.Vtimezone
import Verif.Model.Parser

/-
From `tzinfo` objects and names to `Timezone` objects: `is_utc`, `Timezone.from_tzinfo`, `Timezone.from_tzid`,
`to_builtin` (/repo/src/ics/timezone/__init__.py:52-79, 136-167, 233-246, timezone/converters.py).
-/
namespace Ics

/-- The classes of `tzinfo` objects that `Timezone.from_tzinfo` knows besides `Timezone` and
`datetime.timezone`, with the attributes it looks at (/repo/src/ics/timezone/converters.py:117-123, 128-178):
`ZoneInfo` and its key; `tzfile` and its file name, `tzwin` and its name, `tzwinlocal`, `tzlocal`, `tzstr`,
`tzical` or `_tzicalvtz`, `tzrange` of dateutil; `pytz.utc`, `DstTzInfo`, `StaticTzInfo` and
`reference.FixedOffset` with their names and offsets, `reference.LocalTimezone`, `reference.USTimeZone` of
pytz; any other class. -/
inductive TzKind where
  | zoneInfo (key : Option Str)
  | tzfile (filename : Option Str)
  | tzwin (name : Str)
  | tzwinlocal
  | tzlocal
  | tzstr
  | tzical
  | tzrange
  | pytzUtc
  | pytzDst
  | pytzStatic (name : Str) (offset : Int)
  | pytzFixed (name : Str) (offset : Int)
  | pytzLocal
  | pytzUs
  | other
deriving DecidableEq, Repr

/-- A `tzinfo` object (/repo/src/ics/timezone/converters.py:51-53): a `Timezone`; a `datetime.timezone` with
its offset in microseconds and the name it was given; or an object of another class with what `str` gives,
and whether it is equal to `timezone.utc` or `dateutil.tz.UTC`, is a `tzutc`, or its class has the qualified
name `pytz.UTC` (/repo/src/ics/timezone/__init__.py:70-73), which is left open. -/
inductive TzInfo where
  | ics (z : TzObj)
  | builtin (offset : Int) (name : Option Str)
  | foreign (kind : TzKind) (str : Str) (knownUtc : Bool)

/-- The decimal digits of a number with zeros in front (`f"{n:06d}"`, datetime.py:2402-2404 of CPython, used
by `tzname`, /repo/src/ics/timezone/converters.py:110). -/
def padTo (w n : Nat) : Str := List.replicate (w - (natStr n).length) '0' ++ natStr n

/-- `timezone._name_from_offset` (datetime.py:2390-2407 of CPython, used by `tzname`,
/repo/src/ics/timezone/converters.py:110). -/
def nameFromOffset (us : Int) : Str :=
  if us = 0 then "UTC".toList
  else
    let a := us.natAbs
    "UTC".toList ++ [if us < 0 then '-' else '+'] ++ padTo 2 (a / 3600000000) ++ ':' :: padTo 2 (a / 60000000 % 60) ++
      (if a % 1000000 ≠ 0 then ':' :: padTo 2 (a / 1000000 % 60) ++ '.' :: padTo 6 (a % 1000000)
      else if a / 1000000 % 60 ≠ 0 then ':' :: padTo 2 (a / 1000000 % 60)
      else [])

/-- `tzname(None)` of a `datetime.timezone`, which is also its `str` (datetime.py:2350-2370 of CPython, used in
/repo/src/ics/timezone/__init__.py:76, timezone/converters.py:110). -/
def builtinName (offset : Int) (name : Option Str) : Str := name.getD (nameFromOffset offset)

/-- `s.upper() in ["UTC", "ETC/UTC"]` (/repo/src/ics/timezone/__init__.py:74, 76).  No character outside ASCII
has one of these letters as its upper case, so mapping only ASCII letters makes no difference. -/
def utcName (s : Str) : Bool := upper s = "UTC".toList ∨ upper s = "ETC/UTC".toList

/-- `is_utc` for a `tzinfo` (/repo/src/ics/timezone/__init__.py:62-79).  A `datetime.timezone` is equal to
`timezone.utc` if its offset is zero (datetime.py:2323-2326 of CPython); a `Timezone` that is equal to
`ics.UTC` has its name. -/
def TzInfo.isUtc : TzInfo → Bool
  | .ics z => utcName z.tzid
  | .builtin offset name => offset = 0 || utcName (builtinName offset name)
  | .foreign _ str knownUtc => knownUtc || utcName str

/-- `RRULE_EPOCH_START` as a rule set (/repo/src/ics/timezone/__init__.py:92-98, 233-235). -/
def epochRules : RuleSet :=
  ⟨[⟨some ⟨719162 * 86400000000, false, none⟩, "DTSTART:19700101T000000\nRRULE:FREQ=YEARLY;COUNT=1".toList⟩], [], [], []⟩

/-- `Timezone_from_offset` (/repo/src/ics/timezone/converters.py:94-105). -/
def tzFromOffset (name : Str) (offset : Int) : TzObj where
  tzid := name
  observances := [⟨false, 0, offset, epochRules, some name, none, [], []⟩]
  tzurl := none
  lastModified := none
  extra := []
  extraParams := []

/-- `UTC` (/repo/src/ics/timezone/__init__.py:236-246). -/
def utcZone : TzObj where
  tzid := "UTC".toList
  observances := [⟨false, 0, 0, epochRules, some "UTC".toList, none, [], []⟩]
  tzurl := none
  lastModified := none
  extra := []
  extraParams := []

/-- The package `ics_vtimezones` (/repo/src/ics/timezone/converters.py:36-42, __init__.py:152-154): the text
of the file for a name (`none` if there is no such file), the name for a Windows zone, and
`BUILTIN_TZID_PREFIX`. -/
structure VtzFiles where
  find : Str → Option Str
  windowsToOlson : Str → Option Str
  builtinPrefix : Str

/-- The text of the file for a name (/repo/src/ics/timezone/converters.py:38-44). -/
def VtzFiles.file (V : VtzFiles) (tzid : Str) : Option Str :=
  match V.find tzid with
  | some t => some t
  | none =>
    match V.windowsToOlson tzid with
    | none => none
    | some olson => if olson = [] then none else V.find olson

/-- `one(iterable)` (/repo/src/ics/utils.py:192-206) for what the parser yields. -/
def oneOf (g : Gen Item) : Except PyErr Item :=
  match g.items, g.err with
  | [], none => .error .valueError
  | [], some e => .error e
  | [i], none => .ok i
  | [_], some e => .error e
  | _ :: _ :: _, _ => .error .valueError

/-- `Timezone_from_tzid` (/repo/src/ics/timezone/converters.py:35-48).  A content line has no length
(`TypeError`); a content line VTIMEZONE as third item is iterated, which looks up the parameter `0`
(`KeyError`, /repo/src/ics/contentline/container.py:194-195, converter/component.py:152). -/
def tzFromTzid (V : VtzFiles) (L : Lib) (w : Wrap) (R : RRuleStr) (tzid : Str) : Except PyErr TzObj :=
  match V.file tzid with
  | none => .error .valueError
  | some text => do
    match ← oneOf (stringToContainers text) with
    | .line _ => .error .typeError
    | .cont _ items =>
      match items with
      | [_, _, i] =>
        if i.name = "VTIMEZONE".toList then
          match i with
          | .cont _ is => loadTimezone L w R is
          | .line _ => .error .keyError
        else .error .valueError
      | _ => .error .valueError

/-- What a converter of `TIMEZONE_CONVERTERS` returns: a `Timezone` or a `TimezoneResult`
(/repo/src/ics/timezone/converters.py:28-32). -/
inductive TzResult where
  | zone (z : TzObj)
  | cont
  | localTime
  | unserializable
  | notImplemented

/-- `Timezone_from_builtin` (/repo/src/ics/timezone/converters.py:108-125); `lookup` is `Timezone.from_tzid`. -/
def fromBuiltin (lookup : Str → Except PyErr TzObj) : TzInfo → Except PyErr TzResult
  | .builtin offset name => .ok (.zone (tzFromOffset (builtinName offset name) offset))
  | .foreign (.zoneInfo key) _ _ =>
    match key with
    | none | some [] => .ok .unserializable
    | some (c :: k) => (lookup (c :: k)).map .zone
  | _ => .ok .cont

/-- `s.endswith(t)` (/repo/src/ics/timezone/converters.py:133). -/
def endsWith (s t : Str) : Bool := t.reverse.isPrefixOf s.reverse

/-- `Timezone_from_dateutil` (/repo/src/ics/timezone/converters.py:128-150). -/
def fromDateutil (lookup : Str → Except PyErr TzObj) : TzInfo → Except PyErr TzResult
  | .foreign (.tzfile filename) _ _ =>
    match filename with
    | none | some [] => .ok .unserializable
    | some (c :: f) => if endsWith (c :: f) "localtime".toList then .ok .localTime else (lookup (c :: f)).map .zone
  | .foreign (.tzwin name) _ _ => (lookup name).map .zone
  | .foreign .tzwinlocal _ _ | .foreign .tzlocal _ _ => .ok .localTime
  | .foreign .tzstr _ _ | .foreign .tzical _ _ | .foreign .tzrange _ _ => .ok .notImplemented
  | _ => .ok .cont

/-- `Timezone_from_pytz` (/repo/src/ics/timezone/converters.py:153-178). -/
def fromPytz : TzInfo → Except PyErr TzResult
  | .foreign .pytzUtc _ _ => .ok (.zone utcZone)
  | .foreign .pytzDst _ _ | .foreign .pytzUs _ _ => .ok .notImplemented
  | .foreign (.pytzStatic name offset) _ _ | .foreign (.pytzFixed name offset) _ _ =>
    .ok (.zone (tzFromOffset name offset))
  | .foreign .pytzLocal _ _ => .ok .localTime
  | _ => .ok .cont

/-- The loop over `TIMEZONE_CONVERTERS` (/repo/src/ics/timezone/converters.py:71-91); `none` is `None`. -/
def tryConverters : List (Except PyErr TzResult) → Except PyErr (Option TzObj)
  | [] => .error .valueError
  | r :: rs =>
    match r with
    | .error e => .error e
    | .ok .cont => tryConverters rs
    | .ok .localTime => .ok none
    | .ok .unserializable | .ok .notImplemented => .error .valueError
    | .ok (.zone z) => .ok (some z)

/-- `Timezone_from_tzinfo` (/repo/src/ics/timezone/converters.py:51-91, 181-185).  The cache is a new
dictionary in every call and looked at before anything is put into it, so it never gives a result; it is
left out, and so is the entry of the context that keeps the dictionary of the first call. -/
def tzFromTzinfo (lookup : Str → Except PyErr TzObj) (t : TzInfo) : Except PyErr (Option TzObj) :=
  match t with
  | .ics z => .ok (some z)
  | t => if t.isUtc then .ok (some utcZone) else tryConverters [fromBuiltin lookup t, fromDateutil lookup t, fromPytz t]

/-- `Timezone.is_builtin` (/repo/src/ics/timezone/__init__.py:150-154). -/
def TzObj.isBuiltin (V : VtzFiles) (z : TzObj) : Bool := (TzInfo.ics z).isUtc || V.builtinPrefix.isPrefixOf z.tzid

/-- `Timezone.to_builtin` (/repo/src/ics/timezone/__init__.py:156-167), without the warning. -/
def TzObj.toBuiltin (V : VtzFiles) (L : Lib) (w : Wrap) (R : RRuleStr) (z : TzObj) : Except PyErr TzObj :=
  if z.isBuiltin V then .ok z else tzFromTzid V L w R z.tzid

end Ics
