import Verif.Model.Datetime

/-
`TimeConverter` (/repo/src/ics/valuetype/datetime.py:197-227).
-/
namespace Ics

/-- A `datetime.time`: microseconds since midnight, `fold` and `tzinfo` (the values of `TimeConverter`,
/repo/src/ics/valuetype/datetime.py:204-206). -/
structure TimeVal where
  us : Int
  fold : Bool
  tz : Option Tz
deriving DecidableEq, Repr

/-- `strftime("%H%M%S")` (/repo/src/ics/valuetype/datetime.py:45, 53, 215). -/
def timeStr (us : Int) : Str :=
  let secs := (us / 1000000).toNat
  pad2 (secs / 3600) ++ pad2 (secs % 3600 / 60) ++ pad2 (secs % 60)

/-- `TimeConverter.serialize` (/repo/src/ics/valuetype/datetime.py:36-53, 208-216).  `is_utc` takes a value that is not
a `datetime` for a `tzinfo` (timezone/__init__.py:63-66), which a `time` is not: it compares equal to no zone
and its `str` is not a name of UTC, so the answer is always `False`. -/
def serializeTime (w : World) (t : TimeVal) (params : Params) (ctx : Ctx) : Except PyErr (Str × Params × Ctx) :=
  match t.tz with
  | none => .ok (timeStr t.us, params, ctx)
  | some tz =>
    match w.conv tz with
    | .unserializable => .error .valueError
    | .localTime => .ok (timeStr t.us, params, ctx)
    | .timezone z =>
      match ctx with
      | none => .error .attributeError
      | some avail =>
        .ok (timeStr t.us, dictSet params "TZID".toList [⟨false, w.tzid z⟩], some (dictSetDefault avail (w.tzid z) z))

/-- `TimeConverter.FORMATS`, the lengths (/repo/src/ics/valuetype/datetime.py:198). -/
def timeFormats : List Nat := [2, 4, 6]

/-- `strptime(value, format)` with a format that has only a time; the date is 1900-01-01, which always exists, and
`timetz` removes it again (/repo/src/ics/valuetype/datetime.py:88, 224).  A 60th or 61st second is refused by
`datetime` (datetime.py:1636-1664 of CPython). -/
def strptimeOfDay (s : Str) : Except PyErr Int :=
  match strptimeTime 1900 1 1 s with
  | none => .error .valueError
  | some f => if f.second < 60 then .ok ((f.hour * 3600 + f.minute * 60 + f.second : Nat) * 1000000) else .error .valueError

/-- `TimeConverter.parse` (/repo/src/ics/valuetype/datetime.py:55-129, 218-224). -/
def parseTime (w : World) (value : Str) (params : Params) (ctx : Ctx) : Except PyErr (TimeVal × Params × Ctx) :=
  match paramTz params with
  | .error e => .error e
  | .ok tz =>
    let params := dictErase params "TZID".toList
    match value.getLast? with
    | none => .error .indexError
    | some last =>
      let tr := stripDt value
      if tr.length ∉ timeFormats then .error .valueError
      else
        match strptimeOfDay tr with
        | .error e => .error e
        | .ok us =>
          if last = 'Z' ∨ last = 'z' then
            match tz with
            | some _ => .error .valueError
            | none => .ok (⟨us, false, some (.zone w.utc)⟩, params, ctx)
          else
            match tz with
            | none => .ok (⟨us, false, none⟩, params, ctx)
            | some name =>
              match selectTz w ctx name with
              | .error e => .error e
              | .ok (z, ctx) => .ok (⟨us, false, some (.zone z)⟩, params, ctx)

end Ics
