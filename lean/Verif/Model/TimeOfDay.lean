import Verif.Model.Timezone

/-
`Timezone` objects asked without a moment, as `datetime.time` asks them (/repo/src/ics/timezone/__init__.py:185-230).
-/
namespace Ics

/-- `utcoffset(None)`, `dst(None)`, `tzname(None)` of a `Timezone`
(/repo/src/ics/timezone/__init__.py:185-189, 216-230); `none` is Python's `None`.  With two or more observances
`_find_observance` calls `None.replace`. -/
def askTzNone (obs : List Observance) (q : TzQuery) : Except PyErr (Option TzAnswer) :=
  match q with
  | .utcoffset => .ok none
  | .dst | .tzname =>
    match obs with
    | [] => .error .indexError
    | [o] => .ok (some (o.answer q))
    | _ :: _ :: _ => .error .attributeError

/-- The `tzinfo` of a `time` (the values of `TimeConverter`, /repo/src/ics/valuetype/datetime.py:197-227): a
`Timezone` object with its observances, or a `datetime.timezone` with its offset.  `id` is the identity of the
object. -/
inductive ClockZone where
  | timezone (id : Nat) (obs : List Observance)
  | fixed (id : Nat) (off : Int)

/-- The identity of the object, for `is` (datetime.py:1434 of CPython, called for the zones of
/repo/src/ics/timezone/__init__.py:86-230). -/
def ClockZone.ident : ClockZone → Nat
  | .timezone id _ => id
  | .fixed id _ => id

/-- A `datetime.time` with its zone object: microseconds since midnight and `tzinfo` (the values of
`TimeConverter`, /repo/src/ics/valuetype/datetime.py:204-206).  `fold` takes no part in comparisons. -/
structure Clock where
  us : Int
  tz : Option ClockZone

/-- `time.utcoffset`, `time.dst` and `time.tzname` (datetime.py:1570-1605 of CPython), which ask the zone with
`None`: for `Timezone` the methods at /repo/src/ics/timezone/__init__.py:216-230, for `datetime.timezone` the
offset; the name of a `datetime.timezone` is left out. -/
def Clock.ask (t : Clock) (q : TzQuery) : Except PyErr (Option TzAnswer) :=
  match t.tz with
  | none => .ok none
  | some (.timezone _ obs) => askTzNone obs q
  | some (.fixed _ off) =>
    match q with
    | .utcoffset => .ok (some (.delta off))
    | .dst => .ok none
    | .tzname => .ok (some (.name none))

/-- The microseconds in a minute (`timedelta(minutes=1)`, datetime.py:1457 of CPython; offsets as in
/repo/src/ics/timezone/__init__.py:216-220). -/
def minuteUs : Int := 60000000

/-- `time._cmp` (datetime.py:1430-1461 of CPython) with the offsets that /repo/src/ics/timezone/__init__.py:216-220
gives; `mixed` is `allow_mixed`, which `==` sets and `<` does not.  `none` is the arbitrary value for "different".
The comparison of the tuples of hours, minutes, seconds and microseconds is the comparison of the microseconds
since midnight. -/
def Clock.cmp (mixed : Bool) (a b : Clock) : Except PyErr (Option Ordering) :=
  if a.tz.map ClockZone.ident = b.tz.map ClockZone.ident then .ok (some (compare a.us b.us))
  else
    match a.ask .utcoffset with
    | .error e => .error e
    | .ok x =>
      match b.ask .utcoffset with
      | .error e => .error e
      | .ok y =>
        if x = y then .ok (some (compare a.us b.us))
        else
          match x, y with
          | some (.delta x), some (.delta y) =>
            .ok (some (compare (a.us - x / minuteUs * minuteUs) (b.us - y / minuteUs * minuteUs)))
          | _, _ => if mixed then .ok none else .error .typeError

/-- `a == b` for times of day (datetime.py:1401-1405 of CPython; the offsets are those of
/repo/src/ics/timezone/__init__.py:216-220). -/
def Clock.eq (a b : Clock) : Except PyErr Bool :=
  match a.cmp true b with
  | .error e => .error e
  | .ok r => .ok (r == some .eq)

/-- `a < b` for times of day (datetime.py:1413-1417 of CPython; the offsets are those of
/repo/src/ics/timezone/__init__.py:216-220). -/
def Clock.lt (a b : Clock) : Except PyErr Bool :=
  match a.cmp false b with
  | .error e => .error e
  | .ok r => .ok (r == some .lt)

end Ics
