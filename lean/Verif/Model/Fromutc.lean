import Verif.Model.Timezone

/-
`datetime.astimezone` into a `Timezone`: the class (/repo/src/ics/timezone/__init__.py:127) does not define
`fromutc`, so it has the one of `datetime.tzinfo` (datetime.py:1242-1269 of CPython).
-/
namespace Ics

/-- `dt.utcoffset()` and `dt.dst()` of a `datetime` in this zone with `fold=0` (datetime.py:2061-2068, 2083-2098 of
CPython, asking /repo/src/ics/timezone/__init__.py:216-227): `ValueError` unless the answer is strictly
between minus one day and one day (`_check_utc_offset`, datetime.py:503-513 of CPython).  The first query
asks for the offset, any other one stands for `dst`, as only these two are used.  Returns the answer and
the cache afterwards. -/
def checkedDelta (obs : List Observance) (q : TzQuery) (wall : Int) (cache : TzCache) :
    Except PyErr Int × TzCache :=
  match askTz obs q wall false cache with
  | (.ok (.delta d), cache) => if -dayUs < d ∧ d < dayUs then (.ok d, cache) else (.error .valueError, cache)
  | (.ok (.name _), cache) => (.error .typeError, cache)
  | (.error e, cache) => (.error e, cache)

/-- `dt + delta` (datetime.py:2177-2194 of CPython; used by `fromutc`, which
`Timezone`, /repo/src/ics/timezone/__init__.py:127, inherits). -/
def shifted (r : Except PyErr Int × TzCache) (wall : Int) : Except PyErr Int × TzCache :=
  match r with
  | (.ok d, cache) => (mkWall (wall + d), cache)
  | (.error e, cache) => (.error e, cache)

/-- `Timezone.fromutc` (inherited by /repo/src/ics/timezone/__init__.py:127 from `tzinfo`,
datetime.py:1242-1269 of CPython) for a time `u` in UTC whose zone has been replaced by this one, as
`astimezone` does: the local clock (always with `fold=0`) and the cache afterwards. -/
def zoneFromUtc (obs : List Observance) (u : Int) (cache : TzCache) : Except PyErr Int × TzCache :=
  match checkedDelta obs .utcoffset u cache with
  | (.error e, cache) => (.error e, cache)
  | (.ok off, cache) =>
    match checkedDelta obs .dst u cache with
    | (.error e, cache) => (.error e, cache)
    | (.ok dst, cache) =>
      if off - dst = 0 then (mkWall (u + dst), cache)
      else
        match mkWall (u + (off - dst)) with
        | .error e => (.error e, cache)
        | .ok w => shifted (checkedDelta obs .dst w cache) w

end Ics
