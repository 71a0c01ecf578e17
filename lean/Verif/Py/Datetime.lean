import Verif.Py.Number
import Verif.Py.Calendar

/-
`datetime.datetime` of CPython (/app/python311/lib/python3.11/datetime.py) as the library uses it.
Durations and wall clocks are integers counting microseconds.
-/
namespace Ics

/-- One day in microseconds (`TIMEDELTA_DAY`, /repo/src/ics/utils.py:11). -/
def dayUs : Int := 86400000000

/-- One past the largest wall clock (`datetime.max` is 9999-12-31 23:59:59.999999; bound of every
`datetime` in /repo/src/ics). -/
def maxWall : Int := 3652059 * 86400000000

/-- The identity of a `tzinfo` object.  `zone n` are the objects the program holds on to; `loc k` is
the `k`-th object created by calling `tzlocal()` (/repo/src/ics/timespan.py:137-139); `fixed o` is
a `datetime.timezone` with offset `o` created by `astimezone(None)` (timespan.py:219).  Two such
objects with the same offset behave alike in every comparison, so they are not told apart. -/
inductive Tz where
  | zone (n : Nat)
  | loc (k : Nat)
  | fixed (o : Int)
deriving DecidableEq, Repr

/-- A `datetime` object: wall clock in microseconds since 0001-01-01 00:00, `fold` and `tzinfo`
(used throughout /repo/src/ics/timespan.py). -/
structure DT where
  wall : Int
  fold : Bool := false
  tz : Option Tz := none
deriving DecidableEq, Repr

/-- What the `tzinfo` objects and the operating system do.  Every theorem holds for all of them.

* `off n w f`: `utcoffset` of zone `n` for wall clock `w` and fold `f`
  (e.g. `Timezone.utcoffset`, /repo/src/ics/timezone/__init__.py:216-220);
* `fromUtc n u`: wall clock and fold that `fromutc` of zone `n` gives for the UTC wall clock `u`;
* `locOff`, `locFromUtc`: the same for `dateutil.tz.tzlocal()`;
* `sysOff`: the offset that the platform's `localtime` has for a naive wall clock (used by
  `astimezone` on a naive `datetime`);
* `sysUtcOff u`: the offset that the platform's `localtime` has at the UTC wall clock `u` (used by
  `astimezone(None)` on an aware `datetime`);
* `isUtc n`: `is_utc` (/repo/src/ics/timezone/__init__.py:62-79). -/
structure Env where
  off : Nat → Int → Bool → Int
  fromUtc : Nat → Int → Int × Bool
  locOff : Int → Bool → Int
  locFromUtc : Int → Int × Bool
  sysOff : Int → Bool → Int
  sysUtcOff : Int → Int
  isUtc : Nat → Bool

/-- `tz.utcoffset(dt)` (used by every comparison of aware values,
/repo/src/ics/timespan.py:246-290). -/
def Env.tzOff (e : Env) : Tz → Int → Bool → Int
  | .zone n => e.off n
  | .loc _ => e.locOff
  | .fixed o => fun _ _ => o

/-- `tz.fromutc(dt)` (used by `astimezone`, /repo/src/ics/timespan.py:219-222). -/
def Env.tzFromUtc (e : Env) : Tz → Int → Int × Bool
  | .zone n => e.fromUtc n
  | .loc _ => e.locFromUtc
  | .fixed o => fun u => (u + o, false)

/-- The offset of an aware value, `None` for a naive one (`datetime.utcoffset`; used by the
comparisons in /repo/src/ics/timespan.py:246-290). -/
def Env.utcoffset (e : Env) (d : DT) : Option Int := d.tz.map fun t => e.tzOff t d.wall d.fold

/-- A wall clock in the supported range, `OverflowError` otherwise (`datetime.__add__`,
datetime.py:2177-2194 of CPython; used in /repo/src/ics/timespan.py:398). -/
def mkWall (w : Int) : Except PyErr Int :=
  if 0 ≤ w ∧ w < maxWall then .ok w else .error .overflowError

/-- `dt + td` (datetime.py:2177-2194 of CPython; used in /repo/src/ics/timespan.py:398): moves the
wall clock, keeps the zone object, resets `fold`. -/
def DT.add (d : DT) (td : Int) : Except PyErr DT :=
  match mkWall (d.wall + td) with
  | .ok w => .ok ⟨w, false, d.tz⟩
  | .error e => .error e

/-- `a - b` for two `datetime`s (datetime.py:2198-2220 of CPython; used in
/repo/src/ics/timespan.py:406): the same zone object gives the difference of the wall clocks,
otherwise the difference of the instants; mixing naive and aware is a `TypeError`. -/
def Env.sub (e : Env) (a b : DT) : Except PyErr Int :=
  if a.tz = b.tz then .ok (a.wall - b.wall)
  else
    match e.utcoffset a, e.utcoffset b with
    | some oa, some ob => .ok (a.wall - b.wall + ob - oa)
    | _, _ => .error .typeError

/-- The sign of `a._cmp(b)` as used by `<`, `<=`, `>`, `>=` (datetime.py:2140-2175 of CPython;
used in /repo/src/ics/timespan.py:246-253): a number that is negative, zero or positive. -/
def Env.cmp (e : Env) (a b : DT) : Except PyErr Int := e.sub a b

/-- `a < b` (used in /repo/src/ics/timespan.py:246). -/
def Env.lt (e : Env) (a b : DT) : Except PyErr Bool := (e.cmp a b).map fun x => decide (x < 0)

/-- `a <= b` (used in /repo/src/ics/timespan.py:488). -/
def Env.le (e : Env) (a b : DT) : Except PyErr Bool := (e.cmp a b).map fun x => decide (x ≤ 0)

/-- `a == b` (datetime.py:2140-2175 of CPython with `allow_mixed`; used in
/repo/src/ics/timespan.py:361 and by the generated `__eq__`): never raises; values in different zone
objects are different if the offset of one of them depends on `fold`. -/
def Env.eq (e : Env) (a b : DT) : Bool :=
  if a.tz = b.tz then decide (a.wall = b.wall)
  else
    match a.tz, b.tz with
    | some ta, some tb =>
      let oa := e.tzOff ta a.wall a.fold
      let ob := e.tzOff tb b.wall b.fold
      if oa ≠ e.tzOff ta a.wall (!a.fold) then false
      else if ob ≠ e.tzOff tb b.wall (!b.fold) then false
      else decide (a.wall - oa = b.wall - ob)
    | _, _ => false

/-- `dt.replace(tzinfo=tz)` (used in /repo/src/ics/timespan.py:196-207): `fold` is kept. -/
def DT.replaceTz (d : DT) (tz : Option Tz) : DT := { d with tz := tz }

/-- `dt.astimezone(tz)` for a `tzinfo` object `tz` (datetime.py:1968-1991 of CPython; used in
/repo/src/ics/timespan.py:219-222). -/
def Env.astimezone (e : Env) (d : DT) (tz : Tz) : Except PyErr DT :=
  if d.tz = some tz then .ok d
  else
    let off :=
      match d.tz with
      | some t => e.tzOff t d.wall d.fold
      | none => e.sysOff d.wall d.fold
    match mkWall (d.wall - off) with
    | .error x => .error x
    | .ok u =>
      let r := e.tzFromUtc tz u
      match mkWall r.1 with
      | .ok w => .ok ⟨w, r.2, some tz⟩
      | .error x => .error x

/-- `dt.astimezone(tz)` where `None` stands for the system's local zone at that instant, as a fixed
offset (`_local_timezone`, datetime.py:1950-1966 of CPython; used in
/repo/src/ics/timespan.py:219-222).  Simplified: for an aware value the lookup truncates to whole
seconds, which `sysUtcOff` is free to do. -/
def Env.astimezone? (e : Env) (d : DT) (tz : Option Tz) : Except PyErr DT :=
  match tz with
  | some t => e.astimezone d t
  | none =>
    match d.tz with
    | none => e.astimezone d (.fixed (e.sysOff d.wall d.fold))
    | some t => e.astimezone d (.fixed (e.sysUtcOff (d.wall - e.tzOff t d.wall d.fold)))

/-- `datetime.combine(dt.date(), time(), tzinfo=dt.tzinfo)`
(`floor_datetime_to_midnight`, /repo/src/ics/utils.py:88-95): `fold` is 0. -/
def DT.floorDay (d : DT) : DT := ⟨d.wall - d.wall % dayUs, false, d.tz⟩

/-- The calendar fields of a wall clock: year, month, day, hour, minute, second (used by `strftime`,
/repo/src/ics/valuetype/datetime.py:45, 53, 183). -/
structure Fields where
  year : Nat
  month : Nat
  day : Nat
  hour : Nat
  minute : Nat
  second : Nat
deriving DecidableEq, Repr

/-- Fields from a wall clock (`datetime.fromordinal`, datetime.py:88-148 of CPython; used by
`strftime`, /repo/src/ics/valuetype/datetime.py:45, 53, 183). -/
def fieldsOf (wall : Int) : Fields :=
  let days := (wall / dayUs).toNat
  let secs := (wall % dayUs / 1000000).toNat
  let ymd := ord2ymd (days + 1)
  ⟨ymd.1, ymd.2.1, ymd.2.2, secs / 3600, secs % 3600 / 60, secs % 60⟩

/-- `datetime(year, month, day, hour, minute, second)` with its range checks
(datetime.py:1636-1664 of CPython; called by `strptime`, /repo/src/ics/valuetype/datetime.py:88). -/
def wallOf (f : Fields) : Except PyErr Int :=
  if 1 ≤ f.year ∧ f.year ≤ 9999 ∧ 1 ≤ f.month ∧ f.month ≤ 12 ∧ 1 ≤ f.day ∧
      f.day ≤ daysInMonth (isLeap f.year) f.month ∧ f.hour < 24 ∧ f.minute < 60 ∧ f.second < 60 then
    .ok (((ymd2ord f.year f.month f.day - 1 : Nat) : Int) * dayUs +
      ((f.hour * 3600 + f.minute * 60 + f.second : Nat) : Int) * 1000000)
  else .error .valueError

end Ics
