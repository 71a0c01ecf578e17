import Verif.Py.Datetime

/-
`Timezone` and its observances (/repo/src/ics/timezone/__init__.py), and `functools.lru_cache`.
-/
namespace Ics

/-- An `rruleset` as far as time zones use it: its occurrences are naive date-times (here wall clocks),
and `before(dt, inc=True)` gives the last one at or before `dt`, `None` if there is none
(`TimezoneObservance.rrule`, /repo/src/ics/timezone/__init__.py:105, 196-199).  How occurrences follow
from the rules is the business of dateutil and left open; the theorems hold for every set of
occurrences in which `before` is defined. -/
structure Rule where
  occurs : Int → Prop
  before : Int → Option Int
  before_some : ∀ t x, before t = some x → occurs x ∧ x ≤ t ∧ ∀ y, occurs y → y ≤ t → y ≤ x
  before_none : ∀ t, before t = none → ∀ y, occurs y → t < y

/-- `TimezoneObservance` (/repo/src/ics/timezone/__init__.py:101-124); `isDst` tells
`TimezoneDaylightObservance` from `TimezoneStandardObservance`.  The comment and extra items are not
modelled. -/
structure Observance where
  offsetFrom : Int
  offsetTo : Int
  rule : Rule
  tzname : Option Str := none
  isDst : Bool

/-- `tzoffsetdiff` (/repo/src/ics/timezone/__init__.py:112-114). -/
def Observance.diff (o : Observance) : Int := o.offsetTo - o.offsetFrom

/-- `comp.rrule.before(…)` (/repo/src/ics/timezone/__init__.py:196-199): if the clock is turned back and
`fold` is set, the time is moved on first; this may leave the range of `datetime`. -/
def Observance.onset (o : Observance) (wall : Int) (fold : Bool) : Except PyErr (Option Int) :=
  if o.diff < 0 ∧ fold = true then
    match mkWall (wall - o.diff) with
    | .ok w => .ok (o.rule.before w)
    | .error e => .error e
  else .ok (o.rule.before wall)

/-- `compdt and (not lastcompdt or lastcompdt < compdt)` and the assignments
(/repo/src/ics/timezone/__init__.py:200-202): `last` holds `lastcompdt` and `lastcomp`. -/
def laterOnset (last : Option (Int × Observance)) (o : Observance) (compdt : Option Int) :
    Option (Int × Observance) :=
  match compdt with
  | none => last
  | some x =>
    match last with
    | none => some (x, o)
    | some (y, o') => if y < x then some (x, o) else some (y, o')

/-- The loop over the observances (/repo/src/ics/timezone/__init__.py:194-202). -/
def lastOnset (wall : Int) (fold : Bool) (last : Option (Int × Observance)) :
    List Observance → Except PyErr (Option (Int × Observance))
  | [] => .ok last
  | o :: os =>
    match o.onset wall fold with
    | .error e => .error e
    | .ok c => lastOnset wall fold (laterOnset last o c) os

/-- The observance before any onset (/repo/src/ics/timezone/__init__.py:207-214): the first standard one,
otherwise the first one. -/
def firstObservance (obs : List Observance) : Except PyErr Observance :=
  match obs.find? fun o => !o.isDst with
  | some o => .ok o
  | none =>
    match obs with
    | o :: _ => .ok o
    | [] => .error .indexError

/-- `_find_observance_cachable` without the cache (/repo/src/ics/timezone/__init__.py:191-214). -/
def findObservance (obs : List Observance) (wall : Int) (fold : Bool) : Except PyErr Observance :=
  match lastOnset wall fold none obs with
  | .error e => .error e
  | .ok (some r) => .ok r.2
  | .ok none => firstObservance obs

/-- `functools.lru_cache(maxsize)(f)` called with a key (functools.py:535-593 of CPython; used in
/repo/src/ics/timezone/__init__.py:173): the cache is the list of keys and results, the most recently
used first.  Exceptions are not cached.  Returns the result and the cache afterwards. -/
def lruCall {κ α : Type} [DecidableEq κ] (maxsize : Nat) (key : κ) (call : Except PyErr α)
    (cache : List (κ × α)) : Except PyErr α × List (κ × α) :=
  match dictGet? cache key with
  | some v => (.ok v, (key, v) :: dictErase cache key)
  | none =>
    match call with
    | .error e => (.error e, cache)
    | .ok v => (.ok v, ((key, v) :: cache).take maxsize)

/-- The cache of a `Timezone` object (/repo/src/ics/timezone/__init__.py:169-174): the key is the naive
`datetime`, and `datetime.__eq__` and `__hash__` ignore `fold`. -/
abbrev TzCache := List (Int × Observance)

/-- `_find_observance` (/repo/src/ics/timezone/__init__.py:185-189): what it returns, and the cache
afterwards. -/
def askObservance (obs : List Observance) (wall : Int) (fold : Bool) (cache : TzCache) :
    Except PyErr Observance × TzCache :=
  match obs with
  | [] => (.error .indexError, cache)
  | [o] => (.ok o, cache)
  | _ :: _ :: _ => lruCall 10 wall (findObservance obs wall fold) cache

/-- The queries of a `tzinfo` (/repo/src/ics/timezone/__init__.py:216-230). -/
inductive TzQuery where
  | utcoffset
  | dst
  | tzname
deriving DecidableEq, Repr

/-- What a query returns: an offset or a name. -/
inductive TzAnswer where
  | delta (d : Int)
  | name (s : Option Str)
deriving DecidableEq, Repr

/-- The answer, given the observance (/repo/src/ics/timezone/__init__.py:216-230). -/
def Observance.answer (o : Observance) : TzQuery → TzAnswer
  | .utcoffset => .delta o.offsetTo
  | .dst => .delta (if o.isDst then o.diff else 0)
  | .tzname => .name o.tzname

/-- `utcoffset(dt)`, `dst(dt)`, `tzname(dt)` of a `Timezone` (/repo/src/ics/timezone/__init__.py:216-230)
for a `datetime`, and the cache afterwards. -/
def askTz (obs : List Observance) (q : TzQuery) (wall : Int) (fold : Bool) (cache : TzCache) :
    Except PyErr TzAnswer × TzCache :=
  match askObservance obs wall fold cache with
  | (.ok o, cache) => (.ok (o.answer q), cache)
  | (.error e, cache) => (.error e, cache)

/-- The cache after a history of queries on a new `Timezone` object
(/repo/src/ics/timezone/__init__.py:169-174, 185-230). -/
def tzHistory (obs : List Observance) : List (TzQuery × Int × Bool) → TzCache → TzCache
  | [], cache => cache
  | (q, wall, fold) :: h, cache => tzHistory obs h (askTz obs q wall fold cache).2

end Ics
