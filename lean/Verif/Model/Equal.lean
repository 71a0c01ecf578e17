import Verif.Model.Clone
import Verif.Model.Period
import Verif.Model.Rrule

/-
Equality of components, content lines and containers, which is generated by attrs (`_make_eq`, attrs 22.1 _make.py:1716-1765):
objects of the same class whose tuples of attributes are equal; and the hash of a time span.
-/
namespace Ics

/-- `==` of two content lines (/repo/src/ics/contentline/container.py:132-149): `line_nr` is left out; a `QuotedParamValue`
(container.py:74) equals the plain string with the same text. -/
def lineEq (a b : ContentLine) : Bool := a.name == b.name && paramsEq a.params b.params && a.value == b.value

mutual
/-- `==` of two items of a container (/repo/src/ics/contentline/container.py:132-149, 216-232). -/
def itemEq : Item → Item → Bool
  | .line a, .line b => lineEq a b
  | .cont n is, .cont m js => n == m && itemsEq is js
  | _, _ => false

/-- `==` of the lists of items of two containers (/repo/src/ics/contentline/container.py:228). -/
def itemsEq : List Item → List Item → Bool
  | [], [] => true
  | i :: is, j :: js => itemEq i j && itemsEq is js
  | _, _ => false
end

/-- `==` of two entries of `extra_params` (/repo/src/ics/component.py:21-26): dictionaries or lists of dictionaries. -/
def extraValEq : ExtraVal → ExtraVal → Bool
  | .one p, .one q => paramsEq p q
  | .many ps, .many qs => listEqBy paramsEq ps qs
  | _, _ => false

/-- `==` of two values of attributes (/repo/src/ics/event.py:56-70, 253-266, todo.py:23-29, alarm.py:34-97,
attendee.py:57-114, timespan.py:155): `True` is 1 and `False` is 0, an `Organizer` is never an `Attendee`.  Values of other
different types are not equal.  Simplified: the numbers that stand for floats are compared, so that 0.0 and -0.0 are the same
only if they have the same number. -/
def valEq {σ : Type} (e : Env) (eq : σ → σ → Bool) : Val σ → Val σ → Bool
  | .text a, .text b => a == b
  | .url a, .url b => decide (a = b)
  | .int a, .int b => a == b
  | .int a, .bool b => a == (if b then 1 else 0)
  | .bool a, .int b => (if a then 1 else 0) == b
  | .bool a, .bool b => a == b
  | .bytes a, .bytes b => a == b
  | .dt a, .dt b => e.eq a b
  | .dur a, .dur b => a == b
  | .geo a b, .geo c d => a == c && b == d
  | .person a m x, .person b n y => a == b && decide (m = n) && paramsEq x y
  | .span a, .span b => e.spanEq a b
  | .comp a, .comp b => eq a b
  | _, _ => false

/-- `==` of two attributes (/repo/src/ics/event.py:56-70, 253-266): `None`, values or lists. -/
def attrEq {σ : Type} (e : Env) (eq : σ → σ → Bool) : AttrVal σ → AttrVal σ → Bool
  | .none, .none => true
  | .one v, .one w => valEq e eq v w
  | .many l, .many m => listEqBy (valEq e eq) l m
  | _, _ => false

/-- `==` of two components (/repo/src/ics/component.py:13-26, event.py:54, 251, todo.py:21, icalendar.py:15,
alarm.py:26, 47, 60, 73, 86): of the same class, with equal `extra`, `extra_params` and attributes. -/
def objEq {σ : Type} (e : Env) (eq : σ → σ → Bool) (a b : Obj σ) : Bool :=
  decide (a.cls = b.cls) && (a.extraName == b.extraName && itemsEq a.extra b.extra) &&
    dictEqBy extraValEq a.extraParams b.extraParams &&
    a.cls.attrChecks.all fun kc => attrEq e eq (a.get kc.1) (b.get kc.1)

/-- `==` of two alarms (/repo/src/ics/alarm.py:26, 47, 60, 73, 86). -/
def alarmEq (e : Env) (a b : Alarm) : Bool := objEq e (fun x _ => nomatch x) a b

/-- `==` of two events or todos (/repo/src/ics/event.py:54, 251, todo.py:21). -/
def entryEq (e : Env) (a b : EntryObj) : Bool := objEq e (alarmEq e) a b

/-- `==` of two calendars (/repo/src/ics/icalendar.py:15); the timeline (line 76) is not an attribute of attrs. -/
def calendarEq (e : Env) (a b : CalObj) : Bool := objEq e (entryEq e) a b

/-- What `hash` makes of the state of a naive `datetime`, of a `timedelta`, of `None`, of a string and of a tuple of hashes
(used by the hash of /repo/src/ics/timespan.py:155).  Every theorem holds for all of them. -/
structure HashFns where
  naive : Int → Int
  delta : Int → Int
  none : Int
  prec : Precision → Int
  tuple : List Int → Int

/-- `hash(dt)` (`datetime.__hash__`, datetime.py:2222-2235 of CPython; used by the hash of /repo/src/ics/timespan.py:155):
`fold` is set to 0 first. -/
def dtHash (e : Env) (H : HashFns) (d : DT) : Int :=
  match d.tz with
  | .none => H.naive d.wall
  | some t => H.delta (d.wall - e.tzOff t d.wall false)

/-- `hash(span)`, generated by attrs (`frozen=True, eq=True`, /repo/src/ics/timespan.py:155; `_make_hash` of attrs 22.1): the
hash of a constant that is the same for all subclasses and of the attributes. -/
def spanHash (e : Env) (H : HashFns) (salt : Int) (s : Span) : Int :=
  H.tuple [salt, (s.begin?.map (dtHash e H)).getD H.none, (s.end?.map (dtHash e H)).getD H.none,
    (s.dur?.map H.delta).getD H.none, H.prec s.prec]

end Ics
